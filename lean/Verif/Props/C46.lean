import Verif.Props.C44
import Verif.Props.C27_C29
import Verif.Props.C43
import Verif.Props.C47
import Verif.Props.C09
/-!
# C46: a gain shifts every loudness

In exact arithmetic. The histories are queues: a histogram stores bin numbers, so there a gain acts only up to the
width of a bin.
-/

set_option linter.unusedSimpArgs false

namespace Verif
open Spec

/-- The same frames, every sample multiplied by `g`. -/
def Spec.amplify (g : ℝ) (evs : List (Event ℝ)) : List (Event ℝ) := evs.map fun ev => ⟨ev.measured, ev.frame.map (g * ·)⟩

/-- The input with every floating-point sample multiplied by `g`. -/
noncomputable def Spec.louder (g : ℝ) : Input ℝ ℝ → Input ℝ ℝ
  | .f32 l => .f32 (l.map (g * ·))
  | .f64 l => .f64 (l.map (g * ·))
  | .pf32 l => .pf32 (l.map (·.map (g * ·)))
  | .pf64 l => .pf64 (l.map (·.map (g * ·)))
  | x => x

/-- Floating-point samples. -/
def Spec.IsFloat : Input ℝ ℝ → Prop
  | .f32 _ | .f64 _ | .pf32 _ | .pf64 _ => True
  | _ => False

/-- The absolute gate of the code. -/
noncomputable def Spec.absoluteGate : ℝ := 117246530458229809506033624374 / 10 ^ 36

/-- The absolute gate is -70 LUFS. -/
theorem absoluteGate_level : |absoluteGate - 10 ^ ((-70 + 691 / 1000 : ℝ) / 10)| ≤
    3 / 10 ^ 14 * 10 ^ ((-70 + 691 / 1000 : ℝ) / 10) := by
  have h := boundary_exact (i := 0) (by omega)
  rw [show boundariesN.getD 0 0 = 117246530458229809506033624374 from rfl] at h
  rw [show (-70 + ((0 : Nat) : ℝ) / 10 + 691 / 1000 : ℝ) = -70 + 691 / 1000 by norm_num] at h
  unfold absoluteGate
  exact_mod_cast h

variable {bs : BSearch} {u : Nat}

/-! ## The signal -/

theorem getD_scale (g : ℝ) (l : List ℝ) (k : Nat) : (l.map (g * ·)).getD k 0 = g * l.getD k 0 := by
  simp only [List.getD_eq_getElem?_getD, List.getElem?_map]
  cases l[k]? <;> simp

theorem internal_scale (g : ℝ) (a : V5 ℝ) (xs : List ℝ) :
    internal exactArith a 0 (xs.map (g * ·)) = (internal exactArith a 0 xs).map (g * ·) := by
  induction xs using List.reverseRecOn with
  | nil => rfl
  | append_singleton xs x ih =>
    unfold internal at ih ⊢
    rw [List.map_append, List.foldl_append, ih, List.foldl_append]
    generalize xs.foldl _ _ = v
    simp only [List.map_cons, List.map_nil, List.foldl_cons, List.foldl_nil, past, getD_scale]
    congr 1
    simp only [exactArith]
    ring

theorem response_scale (g : ℝ) (b : V5 ℝ) (v : List ℝ) :
    response exactArith b 0 (v.map (g * ·)) = g * response exactArith b 0 v := by
  simp only [response, past, getD_scale, exactArith]
  ring

theorem filtered_scale (g : ℝ) (b a : V5 ℝ) (xs : List ℝ) :
    filtered exactArith b a 0 (xs.map (g * ·)) = (filtered exactArith b a 0 xs).map (g * ·) := by
  simp only [filtered, List.length_map, List.map_map]
  apply List.map_congr_left
  intro k _
  rw [← List.map_take, internal_scale, response_scale]
  rfl

theorem outs_scale (g : ℝ) (b a : V5 ℝ) (evs : List (Event ℝ)) (c : Nat) :
    outs exactArith b a 0 (amplify g evs) c = (outs exactArith b a 0 evs c).map (g * ·) := by
  have hc : chan 0 c (amplify g evs) = (chan 0 c evs).map (g * ·) := by
    simp only [chan, amplify, List.map_map]
    apply List.map_congr_left
    intro ev _
    exact getD_scale g ev.frame c
  unfold outs
  rw [hc, filtered_scale, amplify, List.zip_map, List.filterMap_map, List.map_filterMap]
  apply List.filterMap_congr
  rintro ⟨y, ev⟩ _
  simp only [Function.comp, Prod.map]
  cases ev.measured <;> rfl

theorem count_scale (g : ℝ) (evs : List (Event ℝ)) : count (amplify g evs) = count evs := by
  simp only [count, amplify, List.filter_map, List.length_map]
  rfl

/-- **C46**, the signal: a gain of `g` multiplies the K-weighted signal of every channel by `g`. -/
theorem C46_signal {g : ℝ} {rate channels : Nat} {ops ops' : List (Op ℝ ℝ)}
    (h : heard (exactEnv bs u) channels ops' = amplify g (heard (exactEnv bs u) channels ops)) (c : Nat) :
    signal (exactEnv bs u) rate channels ops' c = (signal (exactEnv bs u) rate channels ops c).map (g * ·) := by
  unfold signal
  rw [h]
  exact outs_scale g _ _ _ c

theorem measured_scale {g : ℝ} {channels : Nat} {ops ops' : List (Op ℝ ℝ)}
    (h : heard (exactEnv bs u) channels ops' = amplify g (heard (exactEnv bs u) channels ops)) :
    measured (exactEnv bs u) channels ops' = measured (exactEnv bs u) channels ops := by
  unfold measured
  rw [h, count_scale]

/-! ## Energies -/

theorem lastN_scale (g : ℝ) (N : Nat) (ys : List ℝ) : lastN 0 N (ys.map (g * ·)) = (lastN 0 N ys).map (g * ·) := by
  unfold lastN
  rw [List.length_map, List.map_drop, List.map_append, List.map_replicate, mul_zero]

theorem readOrder_scale (g : ℝ) (L n : Nat) (w : List ℝ) :
    readOrder L n (w.map (g * ·)) = (readOrder L n w).map (g * ·) := by
  unfold readOrder
  rw [List.length_map]
  split
  · rw [List.map_append, List.map_drop, List.map_take]
  · rfl

theorem sumSq_scale (g : ℝ) (l : List ℝ) : sumSq exactArith (l.map (g * ·)) = g ^ 2 * sumSq exactArith l := by
  unfold sumSq
  induction l using List.reverseRecOn with
  | nil => simp [exactArith]
  | append_singleton l x ih =>
    rw [List.map_append, List.foldl_append, ih, List.foldl_append]
    simp only [List.map_cons, List.map_nil, List.foldl_cons, List.foldl_nil, exactArith]
    ring

theorem weighted_scale (k : ℝ) (ch : Channel) (s : ℝ) : weighted exactArith ch (k * s) = k * weighted exactArith ch s := by
  unfold weighted
  split
  · rfl
  · simp only [exactArith]
    ring

theorem channelSum_scale (k : ℝ) (cm : List Channel) {f f' : Nat → ℝ} (h : ∀ c, f' c = k * f c) :
    channelSum exactArith cm f' = k * channelSum exactArith cm f := by
  unfold channelSum
  generalize cm.zipIdx = l
  induction l using List.reverseRecOn with
  | nil => simp [exactArith]
  | append_singleton l x ih =>
    rw [List.foldl_append, ih, List.foldl_append]
    simp only [List.foldl_cons, List.foldl_nil]
    split
    · rfl
    · rw [h, weighted_scale]
      simp only [exactArith]
      ring

/-- **C46**, energies: a gain of `g` multiplies the energy of every window by `g²`. -/
theorem C46_energy {g : ℝ} {rate channels : Nat} {ops ops' : List (Op ℝ ℝ)}
    (h : heard (exactEnv bs u) channels ops' = amplify g (heard (exactEnv bs u) channels ops)) (L N n : Nat)
    (cm : List Channel) :
    energy (exactEnv bs u) L N n cm (signal (exactEnv bs u) rate channels ops') =
      g ^ 2 * energy (exactEnv bs u) L N n cm (signal (exactEnv bs u) rate channels ops) := by
  unfold energy
  rw [exact_f64]
  rw [channelSum_scale (g ^ 2) cm (f := fun c => sumSq exactArith (readOrder L n (lastN exactArith.zero N
    ((signal (exactEnv bs u) rate channels ops c).take n))))]
  · simp only [exactArith]
    ring
  · intro c
    rw [C46_signal h, ← List.map_take, show exactArith.zero = (0 : ℝ) from rfl, lastN_scale, readOrder_scale,
      sumSq_scale]

/-! ## Loudness of a window -/

/-- A gain in decibels. -/
noncomputable def Spec.gainDb (g : ℝ) : ℝ := 20 * Real.logb 10 g

theorem lufs_scale {g x : ℝ} (hg : 0 < g) (hx : 0 < x) :
    lufsD (exactEnv bs u) (g ^ 2 * x) = lufsD (exactEnv bs u) x + gainDb g := by
  unfold lufsD gainDb
  simp only [exactEnv, exactArith]
  rw [Real.logb_mul (by positivity) hx.ne', Real.logb_pow]
  push_cast
  ring

theorem level_pos {x : ℝ} (hx : 0 < x) : level (exactEnv bs u) x = lufsD (exactEnv bs u) x := by
  unfold level
  rw [if_neg (by simp [exactEnv, exactArith, hx])]
  rfl

/-- **C46**, windows: a gain of `g` adds `20 log10 g` to the momentary loudness, to the short-term loudness and to
the loudness of every window, as long as the window is not silent. -/
theorem C46_windows {g : ℝ} (hg : 0 < g) {e0 e e' : Ebu ℝ ℝ} (h0 : Started (exactEnv bs u) e0)
    (ha : Adequate e0.mode e0.rate e0.window) {ops ops' : List (Op ℝ ℝ)} (hops : ∀ op ∈ ops, Feed op)
    (hops' : ∀ op ∈ ops', Feed op)
    (h : heard (exactEnv bs u) e0.channels ops' = amplify g (heard (exactEnv bs u) e0.channels ops))
    (he : runOps (exactEnv bs u) e0 ops = .done e) (he' : runOps (exactEnv bs u) e0 ops' = .done e') :
    let en := fun N => energy (exactEnv bs u) (capacity e0.rate e0.window) N (measured (exactEnv bs u) e0.channels ops)
      e0.channelMap (signal (exactEnv bs u) e0.rate e0.channels ops)
    (∀ v, 0 < en (4 * hop e0.rate) → ask (exactEnv bs u) e .loudnessMomentary = .done (.ok v) →
      ask (exactEnv bs u) e' .loudnessMomentary = .done (.ok (v + gainDb g))) ∧
    (∀ v, 0 < en (30 * hop e0.rate) → ask (exactEnv bs u) e .loudnessShortterm = .done (.ok v) →
      ask (exactEnv bs u) e' .loudnessShortterm = .done (.ok (v + gainDb g))) ∧
    ∀ (w : UInt32) v, 0 < en (e0.rate * w.toNat / 1000) → ask (exactEnv bs u) e (.loudnessWindow w) = .done (.ok v) →
      ask (exactEnv bs u) e' (.loudnessWindow w) = .done (.ok (v + gainDb g)) := by
  intro en
  obtain ⟨a1, a2, a3⟩ := C15_windows rfl h0 ha hops he
  obtain ⟨b1, b2, b3⟩ := C15_windows rfl h0 ha hops' he'
  have key : ∀ N, 0 < en N → level (exactEnv bs u) (energy (exactEnv bs u) (capacity e0.rate e0.window) N
      (measured (exactEnv bs u) e0.channels ops') e0.channelMap (signal (exactEnv bs u) e0.rate e0.channels ops')) =
      level (exactEnv bs u) (en N) + gainDb g := by
    intro N hN
    rw [measured_scale h, C46_energy h, level_pos (mul_pos (by positivity) hN), level_pos hN, lufs_scale hg hN]
  refine ⟨?_, ?_, ?_⟩
  · intro v hv hask
    rw [a1] at hask
    injection hask with hask
    injection hask with hask
    rw [b1]
    dsimp only
    rw [key _ hv, ← hask]
  · intro v hv hask
    rw [a2] at hask
    rw [b2]
    injection hask with hask
    split at hask
    · cases hask
    · next hL =>
      injection hask with hask
      rw [if_neg hL]
      dsimp only
      rw [key _ hv, ← hask]
  · intro w v hv hask
    rw [a3] at hask
    rw [b3]
    injection hask with hask
    split at hask
    · cases hask
    · next hL =>
      injection hask with hask
      rw [if_neg hL]
      dsimp only
      rw [key _ hv, ← hask]

/-! ## Histories -/

theorem exact_gate : gate0 (exactEnv bs u) = absoluteGate := by
  norm_num [gate0, exactEnv, exactArith, absoluteGate]

theorem absoluteGate_pos : 0 < absoluteGate := by unfold absoluteGate; norm_num

/-- Adding louder blocks to a queue. -/
theorem foldl_scale {k : ℝ} (max : Nat) {xs : List ℝ} (h1 : ∀ x ∈ xs, absoluteGate ≤ x)
    (h2 : ∀ x ∈ xs, absoluteGate ≤ k * x) : ∀ q : List ℝ, (∀ x ∈ q, absoluteGate ≤ x) →
    ∃ q', xs.foldl (History.addP (exactEnv bs u)) (.queue q max) = .queue q' max ∧
      (xs.map (k * ·)).foldl (History.addP (exactEnv bs u)) (.queue (q.map (k * ·)) max) =
        .queue (q'.map (k * ·)) max ∧ (∀ x ∈ q', absoluteGate ≤ x) ∧ (xs ≠ [] → q' ≠ []) := by
  induction xs with
  | nil => intro q hq; exact ⟨q, rfl, rfl, hq, fun h => absurd rfl h⟩
  | cons x xs ih =>
    intro q hq
    have hadd : ∀ (y : ℝ) (p : List ℝ), absoluteGate ≤ y →
        (History.queue p max).addP (exactEnv bs u) y = .queue (queueAdd p max y) max := by
      intro y p hy
      unfold History.addP
      rw [if_neg]
      rw [exact_gate]
      simp [exactEnv, exactArith, hy]
    have hx := h1 x (by simp)
    obtain ⟨q', g1, g2, g3, g4⟩ := ih (fun y hy => h1 y (by simp [hy])) (fun y hy => h2 y (by simp [hy]))
      (queueAdd q max x) (by
        intro y hy
        unfold queueAdd at hy
        rcases List.mem_append.1 hy with hy | hy
        · split at hy
          · exact hq y (List.mem_of_mem_drop hy)
          · exact hq y hy
        · rw [List.mem_singleton.1 hy]; exact hx)
    refine ⟨q', ?_, ?_, g3, fun _ => ?_⟩
    · rw [List.foldl_cons, hadd x q hx, g1]
    · rw [List.map_cons, List.foldl_cons, hadd _ _ (h2 x (by simp))]
      rw [← g2]
      congr 2
      unfold queueAdd
      rw [List.length_map]
      split <;> simp
    · by_cases hxs : xs = []
      · subst hxs
        rw [List.foldl_nil] at g1
        injection g1 with g1
        rw [← g1]
        simp [queueAdd]
      · exact g4 hxs

theorem exact_lt (x y : ℝ) : ((exactEnv bs u).f64.lt x y = true) = (x < y) := by simp [exactEnv, exactArith]
theorem exact_le (x y : ℝ) : ((exactEnv bs u).f64.le x y = true) = (x ≤ y) := by simp [exactEnv, exactArith]

theorem exact_mean (q : List ℝ) : mean (exactEnv bs u).f64 q = q.sum / q.length := by
  unfold mean
  rw [exact_f64, exact_total]
  simp [exactArith]

theorem mean_scale (k : ℝ) (q : List ℝ) : mean (exactEnv bs u).f64 (q.map (k * ·)) = k * mean (exactEnv bs u).f64 q := by
  rw [exact_mean, exact_mean, List.length_map, List.sum_map_mul_left, List.map_id', mul_div_assoc]

theorem gateLevel_scale (k : ℝ) (q : List ℝ) :
    gateLevel (exactEnv bs u) (q.map (k * ·)) = k * gateLevel (exactEnv bs u) q := by
  unfold gateLevel
  rw [mean_scale]
  exact mul_assoc ..

theorem passing_scale {k : ℝ} (hk : 0 < k) (q : List ℝ) :
    passing (exactEnv bs u) (q.map (k * ·)) = (passing (exactEnv bs u) q).map (k * ·) := by
  unfold passing
  rw [List.filter_map, gateLevel_scale]
  congr 1
  apply List.filter_congr
  intro x _
  rw [Bool.eq_iff_iff, Function.comp, exact_le, exact_le]
  exact mul_le_mul_iff_right₀ hk

theorem mean_pos {q : List ℝ} (hq : ∀ x ∈ q, 0 < x) (hne : q ≠ []) : 0 < mean (exactEnv bs u).f64 q := by
  rw [exact_mean]
  refine div_pos (List.sum_pos q hq hne) ?_
  exact_mod_cast List.length_pos_iff.2 hne

theorem exact_tenth_eq : tenth (exactEnv bs u) = 1 / 10 := by
  simp only [tenth, exactEnv, exactArith]
  norm_num [Real.rpow_neg_one]

theorem passing_ne_nil {q : List ℝ} (hq : ∀ x ∈ q, 0 < x) (hne : q ≠ []) : passing (exactEnv bs u) q ≠ [] := by
  intro h
  unfold passing at h
  rw [List.filter_eq_nil_iff] at h
  have hp := mean_pos (bs := bs) (u := u) hq hne
  have hg : gateLevel (exactEnv bs u) q = mean (exactEnv bs u).f64 q / 10 := by
    unfold gateLevel
    rw [exact_tenth_eq]
    show mean (exactEnv bs u).f64 q * (1 / 10) = _
    ring
  have hlt : ∀ x ∈ q, x < mean (exactEnv bs u).f64 q := by
    intro x hx
    have := h x hx
    rw [exact_le, hg, not_le] at this
    linarith
  have hs := List.sum_lt_sum_of_ne_nil hne (fun x => x) (fun _ => mean (exactEnv bs u).f64 q) hlt
  have hl : (0 : ℝ) < q.length := by exact_mod_cast List.length_pos_iff.2 hne
  rw [List.map_id', List.map_const', List.sum_replicate, exact_mean, nsmul_eq_mul, mul_div_cancel₀ _ hl.ne'] at hs
  exact lt_irrefl _ hs

/-- Integrated loudness of a queue in exact arithmetic. -/
theorem exact_integrated {e : Ebu ℝ ℝ} (hi : e.Inv (exactEnv bs u)) (hI : e.mode.contains Mode.I = true) {q : List ℝ}
    {max : Nat} (hq : e.blockEnergyHistory = .queue q max) (hpos : ∀ x ∈ q, 0 < x) (hne : q ≠ []) :
    e.loudnessGlobal (exactEnv bs u) = .done (.ok (lufsD (exactEnv bs u) (mean (exactEnv bs u).f64
      (passing (exactEnv bs u) q)))) := by
  rw [Ebu.loudnessGlobal_eq hi, if_pos hI, hq]
  congr 2
  rw [gated_outcome (gating_queue_any exact_tenth max (zero_add _) rfl),
    if_neg fun h => passing_ne_nil hpos hne (List.length_eq_zero_iff.1 h)]
  rfl

theorem exact_threshold {e : Ebu ℝ ℝ} (hI : e.mode.contains Mode.I = true) {q : List ℝ}
    {max : Nat} (hq : e.blockEnergyHistory = .queue q max) (hne : q ≠ []) :
    e.relativeThreshold (exactEnv bs u) = .ok (lufsD (exactEnv bs u) (gateLevel (exactEnv bs u) q)) := by
  unfold Ebu.relativeThreshold
  rw [hI, hq]
  simp only [Bool.not_true, Bool.false_eq_true, if_false]
  congr 1
  unfold History.relativeThreshold gateLevel mean
  simp only [History.calcRelativeThreshold, List.length_eq_zero_iff, exact_tenth, hne]
  rfl

/-! ## Loudness range -/

theorem exact_pct (max : Nat) : PctOk (exactEnv bs u) max := by
  intro n
  have key : ∀ x : ℝ, x < n + 1 → min max ⌊x⌋₊ ≤ n := fun x hx => by
    refine (Nat.min_le_right _ _).trans ?_
    rcases le_or_gt 0 x with h0 | h0
    · exact Nat.lt_succ_iff.1 ((Nat.floor_lt h0).2 (by push_cast; exact hx))
    · rw [Nat.floor_of_nonpos h0.le]; exact Nat.zero_le _
  have hn : (0 : ℝ) ≤ n := Nat.cast_nonneg n
  constructor
  · refine key _ ?_
    simp only [exactEnv, exactArith]
    push_cast
    linarith
  · refine key _ ?_
    simp only [exactEnv, exactArith]
    push_cast
    linarith

theorem queueRange_scale {g : ℝ} (hg : 0 < g) {q : List ℝ} (hq : ∀ x ∈ q, 0 < x) :
    queueRangeP (exactEnv bs u) (q.map (g ^ 2 * ·)) = queueRangeP (exactEnv bs u) q := by
  have hk : 0 < g ^ 2 := by positivity
  unfold queueRangeP
  have hm : (exactEnv bs u).f64.mul (gateFactor (exactEnv bs u) (-20)) ((exactEnv bs u).f64.div
      (sumD (exactEnv bs u).f64 (q.map (g ^ 2 * ·))) ((exactEnv bs u).f64.ofInt (q.map (g ^ 2 * ·)).length)) =
      g ^ 2 * (exactEnv bs u).f64.mul (gateFactor (exactEnv bs u) (-20)) ((exactEnv bs u).f64.div
      (sumD (exactEnv bs u).f64 q) ((exactEnv bs u).f64.ofInt q.length)) := by
    change gateFactor (exactEnv bs u) (-20) * mean (exactEnv bs u).f64 (q.map (g ^ 2 * ·)) =
      g ^ 2 * (gateFactor (exactEnv bs u) (-20) * mean (exactEnv bs u).f64 q)
    rw [mean_scale]; ring
  rw [hm]
  generalize (exactEnv bs u).f64.mul (gateFactor (exactEnv bs u) (-20)) ((exactEnv bs u).f64.div
      (sumD (exactEnv bs u).f64 q) ((exactEnv bs u).f64.ofInt q.length)) = gate
  dsimp only
  have hd : (q.map (g ^ 2 * ·)).dropWhile (fun v => (exactEnv bs u).f64.lt v (g ^ 2 * gate)) =
      (q.dropWhile fun v => (exactEnv bs u).f64.lt v gate).map (g ^ 2 * ·) := by
    rw [List.dropWhile_map]
    congr 2
    funext v
    rw [Bool.eq_iff_iff, Function.comp, exact_lt, exact_lt]
    exact mul_lt_mul_iff_right₀ hk
  rw [hd]
  have hpos : ∀ x ∈ q.dropWhile fun v => (exactEnv bs u).f64.lt v gate, 0 < x := fun x hx =>
    hq x ((List.dropWhile_sublist _).subset hx)
  generalize q.dropWhile (fun v => (exactEnv bs u).f64.lt v gate) = p at hpos
  by_cases hp : p = []
  · subst hp; rfl
  rw [if_neg hp, if_neg (by simpa using hp), List.length_map, show (exactEnv bs u).f64.zero = (0 : ℝ) from rfl,
    getD_scale, getD_scale]
  have hl : 0 < p.length := List.length_pos_iff.2 hp
  have hin : ∀ k, k ≤ p.length - 1 → 0 < p.getD k 0 := by
    intro k hk
    have hk' : k < p.length := by omega
    rw [List.getD_eq_getElem?_getD, List.getElem?_eq_getElem hk']
    exact hpos _ (List.getElem_mem hk')
  obtain ⟨p1, p2⟩ := exact_pct (bs := bs) (u := u) (exactEnv bs u).usizeMax (p.length - 1)
  rw [energyToLoudness_eq, energyToLoudness_eq, energyToLoudness_eq, energyToLoudness_eq, lufs_scale hg (hin _ p1),
    lufs_scale hg (hin _ p2)]
  exact add_sub_add_right_eq_sub _ _ _

theorem range_scale {g : ℝ} (hg : 0 < g) {q : List ℝ} (max : Nat) (hq : ∀ x ∈ q, 0 < x) :
    rangeP (exactEnv bs u) (.queue (q.map (g ^ 2 * ·)) max) = rangeP (exactEnv bs u) (.queue q max) := by
  have hk : 0 < g ^ 2 := by positivity
  have hn : ∀ q : List ℝ, ¬ (2 ≤ q.length ∧ q.any (exactEnv bs u).f64.isNan = true) := by
    rintro q ⟨-, h⟩
    obtain ⟨x, -, hx⟩ := List.any_eq_true.1 h
    cases hx
  unfold rangeP
  dsimp only
  rw [if_neg (hn _), if_neg (hn _), ← List.map_mergeSort (r := sortLe (exactEnv bs u).f64)]
  · exact queueRange_scale hg fun x hx => hq x (List.mem_mergeSort.1 hx)
  · intro x _ y _
    have e1 : (exactEnv bs u).f64.le (g ^ 2 * x) (g ^ 2 * y) = (exactEnv bs u).f64.le x y := by
      rw [Bool.eq_iff_iff, exact_le, exact_le]; exact mul_le_mul_iff_right₀ hk
    have e2 : (exactEnv bs u).f64.le (g ^ 2 * y) (g ^ 2 * x) = (exactEnv bs u).f64.le y x := by
      rw [Bool.eq_iff_iff, exact_le, exact_le]; exact mul_le_mul_iff_right₀ hk
    unfold sortLe
    rw [e1, e2]
    rfl

/-! ## The property -/

/-- Energies of the gating blocks and of the short-term blocks a history of calls completes. -/
noncomputable def Spec.gatingEnergies (e0 : Ebu ℝ ℝ) (E : Env ℝ ℝ) (ops : List (Op ℝ ℝ)) : List ℝ :=
  (blockEnds (hop e0.rate) (measured E e0.channels ops)).map fun m =>
    energy E (capacity e0.rate e0.window) (4 * hop e0.rate) m e0.channelMap (signal E e0.rate e0.channels ops)

noncomputable def Spec.shortEnergies (e0 : Ebu ℝ ℝ) (E : Env ℝ ℝ) (ops : List (Op ℝ ℝ)) : List ℝ :=
  (shortEnds (hop e0.rate) (measured E e0.channels ops)).map fun m =>
    energy E (capacity e0.rate e0.window) (30 * hop e0.rate) m e0.channelMap (signal E e0.rate e0.channels ops)

/-- **C46**, integrated loudness: if all blocks are above the absolute gate before and after, a gain of `g` adds
`20 log10 g` to the integrated loudness and to the relative threshold. Any length, any limit of the history. -/
theorem C46_integrated {g : ℝ} (hg : 0 < g) {e0 e e' : Ebu ℝ ℝ} (h0 : Started (exactEnv bs u) e0)
    (ha : Adequate e0.mode e0.rate e0.window) (hI : e0.mode.contains Mode.I = true) {max : Nat}
    (hq : e0.blockEnergyHistory = .queue [] max) {ops ops' : List (Op ℝ ℝ)} (hops : ∀ op ∈ ops, Feed op)
    (hops' : ∀ op ∈ ops', Feed op)
    (h : heard (exactEnv bs u) e0.channels ops' = amplify g (heard (exactEnv bs u) e0.channels ops))
    (he : runOps (exactEnv bs u) e0 ops = .done e) (he' : runOps (exactEnv bs u) e0 ops' = .done e')
    (hne : gatingEnergies e0 (exactEnv bs u) ops ≠ [])
    (h1 : ∀ x ∈ gatingEnergies e0 (exactEnv bs u) ops, absoluteGate ≤ x)
    (h2 : ∀ x ∈ gatingEnergies e0 (exactEnv bs u) ops, absoluteGate ≤ g ^ 2 * x) :
    ∃ v t, e.loudnessGlobal (exactEnv bs u) = .done (.ok v) ∧ e.relativeThreshold (exactEnv bs u) = .ok t ∧
      e'.loudnessGlobal (exactEnv bs u) = .done (.ok (v + gainDb g)) ∧
      e'.relativeThreshold (exactEnv bs u) = .ok (t + gainDb g) := by
  have hr := h0.reachable
  have hi := hr.inv
  have hk : 0 < g ^ 2 := by positivity
  have b1 := (C13_blocks rfl h0 ha hops he).1 hI
  have b2 := (C13_blocks rfl h0 ha hops' he').1 hI
  rw [foldL_add _ hi.hist] at b1 b2
  injection b1 with b1
  injection b2 with b2
  have hE : gatingEnergies e0 (exactEnv bs u) ops' = (gatingEnergies e0 (exactEnv bs u) ops).map (g ^ 2 * ·) := by
    unfold gatingEnergies
    rw [measured_scale h, List.map_map]
    exact List.map_congr_left fun m _ => C46_energy h ..
  obtain ⟨q, g1, g2, g3, g4⟩ := foldl_scale (bs := bs) (u := u) (k := g ^ 2) max h1 h2 [] (by simp)
  have q1 : e.blockEnergyHistory = .queue q max := by rw [← b1, hq]; exact g1
  have q2 : e'.blockEnergyHistory = .queue (q.map (g ^ 2 * ·)) max := by
    rw [← b2, hq]
    change (gatingEnergies e0 (exactEnv bs u) ops').foldl _ _ = _
    rw [hE]; exact g2
  have hpos : ∀ x ∈ q, 0 < x := fun x hx => lt_of_lt_of_le absoluteGate_pos (g3 x hx)
  have hpos' : ∀ x ∈ q.map (g ^ 2 * ·), 0 < x := by
    intro x hx
    obtain ⟨y, hy, rfl⟩ := List.mem_map.1 hx
    exact mul_pos hk (hpos y hy)
  have hqne := g4 hne
  have m1 : e.mode.contains Mode.I = true := by rw [runFeeds_mode hops hi he]; exact hI
  have m2 : e'.mode.contains Mode.I = true := by rw [runFeeds_mode hops' hi he']; exact hI
  have hppos : ∀ x ∈ passing (exactEnv bs u) q, 0 < x := fun x hx => hpos x (List.mem_filter.1 hx).1
  refine ⟨_, _, exact_integrated (Reachable.run_ops hr he).inv m1 q1 hpos hqne, exact_threshold m1 q1 hqne, ?_, ?_⟩
  · rw [exact_integrated (Reachable.run_ops hr he').inv m2 q2 hpos' (by simpa using hqne), passing_scale hk, mean_scale,
      lufs_scale hg (mean_pos hppos (passing_ne_nil hpos hqne))]
  · rw [exact_threshold m2 q2 (by simpa using hqne), gateLevel_scale, lufs_scale hg]
    unfold gateLevel
    rw [exact_tenth_eq]
    exact mul_pos (mean_pos hpos hqne) (by norm_num)

/-- **C46**, loudness range: if all short-term blocks are above the absolute gate before and after, a gain does
not change the loudness range. -/
theorem C46_range {g : ℝ} (hg : 0 < g) {e0 e e' : Ebu ℝ ℝ} (h0 : Started (exactEnv bs u) e0)
    (ha : Adequate e0.mode e0.rate e0.window) (hL : e0.mode.contains Mode.LRA = true) {max : Nat}
    (hq : e0.shortTermBlockEnergyHistory = .queue [] max) {ops ops' : List (Op ℝ ℝ)} (hops : ∀ op ∈ ops, Feed op)
    (hops' : ∀ op ∈ ops', Feed op)
    (h : heard (exactEnv bs u) e0.channels ops' = amplify g (heard (exactEnv bs u) e0.channels ops))
    (he : runOps (exactEnv bs u) e0 ops = .done e) (he' : runOps (exactEnv bs u) e0 ops' = .done e')
    (h1 : ∀ x ∈ shortEnergies e0 (exactEnv bs u) ops, absoluteGate ≤ x)
    (h2 : ∀ x ∈ shortEnergies e0 (exactEnv bs u) ops, absoluteGate ≤ g ^ 2 * x) :
    ∃ v, e.loudnessRange (exactEnv bs u) = .done (.ok v) ∧ e'.loudnessRange (exactEnv bs u) = .done (.ok v) := by
  have hr := h0.reachable
  have hi := hr.inv
  have b1 := (C14_blocks rfl h0 ha hops he).1 hL
  have b2 := (C14_blocks rfl h0 ha hops' he').1 hL
  rw [foldL_add _ hi.stHist] at b1 b2
  injection b1 with b1
  injection b2 with b2
  have hE : shortEnergies e0 (exactEnv bs u) ops' = (shortEnergies e0 (exactEnv bs u) ops).map (g ^ 2 * ·) := by
    unfold shortEnergies
    rw [measured_scale h, List.map_map]
    exact List.map_congr_left fun m _ => C46_energy h ..
  obtain ⟨q, g1, g2, g3, -⟩ := foldl_scale (bs := bs) (u := u) (k := g ^ 2) max h1 h2 [] (by simp)
  have q1 : e.shortTermBlockEnergyHistory = .queue q max := by rw [← b1, hq]; exact g1
  have q2 : e'.shortTermBlockEnergyHistory = .queue (q.map (g ^ 2 * ·)) max := by
    rw [← b2, hq]
    change (shortEnergies e0 (exactEnv bs u) ops').foldl _ _ = _
    rw [hE]; exact g2
  have m1 : e.mode.contains Mode.LRA = true := by rw [runFeeds_mode hops hi he]; exact hL
  have m2 : e'.mode.contains Mode.LRA = true := by rw [runFeeds_mode hops' hi he']; exact hL
  refine ⟨rangeP (exactEnv bs u) e.shortTermBlockEnergyHistory, ?_, ?_⟩
  · rw [Ebu.loudnessRange_eq (exact_pct _) (exact_pct _) (Reachable.run_ops hr he).inv, if_pos m1]
  · rw [Ebu.loudnessRange_eq (exact_pct _) (exact_pct _) (Reachable.run_ops hr he').inv, if_pos m2, q1, q2,
      range_scale hg max fun x hx => lt_of_lt_of_le absoluteGate_pos (g3 x hx)]

/-! ## Amplified calls -/

theorem groups_scale (g : ℝ) (n : Nat) (l : List ℝ) : groups n (l.map (g * ·)) = (groups n l).map (·.map (g * ·)) := by
  simp only [groups, List.length_map, List.map_map]
  apply List.map_congr_left
  intro k _
  simp

theorem columns_scale (g : ℝ) (l : List (List ℝ)) :
    columns (l.map (·.map (g * ·))) = (columns l).map (·.map (g * ·)) := by
  have hl : ((l.map (·.map (g * ·))).headD []).length = (l.headD []).length := by cases l <;> simp
  simp only [columns, List.map_map]
  rw [hl]
  apply List.map_congr_left
  intro k _
  simp only [Function.comp, List.filterMap_map, List.map_filterMap]
  apply List.filterMap_congr
  intro ch _
  simp

theorem inputFrames_louder (g : ℝ) (n : Nat) {x : Input ℝ ℝ} (hx : IsFloat x) :
    inputFrames (exactEnv bs u) n (louder g x) = (inputFrames (exactEnv bs u) n x).map (·.map (g * ·)) := by
  have e1 : (f32Ops (exactEnv bs u)).toF64 = id := rfl
  have e2 : (f64Ops (exactEnv bs u)).toF64 = id := rfl
  cases x <;> first | exact hx.elim | skip
  · simp only [louder, inputFrames, e1, List.map_id]; exact groups_scale g n _
  · simp only [louder, inputFrames, e2, List.map_id]; exact groups_scale g n _
  · simp only [louder, inputFrames, e1, List.map_id, List.map_id']; exact columns_scale g _
  · simp only [louder, inputFrames, e2, List.map_id, List.map_id']; exact columns_scale g _

theorem wellFormed_louder (g : ℝ) (n : Nat) (x : Input ℝ ℝ) : WellFormed n (louder g x) ↔ WellFormed n x := by
  cases x <;> simp [louder, WellFormed]

/-- Multiplying the samples of every call by `g` is an amplification. -/
theorem C46_calls (g : ℝ) (n : Nat) {ops : List (Op ℝ ℝ)}
    (hf : ∀ op ∈ ops, ∃ x, IsFloat x ∧ (op = .addFrames x ∨ op = .seedFrames x)) :
    heard (exactEnv bs u) n (ops.map (onInput (louder g))) = amplify g (heard (exactEnv bs u) n ops) := by
  induction ops with
  | nil => rfl
  | cons op ops ih =>
    have ih := ih fun op hop => hf op (by simp [hop])
    unfold heard at ih ⊢
    rw [List.map_cons, List.flatMap_cons, ih, List.flatMap_cons]
    unfold amplify
    rw [List.map_append]
    congr 1
    obtain ⟨x, hx, rfl | rfl⟩ := hf op (by simp)
    · simp only [onInput, delivered, inputFrames_louder g n hx]
      by_cases hw : WellFormed n x
      · rw [if_pos hw, if_pos ((wellFormed_louder g n x).2 hw), List.map_map, List.map_map]; rfl
      · rw [if_neg hw, if_neg fun h => hw ((wellFormed_louder g n x).1 h)]; rfl
    · simp only [onInput, delivered, inputFrames_louder g n hx]
      by_cases hw : WellFormed n x
      · rw [if_pos hw, if_pos ((wellFormed_louder g n x).2 hw), List.map_map, List.map_map]; rfl
      · rw [if_neg hw, if_neg fun h => hw ((wellFormed_louder g n x).1 h)]; rfl

/-! ## A concrete case -/

theorem groups_single {α : Type} (l : List α) : groups 1 l = l.map ([·]) := by
  induction l with
  | nil => simp [groups]
  | cons x l ih => rw [show x :: l = [x] ++ l from rfl, groups_succ (n := 1) (by omega) (by rfl), ih]; rfl

/-- One sample of value 1 and then silence, in a mono signal of `n` frames. -/
def Demo.click (n : Nat) : List (Op ℝ ℝ) := [.addFrames (.f64 (1 :: List.replicate (n - 1) 0))]

theorem Demo.click_heard (n : Nat) :
    heard (exactEnv bs u) 1 (Demo.click n) = (1 :: List.replicate (n - 1) 0).map fun x => ⟨true, [x]⟩ := by
  have e2 : (f64Ops (exactEnv bs u)).toF64 = id := rfl
  have hw : WellFormed (D := ℝ) (S := ℝ) 1 (.f64 (1 :: List.replicate (n - 1) 0)) := Nat.mod_one _
  simp only [heard, Demo.click, List.flatMap_cons, List.flatMap_nil, List.append_nil, delivered, if_pos hw,
    inputFrames, e2, List.map_id, groups_single]
  rw [List.map_map]
  rfl

theorem outs_all (A : Arith ℝ) (b a : V5 ℝ) (z : ℝ) (F : List (List ℝ)) (c : Nat) :
    outs A b a z (F.map fun f => ⟨true, f⟩) c = filtered A b a z (F.map (·.getD c z)) := by
  unfold outs
  rw [chan_flag, ← List.map_id (filtered A b a z _), List.zip_map, List.filterMap_map]
  have hl : (filtered A b a z (F.map (·.getD c z))).length ≤ F.length := by simp [filtered]
  generalize filtered A b a z _ = ys at hl
  induction ys generalizing F with
  | nil => rfl
  | cons y ys ih =>
    cases F with
    | nil => simp at hl
    | cons f F =>
      rw [List.zip_cons_cons, List.filterMap_cons]
      simp only [Function.comp, Prod.map, if_true]
      rw [List.map_cons]
      congr 1
      exact ih F (by simpa using hl)

theorem sumSq_pos {l : List ℝ} {x : ℝ} (hx : x ∈ l) (h0 : x ≠ 0) : 0 < sumSq exactArith l := by
  have e : sumSq exactArith l = (l.map fun x => x * x).sum := by
    have : ∀ s : ℝ, l.foldl (fun s x => exactArith.add s (exactArith.mul x x)) s = s + (l.map fun x => x * x).sum := by
      clear hx
      induction l with
      | nil => intro s; simp
      | cons y l ih =>
        intro s
        rw [List.foldl_cons, ih, List.map_cons, List.sum_cons]
        simp only [exactArith]
        ring
    rw [sumSq, this]
    simp [exactArith]
  rw [e]
  have h1 : x * x ≤ (l.map fun x => x * x).sum := by
    refine List.single_le_sum ?_ _ (List.mem_map_of_mem hx)
    intro y hy
    obtain ⟨z, -, rfl⟩ := List.mem_map.1 hy
    exact mul_self_nonneg z
  exact lt_of_lt_of_le (mul_self_pos.2 h0) h1

theorem Demo.click_signal {rate n : Nat} (hr : 3364 ≤ rate) :
    ∃ y ∈ signal (exactEnv bs u) rate 1 (Demo.click n) 0, y ≠ 0 := by
  have hs : signal (exactEnv bs u) rate 1 (Demo.click n) 0 = kWeighted bs u rate (1 :: List.replicate (n - 1) 0) := by
    unfold signal kWeighted
    rw [Demo.click_heard, show ((1 : ℝ) :: List.replicate (n - 1) 0).map (fun x => (⟨true, [x]⟩ : Event ℝ)) =
      (((1 : ℝ) :: List.replicate (n - 1) 0).map ([·])).map fun f => ⟨true, f⟩ by rw [List.map_map]; rfl, outs_all,
      List.map_map]
    congr 1
    conv_rhs => rw [← List.map_id (1 :: List.replicate (n - 1) (0 : ℝ))]
    rfl
  rw [hs]
  have hl : 0 < (kWeighted bs u rate (1 :: List.replicate (n - 1) 0)).length := by simp [kWeighted, filtered]
  refine ⟨_, List.getElem_mem hl, ?_⟩
  rw [show (kWeighted bs u rate (1 :: List.replicate (n - 1) 0))[0] =
    (kWeighted bs u rate (1 :: List.replicate (n - 1) 0)).getD 0 0 by simp [List.getD, hl]]
  unfold kWeighted
  rw [filtered_getD _ _ (fun _ => 1) (by simp) (by simp)]
  rw [stateSeq_rec, stateSeq_zero _ _ (by omega), stateSeq_zero _ _ (by omega), stateSeq_zero _ _ (by omega),
    stateSeq_zero _ _ (by omega)]
  rw [coef_b]
  have hK : 0 < tan1 rate := (tan1_sign (by omega)).1 (by rw [Nat.div_eq_of_lt (by omega)]; exact Even.zero)
  have hB : 0 < gainB := Real.rpow_pos_of_pos (lt_trans one_pos gainH_one) _
  have hq : 0 < q1 := by linarith [q1_half]
  have hH := gainH_one
  have : 0 < num0 (tan1 rate) := div_pos (by positivity) (den_pos q1_half)
  simp only [mul_zero, sub_zero, mul_one, add_zero]
  exact this.ne'

theorem Demo.click_measured {n : Nat} (hn : 0 < n) : measured (exactEnv bs u) 1 (Demo.click n) = n := by
  unfold measured
  rw [Demo.click_heard]
  simp only [count, List.filter_map, List.length_map]
  rw [List.filter_eq_self.2 (by simp)]
  simp
  omega

/-- The energy of a window reaching back to the beginning is positive. -/
theorem Demo.click_energy {rate n L : Nat} (hn : 0 < n) (hr : 3364 ≤ rate) :
    0 < energy (exactEnv bs u) L n n [.left] (signal (exactEnv bs u) rate 1 (Demo.click n)) := by
  obtain ⟨y, hy, h0⟩ := Demo.click_signal (bs := bs) (u := u) (n := n) hr
  have hl : (signal (exactEnv bs u) rate 1 (Demo.click n) 0).length = n := by
    rw [signal_length, Demo.click_measured hn]
  unfold energy
  have hn' : (0 : ℝ) < n := by exact_mod_cast hn
  have hs : 0 < sumSq exactArith (readOrder L n (lastN 0 n ((signal (exactEnv bs u) rate 1 (Demo.click n) 0).take n))) := by
    refine sumSq_pos (x := y) ?_ h0
    rw [(readOrder_perm L n _).mem_iff, List.take_of_length_le hl.le]
    unfold lastN
    rw [List.drop_append, hl]
    simp [hy]
  have hc : channelSum exactArith [.left] (fun c => sumSq exactArith (readOrder L n (lastN 0 n
      ((signal (exactEnv bs u) rate 1 (Demo.click n) c).take n)))) =
      sumSq exactArith (readOrder L n (lastN 0 n ((signal (exactEnv bs u) rate 1 (Demo.click n) 0).take n))) := by
    show exactArith.add exactArith.zero (weighted exactArith .left _) = _
    rw [weighted, if_pos (by decide)]
    exact zero_add _
  rw [exact_f64, show exactArith.zero = (0 : ℝ) from rfl, hc]
  simp only [exactArith, Int.cast_natCast]
  exact div_pos hs hn'

theorem Demo.click_louder (n : Nat) (g : ℝ) : heard (exactEnv bs u) 1 ((Demo.click n).map (onInput (louder g))) =
    amplify g (heard (exactEnv bs u) 1 (Demo.click n)) := C46_calls g 1 (by
  intro op hop
  obtain rfl := List.mem_singleton.1 hop
  exact ⟨.f64 _, trivial, Or.inl rfl⟩)

theorem Demo.click_gating {n : Nat} (g : ℝ) (hn : 4 * hop 48000 = n) (hb : blockEnds (hop 48000) n = [n]) (mode : Mode) :
    gatingEnergies (Ebu.init (exactEnv bs u) 1 48000 mode) (exactEnv bs u) ((Demo.click n).map (onInput (louder g))) =
      [g ^ 2 * energy (exactEnv bs u) (capacity 48000 (minWindow mode)) n n [.left]
        (signal (exactEnv bs u) 48000 1 (Demo.click n))] := by
  have h0 : 0 < n := by rw [← hn]; exact Nat.mul_pos (by omega) (hop_pos (by omega))
  have hm := (measured_scale (Demo.click_louder (bs := bs) (u := u) n g)).trans (Demo.click_measured h0)
  unfold gatingEnergies
  change (blockEnds (hop 48000) (measured (exactEnv bs u) 1 _)).map _ = _
  rw [hm, hb, List.map_singleton]
  refine congrArg (fun x => [x]) ?_
  change energy (exactEnv bs u) (capacity 48000 (minWindow mode)) (4 * hop 48000) n [.left] (signal (exactEnv bs u) 48000 1 _) = _
  rw [hn]
  exact C46_energy (Demo.click_louder n g) ..

theorem Demo.click_short {n : Nat} (g : ℝ) (hn : 30 * hop 48000 = n) (hb : shortEnds (hop 48000) n = [n]) (mode : Mode) :
    shortEnergies (Ebu.init (exactEnv bs u) 1 48000 mode) (exactEnv bs u) ((Demo.click n).map (onInput (louder g))) =
      [g ^ 2 * energy (exactEnv bs u) (capacity 48000 (minWindow mode)) n n [.left]
        (signal (exactEnv bs u) 48000 1 (Demo.click n))] := by
  have h0 : 0 < n := by rw [← hn]; exact Nat.mul_pos (by omega) (hop_pos (by omega))
  have hm := (measured_scale (Demo.click_louder (bs := bs) (u := u) n g)).trans (Demo.click_measured h0)
  unfold shortEnergies
  change (shortEnds (hop 48000) (measured (exactEnv bs u) 1 _)).map _ = _
  rw [hm, hb, List.map_singleton]
  refine congrArg (fun x => [x]) ?_
  change energy (exactEnv bs u) (capacity 48000 (minWindow mode)) (30 * hop 48000) n [.left] (signal (exactEnv bs u) 48000 1 _) = _
  rw [hn]
  exact C46_energy (Demo.click_louder n g) ..

/-- **C46** is not empty: a mono analyzer at 48 kHz, a click, and every gain that is large enough. The one gating
block is above the gate, and so is the one short-term block. -/
theorem C46_case (h64 : 2 ^ 64 - 1 ≤ u) : ∃ e0 : Ebu ℝ ℝ, Started (exactEnv bs u) e0 ∧
    Adequate e0.mode e0.rate e0.window ∧ e0.mode = Mode.I ||| Mode.LRA ∧ e0.channels = 1 ∧
    (∃ max, e0.blockEnergyHistory = .queue [] max) ∧ (∃ max, e0.shortTermBlockEnergyHistory = .queue [] max) ∧
    (∀ n g, ∃ e, runOps (exactEnv bs u) e0 ((Demo.click n).map (onInput (louder g))) = .done e) ∧
    (∃ g0, ∀ g, g0 ≤ g → gatingEnergies e0 (exactEnv bs u) ((Demo.click 19200).map (onInput (louder g))) ≠ [] ∧
      ∀ x ∈ gatingEnergies e0 (exactEnv bs u) ((Demo.click 19200).map (onInput (louder g))), absoluteGate ≤ x) ∧
    ∃ g0, ∀ g, g0 ≤ g → shortEnergies e0 (exactEnv bs u) ((Demo.click 144000).map (onInput (louder g))) ≠ [] ∧
      ∀ x ∈ shortEnergies e0 (exactEnv bs u) ((Demo.click 144000).map (onInput (louder g))), absoluteGate ≤ x := by
  obtain ⟨e0, he⟩ := (C01_new_64 (exactEnv bs u) h64 1 48000 (Mode.I ||| Mode.LRA)).1.2
    ⟨⟨by omega, by omega, by omega, by omega⟩, by decide⟩
  have hst := Started.new he
  have hrun : ∀ n g, ∃ e, runOps (exactEnv bs u) e0 ((Demo.click n).map (onInput (louder g))) = .done e := by
    intro n g
    refine C09_plain h64 he (by omega) _ ?_
    intro op hop
    simp only [Demo.click, List.map_cons, List.map_nil, List.mem_singleton] at hop
    subst hop
    trivial
  obtain ⟨rfl, -⟩ := Ebu.new_ok he
  have big : ∀ x : ℝ, 0 < x → ∃ g0, ∀ g, g0 ≤ g → absoluteGate ≤ g ^ 2 * x := by
    intro x hx
    refine ⟨absoluteGate / x + 1, fun g hg => ?_⟩
    have h1 : 0 < absoluteGate / x := div_pos absoluteGate_pos hx
    have h2 : absoluteGate / x ≤ g ^ 2 := by nlinarith
    rwa [div_le_iff₀ hx] at h2
  have hb : blockEnds (hop 48000) 19200 = [19200] := by decide +kernel
  have hs : shortEnds (hop 48000) 144000 = [144000] := by decide +kernel
  have had : Adequate (Mode.I ||| Mode.LRA) 48000 (minWindow (Mode.I ||| Mode.LRA)) := by decide
  refine ⟨_, hst, had, rfl, rfl, ⟨_, rfl⟩, ⟨_, rfl⟩, hrun, ?_, ?_⟩
  · obtain ⟨g0, hg0⟩ := big _ (Demo.click_energy (bs := bs) (u := u) (rate := 48000) (n := 19200)
      (L := capacity 48000 (minWindow (Mode.I ||| Mode.LRA))) (by omega) (by omega))
    refine ⟨g0, fun g hg => ?_⟩
    rw [Demo.click_gating g (by decide) hb]
    exact ⟨List.cons_ne_nil _ _, fun x hx => by rw [List.mem_singleton.1 hx]; exact hg0 g hg⟩
  · obtain ⟨g0, hg0⟩ := big _ (Demo.click_energy (bs := bs) (u := u) (rate := 48000) (n := 144000)
      (L := capacity 48000 (minWindow (Mode.I ||| Mode.LRA))) (by omega) (by omega))
    refine ⟨g0, fun g hg => ?_⟩
    rw [Demo.click_short g (by decide) hs]
    exact ⟨List.cons_ne_nil _ _, fun x hx => by rw [List.mem_singleton.1 hx]; exact hg0 g hg⟩

end Verif
