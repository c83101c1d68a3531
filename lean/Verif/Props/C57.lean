import Verif.Proofs.SoftErr
import Verif.Props.C52
import Verif.Props.C54
/-!
# C57: accuracy of the whole chain, K-weighting filter included

The loudness an analyzer reports in IEEE arithmetic, against exact arithmetic from the input samples on: exact
filter coefficients, exact filter, exact weighted mean square, exact logarithm.
-/

set_option linter.unusedSimpArgs false

namespace Verif
open Spec Fl
variable {m : Libm F64} {bs bs' : BSearch} {t : Target} {u : Nat}

/-! ## Specification -/

/-- The frames that reached the filter, as real numbers. -/
noncomputable def Spec.realEvents (evs : List (Event F64)) : List (Event ℝ) :=
  evs.map fun ev => ⟨ev.measured, ev.frame.map Fl.value⟩

/-- The K-weighted values of channel `c` at the measured frames, in exact arithmetic. -/
noncomputable def Spec.idealOuts (bs : BSearch) (u rate : Nat) (evs : List (Event F64)) (c : Nat) : List ℝ :=
  outs exactArith (filterCoefficients (exactEnv bs u) ((exactEnv bs u).f64.ofInt rate)).1
    (filterCoefficients (exactEnv bs u) ((exactEnv bs u).f64.ofInt rate)).2 0 (realEvents evs) c

/-- Weighted mean square of the last `N` of `n` values. -/
noncomputable def Spec.idealPower (cm : List Channel) (N n : Nat) (ys : Nat → List ℝ) : ℝ :=
  (cm.zipIdx.map fun x => realWeight x.1 * meanSquare (lastN 0 N ((ys x.2).take n))).sum

/-- Sum of the channel weights. -/
noncomputable def Spec.totalWeight (cm : List Channel) : ℝ := (cm.map realWeight).sum

/-- Every sample of every frame is a number of magnitude at most `X`. -/
def Spec.SamplesWithin (X : ℝ) (evs : List (Event F64)) : Prop :=
  ∀ ev ∈ evs, ∀ x ∈ ev.frame, x.Finite ∧ |x.value| ≤ X

/-! ## The filter -/

/-- **C57.** At every rate from 8 kHz on the exact filter amplifies peaks at most thirteenfold. -/
theorem C57_gain (bs : BSearch) (u : Nat) {rate : Nat} (hr : 8000 ≤ rate) {X : ℝ} {xs : List ℝ}
    (hx : ∀ x ∈ xs, |x| ≤ X) : ∀ y ∈ kWeighted bs u rate xs, |y| ≤ 13 * X := by
  intro y hy
  obtain ⟨k, hk, rfl⟩ := List.getElem_of_mem hy
  have hlen : (kWeighted bs u rate xs).length = xs.length := by simp [kWeighted, filtered]
  rw [hlen] at hk
  have X0 : 0 ≤ X := (abs_nonneg _).trans (hx _ (List.getElem_mem hk))
  have e : (kWeighted bs u rate xs)[k]'(by omega) = (kWeighted bs u rate xs).getD k 0 := by
    simp [List.getD, hlen, hk]
  rw [e]
  unfold kWeighted
  rw [filtered_getD _ _ (fun n => xs.getD n 0) hk (take_eq_range _ 0 hk)]
  refine out_le bs u hr (stateSeq_rec _ _) (fun n h => stateSeq_zero _ _ h) (fun n => ?_) k
  rw [List.getD_eq_getElem?_getD]
  cases h : xs[n]? with
  | none => simpa using X0
  | some y => exact hx y (List.mem_of_getElem? h)

/-- **C57.** The filter of the code, with its rounded coefficients and its rounded arithmetic, follows the exact
filter: every output is finite and off by at most `stateGain rate / 2^38` times the peak of the input, however long
the signal is. -/
theorem C57_filter (hm : ElemWithin m (1 / 2 ^ 50)) {rate : Nat} (hr : 8000 ≤ rate) (hr' : rate ≤ 400000)
    {xs : List F64} {X : ℝ} (hX : 1 / 2 ^ 100 ≤ X) (hX' : X ≤ 2 ^ 60) (hx : ∀ x ∈ xs, x.Finite ∧ |x.value| ≤ X) :
    let c := filterCoefficients (ieeeEnv m bs t) ((ieeeEnv m bs t).f64.ofInt rate)
    List.Forall₂ (fun y Y => y.Finite ∧ |y.value - Y| ≤ stateGain rate / 2 ^ 38 * X)
      (filtered (ieeeEnv m bs t).f64p c.1 c.2 (Fl.zero false) xs) (kWeighted bs' u rate (xs.map Fl.value)) := by
  intro c
  rw [List.forall₂_iff_get]
  have l1 : (filtered (ieeeEnv m bs t).f64p c.1 c.2 (Fl.zero false) xs).length = xs.length := by simp [filtered]
  have l2 : (kWeighted bs' u rate (xs.map Fl.value)).length = xs.length := by simp [kWeighted, filtered]
  refine ⟨by rw [l1, l2], fun i h1 h2 => ?_⟩
  have := float_filtered (bs := bs) (t := t) hm bs' u hr hr' hX hX' hx (k := i) (by omega)
  have g1 : (filtered (ieeeEnv m bs t).f64p c.1 c.2 (Fl.zero false) xs).getD i (Fl.zero false) =
      (filtered (ieeeEnv m bs t).f64p c.1 c.2 (Fl.zero false) xs).get ⟨i, h1⟩ := by
    simp [List.getD, h1]
  have g2 : (kWeighted bs' u rate (xs.map Fl.value)).getD i 0 = (kWeighted bs' u rate (xs.map Fl.value)).get ⟨i, h2⟩ := by
    simp [List.getD, h2]
  rw [← g1, ← g2]
  exact this

/-! ## Signals -/

theorem forall₂_outs {B A : V5 ℝ} {R : F64 → ℝ → Prop} (evs : List (Event F64)) (c : Nat) {l : List F64}
    (h : List.Forall₂ R l (filtered exactArith B A 0 (chan 0 c (realEvents evs)))) :
    List.Forall₂ R ((l.zip evs).filterMap fun p => if p.2.measured then some p.1 else none)
      (outs exactArith B A 0 (realEvents evs) c) := by
  unfold outs
  generalize filtered exactArith B A 0 (chan 0 c (realEvents evs)) = l' at *
  unfold realEvents
  induction h generalizing evs with
  | nil => simp
  | cons h1 h2 ih =>
    cases evs with
    | nil => simp
    | cons ev evs =>
      simp only [List.zip_cons_cons, List.map_cons]
      cases hme : ev.measured
      · simpa [hme] using ih evs
      · simpa [hme] using ⟨h1, ih evs⟩

theorem chan_real (c : Nat) (evs : List (Event F64)) :
    chan 0 c (realEvents evs) = (chan (Fl.zero false) c evs).map Fl.value := by
  unfold chan realEvents
  rw [List.map_map, List.map_map]
  apply List.map_congr_left
  intro ev _
  show (ev.frame.map Fl.value).getD c 0 = (ev.frame.getD c (Fl.zero false)).value
  rw [List.getD_eq_getElem?_getD, List.getD_eq_getElem?_getD, List.getElem?_map]
  cases ev.frame[c]? with
  | none => exact (value_zero _).symm
  | some y => rfl

theorem chan_within {X : ℝ} (h0 : 0 ≤ X) {evs : List (Event F64)} (h : SamplesWithin X evs) (c : Nat) :
    ∀ x ∈ chan (Fl.zero false) c evs, x.Finite ∧ |x.value| ≤ X := by
  intro x hx
  obtain ⟨ev, hev, rfl⟩ := List.mem_map.1 hx
  rw [List.getD_eq_getElem?_getD]
  cases he : ev.frame[c]? with
  | none => exact ⟨zero64_finite, by show |(Fl.zero false : F64).value| ≤ X; rw [value_zero, abs_zero]; exact h0⟩
  | some y => exact h ev hev y (List.mem_of_getElem? he)

/-- The filter of an analyzer on any target, all frames. -/
theorem meter_near (hm : ElemWithin m (1 / 2 ^ 50)) {rate : Nat} (hr : 8000 ≤ rate) (hr' : rate ≤ 400000)
    {evs : List (Event F64 × Bool)} {X : ℝ} (hX : 1 / 2 ^ 100 ≤ X) (hX' : X ≤ 2 ^ 60)
    (hs : t.sse2 = true ∨ 1 / 2 ^ 13 ≤ X) (hx : SamplesWithin X (evs.map Prod.fst)) (c : Nat) :
    let k := filterCoefficients (ieeeEnv m bs t) ((ieeeEnv m bs t).f64.ofInt rate)
    List.Forall₂ (fun y Y => y.Finite ∧ |y.value - Y| ≤ stateGain rate / 2 ^ 38 * X)
      (meterOn (ieeeEnv m bs t) k.1 k.2 evs c).2 (idealOuts bs' u rate (evs.map Prod.fst) c) := by
  intro k
  have X0 : 0 < X := lt_of_lt_of_le (by positivity) hX
  have hw := chan_within X0.le hx c
  generalize hZ : (fun n => ((chan (Fl.zero false) c (evs.map Prod.fst)).getD n (Fl.zero false), (evs.map Prod.snd).getD n false)) = Z
  have hZ1 : ∀ n, (Z n).1 = (chan (Fl.zero false) c (evs.map Prod.fst)).getD n (Fl.zero false) := by
    intro n; rw [← hZ]
  have hseq := (meterOn_seq (ieeeEnv m bs t) k.2 k.1 Z c evs (by
    intro n p hp
    rw [← hZ]
    unfold chan
    simp only [List.getD_eq_getElem?_getD, List.getElem?_map, hp, Option.map_some, Option.getD_some]
    rfl)).2
  rw [hseq]
  refine forall₂_outs _ c ?_
  rw [List.forall₂_iff_get]
  have l2 : (filtered exactArith (filterCoefficients (exactEnv bs' u) ((exactEnv bs' u).f64.ofInt rate)).1
    (filterCoefficients (exactEnv bs' u) ((exactEnv bs' u).f64.ofInt rate)).2 0
    (chan 0 c (realEvents (evs.map Prod.fst)))).length = evs.length := by
    simp [filtered, chan, realEvents]
  refine ⟨by rw [l2]; simp, fun i h1 h2 => ?_⟩
  have hi : i < evs.length := by simpa using h1
  have g2 : (filtered exactArith (filterCoefficients (exactEnv bs' u) ((exactEnv bs' u).f64.ofInt rate)).1
    (filterCoefficients (exactEnv bs' u) ((exactEnv bs' u).f64.ofInt rate)).2 0
    (chan 0 c (realEvents (evs.map Prod.fst)))).get ⟨i, h2⟩ = (filtered exactArith
    (filterCoefficients (exactEnv bs' u) ((exactEnv bs' u).f64.ofInt rate)).1
    (filterCoefficients (exactEnv bs' u) ((exactEnv bs' u).f64.ofInt rate)).2 0
    (chan 0 c (realEvents (evs.map Prod.fst)))).getD i 0 := by
    simp [List.getD, h2]
  have hlen : i < (chan 0 c (realEvents (evs.map Prod.fst))).length := by simpa [chan, realEvents] using hi
  rw [g2, filtered_getD _ _ (fun n => (chan 0 c (realEvents (evs.map Prod.fst))).getD n 0) hlen (take_eq_range _ 0 hlen)]
  have hval : ∀ n, (chan 0 c (realEvents (evs.map Prod.fst))).getD n 0 = (Z n).1.value := by
    intro n
    rw [chan_real, hZ1, List.getD_eq_getElem?_getD, List.getD_eq_getElem?_getD, List.getElem?_map]
    cases (chan (Fl.zero false) c (evs.map Prod.fst))[n]? with
    | none => exact (value_zero _).symm
    | some y => rfl
  simp only [hval]
  have key := float_outOn (bs := bs) (t := t) hm bs' u hr hr' (Z := Z) hX hX' hs (fun n => by
    rw [hZ1, List.getD_eq_getElem?_getD]
    cases h : (chan (Fl.zero false) c (evs.map Prod.fst))[n]? with
    | none => exact ⟨zero64_finite, by show |(Fl.zero false : F64).value| ≤ X; rw [value_zero, abs_zero]; exact X0.le⟩
    | some y => exact hw y (List.mem_of_getElem? h)) i
  have g1 : ((List.range evs.length).map (outOn (ieeeEnv m bs t) k.2 k.1 Z)).get ⟨i, h1⟩ =
      outOn (ieeeEnv m bs t) k.2 k.1 Z i := by
    simp
  rw [g1]
  exact key

/-- **C57.** The filtered signal of an analyzer, on any target. Without hardware flush-to-zero the bound `X` is to be at
least `2^-13`; it need not be attained. -/
theorem C57_signal (hm : ElemWithin m (1 / 2 ^ 50)) {rate channels : Nat} (hr : 8000 ≤ rate) (hr' : rate ≤ 400000)
    {ops : List (Op F64 F32)} {X : ℝ} (hX : 1 / 2 ^ 100 ≤ X) (hX' : X ≤ 2 ^ 60) (hs : t.sse2 = true ∨ 1 / 2 ^ 13 ≤ X)
    (hx : SamplesWithin X (heard (ieeeEnv m bs t) channels ops)) (c : Nat) :
    List.Forall₂ (fun y Y => y.Finite ∧ |y.value - Y| ≤ stateGain rate / 2 ^ 38 * X)
      (signalOn (ieeeEnv m bs t) rate channels ops c)
      (idealOuts bs' u rate (heard (ieeeEnv m bs t) channels ops) c) ∧
    (∀ Y ∈ idealOuts bs' u rate (heard (ieeeEnv m bs t) channels ops) c, |Y| ≤ 13 * X) ∧
    ∀ y ∈ signalOn (ieeeEnv m bs t) rate channels ops c, Tame y := by
  have X0 : 0 < X := lt_of_lt_of_le (by positivity) hX
  have hw := chan_within X0.le hx c
  have h2 := C57_gain bs' u hr (X := X) (xs := (chan (Fl.zero false) c (heard (ieeeEnv m bs t) channels ops)).map Fl.value)
    (fun x hx => by
      obtain ⟨y, hy, rfl⟩ := List.mem_map.1 hx
      exact (hw y hy).2)
  rw [← chan_real] at h2
  have h3 := meter_near (bs := bs) (bs' := bs') (t := t) (u := u) hm hr hr' (evs := heardOn (ieeeEnv m bs t) channels
    (hop rate) 0 ops) hX hX' hs (by rw [heardOn_fst]; exact hx) c
  rw [heardOn_fst] at h3
  change List.Forall₂ _ (signalOn (ieeeEnv m bs t) rate channels ops c) _ at h3
  have h4 : ∀ Y ∈ idealOuts bs' u rate (heard (ieeeEnv m bs t) channels ops) c, |Y| ≤ 13 * X := by
    intro Y hY
    unfold idealOuts outs at hY
    obtain ⟨p, hp, hp2⟩ := List.mem_filterMap.1 hY
    split at hp2
    · cases hp2
      exact h2 _ (List.of_mem_zip hp).1
    · cases hp2
  refine ⟨h3, h4, fun y hy => ?_⟩
  obtain ⟨i, hi, rfl⟩ := List.getElem_of_mem hy
  have hi2 := h3.length_eq ▸ hi
  obtain ⟨f, g⟩ := (List.forall₂_iff_get.1 h3).2 i hi hi2
  refine ⟨f, ?_⟩
  have k := h4 _ (List.getElem_mem hi2)
  have tri := abs_sub_abs_le_abs_sub ((signalOn (ieeeEnv m bs t) rate channels ops c)[i]).value
    ((idealOuts bs' u rate (heard (ieeeEnv m bs t) channels ops) c)[i])
  have g' : |((signalOn (ieeeEnv m bs t) rate channels ops c)[i]).value -
    (idealOuts bs' u rate (heard (ieeeEnv m bs t) channels ops) c)[i]| ≤ stateGain rate / 2 ^ 38 * X := g
  have s := (stateGain_bounds hr hr').2
  have e : stateGain rate / 2 ^ 38 * X ≤ X := by
    have : stateGain rate / 2 ^ 38 ≤ 1 := by
      rw [div_le_one (by positivity)]; exact s.trans (by norm_num)
    nlinarith
  norm_num at hX' ⊢
  linarith

/-! ## Powers -/

theorem sq_near {x y ε r : ℝ} (h : |x - y| ≤ ε) (hr : 0 < r) : |x ^ 2 - y ^ 2| ≤ r * y ^ 2 + (ε ^ 2 / r + ε ^ 2) := by
  have ε0 : 0 ≤ ε := (abs_nonneg _).trans h
  have e : x ^ 2 - y ^ 2 = (x - y) * (2 * y) + (x - y) ^ 2 := by ring
  have h1 : |(x - y) * (2 * y)| ≤ ε * (2 * |y|) := by
    rw [abs_mul, abs_mul, abs_of_pos (by norm_num : (0 : ℝ) < 2)]
    exact mul_le_mul_of_nonneg_right h (by positivity)
  have h2 : |(x - y) ^ 2| ≤ ε ^ 2 := by
    rw [abs_pow]; exact pow_le_pow_left₀ (abs_nonneg _) h 2
  have h3 : ε * (2 * |y|) ≤ r * y ^ 2 + ε ^ 2 / r := by
    have : 0 ≤ (r * |y| - ε) ^ 2 / r := by positivity
    have e2 : (r * |y| - ε) ^ 2 / r = r * |y| ^ 2 - ε * (2 * |y|) + ε ^ 2 / r := by field_simp; ring
    rw [e2, sq_abs] at this
    linarith
  rw [e]
  have := abs_add_le ((x - y) * (2 * y)) ((x - y) ^ 2)
  linarith

theorem sumSq_near_list {ε r : ℝ} (hr : 0 < r) {l : List F64} {l' : List ℝ}
    (h : List.Forall₂ (fun y Y => y.Finite ∧ |y.value - Y| ≤ ε) l l') :
    |((l.map Fl.value).map fun x => x ^ 2).sum - (l'.map fun x => x ^ 2).sum| ≤
      r * (l'.map fun x => x ^ 2).sum + l'.length * (ε ^ 2 / r + ε ^ 2) := by
  induction h with
  | nil => simp
  | cons h1 _ ih =>
    have := sq_near h1.2 hr
    simp only [List.map_cons, List.sum_cons, List.length_cons]
    push_cast
    rw [add_sub_add_comm]
    refine (abs_add_le _ _).trans ?_
    linarith

theorem meanSquare_near {ε r : ℝ} (hr : 0 < r) {l : List F64} {l' : List ℝ} (h0 : 0 < l'.length)
    (h : List.Forall₂ (fun y Y => y.Finite ∧ |y.value - Y| ≤ ε) l l') :
    |meanSquare (l.map Fl.value) - meanSquare l'| ≤ r * meanSquare l' + (ε ^ 2 / r + ε ^ 2) := by
  have hR : (0 : ℝ) < l'.length := by exact_mod_cast h0
  have := sumSq_near_list hr h
  unfold meanSquare
  rw [List.length_map, h.length_eq, ← sub_div, abs_div, abs_of_pos hR, div_le_iff₀ hR]
  refine this.trans (le_of_eq ?_)
  field_simp

theorem forall₂_lastN {ε : ℝ} (h0 : 0 ≤ ε) {l : List F64} {l' : List ℝ} (N : Nat)
    (h : List.Forall₂ (fun y Y => y.Finite ∧ |y.value - Y| ≤ ε) l l') :
    List.Forall₂ (fun y Y => y.Finite ∧ |y.value - Y| ≤ ε) (lastN (Fl.zero false) N l) (lastN 0 N l') := by
  unfold lastN
  rw [h.length_eq]
  apply List.forall₂_drop
  refine List.rel_append ?_ h
  induction N with
  | zero => simp
  | succ N ih =>
    rw [List.replicate_succ, List.replicate_succ]
    exact .cons ⟨zero64_finite, by rw [value_zero, sub_zero, abs_zero]; exact h0⟩ ih

/-- Signals within `ε` of each other have close powers, up to a part `r` and the power of the difference. -/
theorem power_near (cm : List Channel) {N n : Nat} (hN : 0 < N) {ys : Nat → List F64} {Ys : Nat → List ℝ} {ε r : ℝ}
    (hε : 0 ≤ ε) (hr : 0 < r) (h : ∀ c, List.Forall₂ (fun y Y => y.Finite ∧ |y.value - Y| ≤ ε) (ys c) (Ys c)) :
    |windowPower cm N n ys - idealPower cm N n Ys| ≤
      r * idealPower cm N n Ys + (1 / r + 1) * (totalWeight cm * ε ^ 2) := by
  have hc : ∀ c, |meanSquare ((lastN (Fl.zero false) N ((ys c).take n)).map Fl.value) -
      meanSquare (lastN 0 N ((Ys c).take n))| ≤ r * meanSquare (lastN 0 N ((Ys c).take n)) + (ε ^ 2 / r + ε ^ 2) :=
    fun c => meanSquare_near hr (by rw [lastN_length]; exact hN)
      (forall₂_lastN hε N (List.forall₂_take n (h c)))
  have hsum := sum_near (l := cm.zipIdx)
    (f := fun x => realWeight x.1 * meanSquare ((lastN (Fl.zero false) N ((ys x.2).take n)).map Fl.value))
    (g := fun x => realWeight x.1 * meanSquare (lastN 0 N ((Ys x.2).take n)))
    (h := fun x => r * (realWeight x.1 * meanSquare (lastN 0 N ((Ys x.2).take n))) + (ε ^ 2 / r + ε ^ 2) * realWeight x.1)
    (fun x _ => by
      rw [← mul_sub, abs_mul, abs_of_nonneg (realWeight_nonneg _)]
      have := mul_le_mul_of_nonneg_left (hc x.2) (realWeight_nonneg x.1)
      linarith)
  have e1 : (cm.zipIdx.map fun x => r * (realWeight x.1 * meanSquare (lastN 0 N ((Ys x.2).take n))) +
      (ε ^ 2 / r + ε ^ 2) * realWeight x.1).sum = r * idealPower cm N n Ys + (ε ^ 2 / r + ε ^ 2) * totalWeight cm := by
    rw [List.sum_map_add, List.sum_map_mul_left, List.sum_map_mul_left]
    congr 2
    unfold totalWeight
    show (cm.zipIdx.map (realWeight ∘ Prod.fst)).sum = _
    rw [← List.map_map, List.zipIdx_map_fst]
  rw [e1] at hsum
  refine _root_.le_trans hsum (le_of_eq ?_)
  ring

/-- **C57.** Signals within `ε` of each other have close powers. -/
theorem C57_power (cm : List Channel) {N n : Nat} (hN : 0 < N) {ys : Nat → List F64} {Ys : Nat → List ℝ} {ε r : ℝ}
    (hε : 0 ≤ ε) (hr : 0 < r) (h : ∀ c, List.Forall₂ (fun y Y => y.Finite ∧ |y.value - Y| ≤ ε) (ys c) (Ys c))
    (hw : totalWeight cm * ε ^ 2 ≤ r ^ 2 * idealPower cm N n Ys) :
    |windowPower cm N n ys - idealPower cm N n Ys| ≤ (2 * r + r ^ 2) * idealPower cm N n Ys := by
  refine (power_near cm hN hε hr h).trans ?_
  have h2 := mul_le_mul_of_nonneg_left hw (by positivity : (0 : ℝ) ≤ 1 / r + 1)
  have e3 : (1 / r + 1) * (r ^ 2 * idealPower cm N n Ys) = (r + r ^ 2) * idealPower cm N n Ys := by field_simp
  linarith

/-- Close powers have close levels. -/
theorem lufs_within {P Q r : ℝ} (hQ : 0 < Q) (hr : 0 ≤ r) (hr' : r ≤ 1 / 10) (h : |P - Q| ≤ (2 * r + r ^ 2) * Q) :
    |lufs P - lufs Q| ≤ 12 * r := by
  have hs : 2 * r + r ^ 2 ≤ 21 / 10 * r := by nlinarith
  obtain ⟨a1, a2⟩ := abs_le.1 h
  have P0 : 0 < P := by nlinarith
  have hq : |P / Q - 1| ≤ 21 / 10 * r := by
    rw [div_sub_one hQ.ne', abs_div, abs_of_pos hQ, div_le_iff₀ hQ]
    exact h.trans (mul_le_mul_of_nonneg_right hs hQ.le)
  obtain ⟨q1, q2⟩ := abs_le.1 hq
  have z0 : 0 < P / Q := div_pos P0 hQ
  have e : lufs P - lufs Q = 10 / Real.log 10 * Real.log (P / Q) := by
    unfold lufs Real.logb
    rw [Real.log_div P0.ne' hQ.ne']
    ring
  have l10 := log10_near.1
  have L0 : 0 < Real.log 10 := by linarith
  have c : 10 / Real.log 10 ≤ 435 / 100 := by
    rw [div_le_iff₀ L0]
    norm_num at l10 ⊢
    linarith
  have hl : |Real.log (P / Q)| ≤ 27 / 10 * r := by
    have u1 := Real.log_le_sub_one_of_pos z0
    have u2 := Real.one_sub_inv_le_log_of_pos z0
    have u3 : 1 - (P / Q)⁻¹ = (P / Q - 1) / (P / Q) := by field_simp
    rw [u3] at u2
    have u4 : -(27 / 10 * r) ≤ (P / Q - 1) / (P / Q) := by
      rw [le_div_iff₀ z0]
      nlinarith
    rw [abs_le]
    constructor <;> linarith
  rw [e, abs_mul, abs_of_pos (by positivity)]
  calc _ ≤ 435 / 100 * (27 / 10 * r) := mul_le_mul c hl (abs_nonneg _) (by norm_num)
    _ ≤ _ := by linarith

/-! ## Loudness -/

/-- **C57.** Momentary, short-term and window loudness against exact arithmetic from the input samples on. With samples
up to `X`, channel weights adding up to `W` and an exact power of at least `W (stateGain rate / 2^38 X / r)^2`, the
filter contributes at most `12 r` dB; the rest is the error of C52. -/
theorem C57_windows {δ : ℝ} (hδ : δ ≤ 1) (hm : LogWithin m δ) (he : ElemWithin m (1 / 2 ^ 50))
    {e0 e : Ebu F64 F32} (h : Started (ieeeEnv m bs t) e0) (hg : Adequate e0.mode e0.rate e0.window)
    (hr : 8000 ≤ e0.rate) (hr' : e0.rate ≤ 400000) {ops : List (Op F64 F32)} (hops : ∀ op ∈ ops, Feed op)
    (hrun : runOps (ieeeEnv m bs t) e0 ops = .done e) {X : ℝ} (hX : 1 / 2 ^ 100 ≤ X) (hX' : X ≤ 2 ^ 60)
    (hs : t.sse2 = true ∨ 1 / 2 ^ 13 ≤ X) (hx : SamplesWithin X (heard (ieeeEnv m bs t) e0.channels ops)) :
    let E := ieeeEnv m bs t
    let L := capacity e0.rate e0.window
    let P := fun N => idealPower e0.channelMap N (measured E e0.channels ops) (idealOuts bs' u e0.rate (heard E e0.channels ops))
    let Accurate := fun (q : Query) (N : Nat) => ∀ r : ℝ, 0 < r → r ≤ 1 / 10 → 0 < N →
      N + e0.channelMap.length + 5 ≤ 2 ^ 49 → 1 / 2 ^ 300 ≤ P N →
      totalWeight e0.channelMap * (stateGain e0.rate / 2 ^ 38 * X) ^ 2 ≤ r ^ 2 * P N →
      ∃ v : F64, ask E e q = .done (.ok v) ∧ v.Finite ∧
        |v.value - lufs (P N)| ≤ 12 * r + 10 * δ + (N + e0.channelMap.length + 5) / 2 ^ 48 + 1 / 10 ^ 12
    Accurate .loudnessMomentary (4 * hop e0.rate) ∧
    (30 * hop e0.rate ≤ L → Accurate .loudnessShortterm (30 * hop e0.rate)) ∧
    ∀ w : UInt32, e0.rate * w.toNat ≤ t.usizeMax → e0.rate * w.toNat / 1000 ≤ L →
      Accurate (.loudnessWindow w) (e0.rate * w.toNat / 1000) := by
  intro E L P Accurate
  have hsig := fun c => C57_signal (bs := bs) (t := t) (bs' := bs') (u := u) he hr hr' hX hX' hs hx c
  obtain ⟨h1, h2, h3⟩ := C52_windows hδ hm h hg hops hrun fun c => (hsig c).2.2
  have ε0 : 0 ≤ stateGain e0.rate / 2 ^ 38 * X := by
    have := (stateGain_bounds hr hr').1
    have X0 : 0 < X := lt_of_lt_of_le (by positivity) hX
    positivity
  have key : ∀ N r, 0 < r → r ≤ 1 / 10 → 0 < N → 1 / 2 ^ 300 ≤ P N →
      totalWeight e0.channelMap * (stateGain e0.rate / 2 ^ 38 * X) ^ 2 ≤ r ^ 2 * P N →
      (1 / 2 ^ 900 ≤ power e0.channelMap fun c => lastN (Fl.zero false) N (signalOn E e0.rate e0.channels ops c)) ∧
      |lufs (power e0.channelMap fun c => lastN (Fl.zero false) N (signalOn E e0.rate e0.channels ops c)) - lufs (P N)| ≤
        12 * r := by
    intro N r r0 r1 N0 hP hw
    have hp := C57_power e0.channelMap (n := measured E e0.channels ops) N0 ε0 r0 (fun c => (hsig c).1) hw
    have e1 : windowPower e0.channelMap N (measured E e0.channels ops) (signalOn E e0.rate e0.channels ops) =
        power e0.channelMap fun c => lastN (Fl.zero false) N (signalOn E e0.rate e0.channels ops c) := by
      unfold windowPower
      congr 1
      funext c
      rw [List.take_of_length_le]
      rw [signalOn_length]
    rw [e1] at hp
    have P0 : 0 < P N := lt_of_lt_of_le (by positivity) hP
    refine ⟨?_, lufs_within P0 r0.le r1 hp⟩
    have hs2 : (2 * r + r ^ 2) * P N ≤ 1 / 2 * P N := mul_le_mul_of_nonneg_right (by nlinarith) P0.le
    have a1 := (abs_le.1 hp).1
    have k1 : (1 : ℝ) / 2 ^ 900 ≤ 1 / 2 ^ 300 / 2 := by
      rw [div_div, ← pow_succ]
      exact one_div_le_one_div_of_le (by positivity) (big_le (by norm_num))
    generalize (1 : ℝ) / 2 ^ 900 = z at *
    generalize (1 : ℝ) / 2 ^ 300 = z' at *
    linarith
  have fin : ∀ (q : Query) (N : Nat), (0 < N → N + e0.channelMap.length + 5 ≤ 2 ^ 49 →
      (1 / 2 ^ 900 ≤ power e0.channelMap fun c => lastN (Fl.zero false) N (signalOn E e0.rate e0.channels ops c)) →
      ∃ v : F64, ask E e q = .done (.ok v) ∧ v.Finite ∧
        |v.value - lufs (power e0.channelMap fun c => lastN (Fl.zero false) N (signalOn E e0.rate e0.channels ops c))| ≤
          10 * δ + (N + e0.channelMap.length + 5) / 2 ^ 48 + 1 / 10 ^ 12) → Accurate q N := by
    intro q N hq r r0 r1 N0 hK hP hw
    obtain ⟨p1, p2⟩ := key N r r0 r1 N0 hP hw
    obtain ⟨v, v1, v2, v3⟩ := hq N0 hK p1
    refine ⟨v, v1, v2, (abs_sub_le _ (lufs (power e0.channelMap fun c =>
      lastN (Fl.zero false) N (signalOn E e0.rate e0.channels ops c))) _).trans ?_⟩
    linarith
  exact ⟨fin _ _ h1, fun hc => fin _ _ (h2 hc), fun w hw hc => fin _ _ (h3 w hw hc)⟩

/-! ## Integer samples -/

/-- A call that delivers integer samples. -/
def Spec.IntegerFeed : Op F64 F32 → Prop
  | .addFrames x | .seedFrames x => match x with
    | .i16 _ | .i32 _ | .pi16 _ | .pi32 _ => True
    | _ => False
  | _ => False

/-- An integer sample divided by the size of its range is exact. -/
theorem int_value (t : Target) {i : Int} {j : Nat} (hi : i.natAbs ≤ 2 ^ j) (hj : j ≤ 31) :
    let x := (if t.sse2 then Fl.arithFtz Fmt.b64 else Fl.arith Fmt.b64).div (Fl.ofInt Fmt.b64 i)
      (Fl.lit Fmt.b64 ((2 ^ j : Nat) : Int) 1)
    x.Finite ∧ x.value = i / 2 ^ j := by
  intro x
  have hmb := amp_mb
  have hj2 : 2 ^ j ≤ 2147483648 := by
    calc 2 ^ j ≤ 2 ^ 31 := Nat.pow_le_pow_right (by omega) hj
      _ = 2147483648 := by norm_num
  have hj0 : 0 < 2 ^ j := Nat.two_pow_pos j
  obtain ⟨k1, hk1, hm1⟩ : ∃ k, k < Fmt.b64.infK ∧ Fmt.b64.mag k * 2 ^ j = i.natAbs * 2 ^ Fmt.b64.u := by
    obtain ⟨d, hu⟩ : ∃ d, Fmt.b64.u = j + (Fmt.b64.mb + d) := ⟨1022 - j, by show 1074 = j + (52 + (1022 - j)); omega⟩
    obtain ⟨k, h1, h2⟩ := exists_mag Fmt.b64 i.natAbs (Fmt.b64.mb + d) (by omega) (by omega)
      (by have : Fmt.b64.emax = 2046 := rfl; have : Fmt.b64.u = 1074 := rfl; omega)
    refine ⟨k, h1, ?_⟩
    rw [h2, hu, Nat.pow_add 2 j, Nat.mul_assoc, Nat.mul_comm (2 ^ (Fmt.b64.mb + d))]
  have hr1 : Fmt.b64.rnd (i.natAbs * 2 ^ Fmt.b64.u) (2 ^ j) = k1 := by
    rw [← hm1]; exact Fmt.b64.rnd_mag Fmt.ok64.mb (Nat.le_of_lt hk1) hj0
  have hx : x = .num (decide (i < 0)) k1 hk1.le := by
    show (if t.sse2 then Fl.arithFtz Fmt.b64 else Fl.arith Fmt.b64).div _ _ = _
    rw [flush_int_div t hi hj0 hj2, ofInt_div Fmt.ok64 (by omega) hj0 (by omega)]
    exact ext_num rfl hr1
  rw [hx]
  refine ⟨⟨_, _, _, rfl, hk1.ne⟩, ?_⟩
  have hR : (Fmt.b64.mag k1 : ℝ) * 2 ^ j = |(i : ℝ)| * 2 ^ Fmt.b64.u := by
    have : ((Fmt.b64.mag k1 * 2 ^ j : Nat) : ℝ) = ((i.natAbs * 2 ^ Fmt.b64.u : Nat) : ℝ) := by rw [hm1]
    push_cast at this
    rw [this, Nat.cast_natAbs, Int.cast_abs]
  have hq : (Fmt.b64.mag k1 : ℝ) / 2 ^ Fmt.b64.u = |(i : ℝ)| / 2 ^ j := by
    rw [div_eq_div_iff (by positivity) (by positivity), hR]
  show (if decide (i < 0) = true then -1 else 1) * ((Fmt.b64.mag k1 : ℝ) / 2 ^ Fmt.b64.u) = _
  rw [hq]
  by_cases h : i < 0
  · have hi' : (i : ℝ) < 0 := by exact_mod_cast h
    rw [abs_of_neg hi']
    simp only [h, decide_true, if_true]
    ring
  · have hi' : (0 : ℝ) ≤ i := by exact_mod_cast (not_lt.1 h)
    rw [abs_of_nonneg hi']
    simp only [h, decide_false, Bool.false_eq_true, if_false]
    ring

theorem int_within (t : Target) {i : Int} {j : Nat} (hi : i.natAbs ≤ 2 ^ j) (hj : j ≤ 31) :
    let x := (if t.sse2 then Fl.arithFtz Fmt.b64 else Fl.arith Fmt.b64).div (Fl.ofInt Fmt.b64 i)
      (Fl.lit Fmt.b64 ((2 ^ j : Nat) : Int) 1)
    x.Finite ∧ |x.value| ≤ 1 := by
  intro x
  obtain ⟨h1, h2⟩ := int_value t hi hj
  refine ⟨h1, ?_⟩
  rw [h2, abs_div, abs_of_pos (by positivity : (0 : ℝ) < 2 ^ j), div_le_one (by positivity), ← Int.cast_abs,
    ← Nat.cast_natAbs]
  exact_mod_cast hi

theorem mem_groups {α : Type} {n : Nat} {l : List α} {f : List α} (h : f ∈ groups n l) {x : α} (hx : x ∈ f) : x ∈ l := by
  obtain ⟨k, -, rfl⟩ := List.mem_map.1 h
  exact List.mem_of_mem_drop (List.mem_of_mem_take hx)

theorem mem_columns {α : Type} {l : List (List α)} {f : List α} (h : f ∈ columns l) {x : α} (hx : x ∈ f) :
    ∃ ch ∈ l, x ∈ ch := by
  obtain ⟨k, -, rfl⟩ := List.mem_map.1 h
  obtain ⟨ch, h1, h2⟩ := List.mem_filterMap.1 hx
  exact ⟨ch, h1, List.mem_of_getElem? h2⟩

/-- **C57.** Integer input needs no assumption about the samples. -/
theorem C57_integer {channels : Nat} {ops : List (Op F64 F32)} (h : ∀ op ∈ ops, IntegerFeed op) :
    SamplesWithin 1 (heard (ieeeEnv m bs t) channels ops) := by
  have c16 : ∀ x : Int16, ((i16Ops (ieeeEnv m bs t)).toF64 x).Finite ∧ |((i16Ops (ieeeEnv m bs t)).toF64 x).value| ≤ 1 := by
    intro x
    have := int_within t (i := x.toInt) (j := 15) (natAbs16 x) (by omega)
    rw [show ((2 ^ 15 : Nat) : Int) = 32768 by norm_num] at this
    simp only [i16Ops]
    cases hs : t.sse2 <;> simp only [hs, ieeeEnv, if_true, if_false, Bool.false_eq_true] at this ⊢
    · simpa only [arith_div, arith_ofInt, arith_lit] using this
    · rw [ftz_ofInt, ftz_lit]; exact this
  have c32 : ∀ x : Int32, ((i32Ops (ieeeEnv m bs t)).toF64 x).Finite ∧ |((i32Ops (ieeeEnv m bs t)).toF64 x).value| ≤ 1 := by
    intro x
    have := int_within t (i := x.toInt) (j := 31) (natAbs32 x) (by omega)
    rw [show ((2 ^ 31 : Nat) : Int) = 2147483648 by norm_num] at this
    simp only [i32Ops]
    cases hs : t.sse2 <;> simp only [hs, ieeeEnv, if_true, if_false, Bool.false_eq_true] at this ⊢
    · simpa only [arith_div, arith_ofInt, arith_lit] using this
    · rw [ftz_ofInt, ftz_lit]; exact this
  have key : ∀ x : Input F64 F32, IntegerFeed (.addFrames x) → ∀ f ∈ inputFrames (ieeeEnv m bs t) channels x,
      ∀ y ∈ f, y.Finite ∧ |y.value| ≤ 1 := by
    intro x hx f hf y hy
    cases x with
    | i16 l => obtain ⟨z, -, rfl⟩ := List.mem_map.1 (mem_groups hf hy); exact c16 z
    | i32 l => obtain ⟨z, -, rfl⟩ := List.mem_map.1 (mem_groups hf hy); exact c32 z
    | f32 l => exact hx.elim
    | f64 l => exact hx.elim
    | pi16 l =>
      obtain ⟨ch, h1, h2⟩ := mem_columns hf hy
      obtain ⟨ch', -, rfl⟩ := List.mem_map.1 h1
      obtain ⟨z, -, rfl⟩ := List.mem_map.1 h2; exact c16 z
    | pi32 l =>
      obtain ⟨ch, h1, h2⟩ := mem_columns hf hy
      obtain ⟨ch', -, rfl⟩ := List.mem_map.1 h1
      obtain ⟨z, -, rfl⟩ := List.mem_map.1 h2; exact c32 z
    | pf32 l => exact hx.elim
    | pf64 l => exact hx.elim
  intro ev hev x hx
  obtain ⟨op, hop, hd⟩ := List.mem_flatMap.1 hev
  have ho := h op hop
  cases op with
  | addFrames i =>
    simp only [delivered] at hd
    split at hd
    · obtain ⟨f, hf, rfl⟩ := List.mem_map.1 hd
      exact key i ho f hf x hx
    · simp at hd
  | seedFrames i =>
    simp only [delivered] at hd
    split at hd
    · obtain ⟨f, hf, rfl⟩ := List.mem_map.1 hd
      exact key i ho f hf x hx
    · simp at hd
  | _ => exact ho.elim

/-! ## Energies of blocks -/

/-- **C57.** The energy of any window at any time (in particular the gating blocks and the short-term blocks) against
the exact power. -/
theorem C57_energy (he : ElemWithin m (1 / 2 ^ 50)) {rate channels : Nat} (hr : 8000 ≤ rate) (hr' : rate ≤ 400000)
    {ops : List (Op F64 F32)} {X : ℝ} (hX : 1 / 2 ^ 100 ≤ X) (hX' : X ≤ 2 ^ 60) (hs : t.sse2 = true ∨ 1 / 2 ^ 13 ≤ X)
    (hx : SamplesWithin X (heard (ieeeEnv m bs t) channels ops)) (L : Nat) {N n : Nat} (cm : List Channel) (hN : 0 < N)
    (hK : N + cm.length + 5 ≤ 2 ^ 49) {r : ℝ} (h0 : 0 < r) (h1 : r ≤ 1 / 10) :
    let P := idealPower cm N n (idealOuts bs' u rate (heard (ieeeEnv m bs t) channels ops))
    let x := energy (ieeeEnv m bs t) L N n cm (signalOn (ieeeEnv m bs t) rate channels ops)
    totalWeight cm * (stateGain rate / 2 ^ 38 * X) ^ 2 ≤ r ^ 2 * P →
    x.Finite ∧ |x.value - P| ≤ (21 / 10 * r + (N + cm.length + 5) / 2 ^ 51) * P + (8 * cm.length + 1) / 2 ^ 1074 := by
  intro P x hw
  have hsig := fun c => C57_signal (bs := bs) (t := t) (bs' := bs') (u := u) he hr hr' hX hX' hs hx c
  have ε0 : 0 ≤ stateGain rate / 2 ^ 38 * X := by
    have := (stateGain_bounds hr hr').1
    have X0 : 0 < X := lt_of_lt_of_le (by positivity) hX
    positivity
  have hp : |windowPower cm N n (signalOn (ieeeEnv m bs t) rate channels ops) - P| ≤ (2 * r + r ^ 2) * P :=
    C57_power cm (n := n) hN ε0 h0 (fun c => (hsig c).1) hw
  have hf : x.Finite := C52_finite (m := m) (bs := bs) (t := t) L (n := n) cm _ hN (by omega) (by omega)
    fun c => (hsig c).2.2
  have hx' := C52_energy L cm _ (by omega) hf
  refine ⟨hf, ?_⟩
  have P0 : 0 ≤ P := by
    have := (abs_nonneg _).trans hp
    by_contra hc
    nlinarith [not_le.1 hc]
  have k1 : (2 * r + r ^ 2) * P ≤ 21 / 10 * r * P := mul_le_mul_of_nonneg_right (by nlinarith) P0
  have k2 : windowPower cm N n (signalOn (ieeeEnv m bs t) rate channels ops) ≤ 2 * P := by
    have := (abs_le.1 hp).2
    have k3 : 21 / 10 * r * P ≤ 1 * P := mul_le_mul_of_nonneg_right (by linarith) P0
    linarith
  have k4 : ((N : ℝ) + cm.length + 5) / 2 ^ 52 * windowPower cm N n (signalOn (ieeeEnv m bs t) rate channels ops) ≤
      (N + cm.length + 5) / 2 ^ 51 * P := by
    have := mul_le_mul_of_nonneg_left k2 (by positivity : (0 : ℝ) ≤ ((N : ℝ) + cm.length + 5) / 2 ^ 52)
    refine this.trans (le_of_eq ?_)
    have : (2 : ℝ) ^ 52 = 2 * 2 ^ 51 := by norm_num
    rw [this]
    generalize (2 : ℝ) ^ 51 = y
    field_simp
  have tri := abs_sub_le x.value (windowPower cm N n (signalOn (ieeeEnv m bs t) rate channels ops)) P
  generalize ((8 : ℝ) * cm.length + 1) / 2 ^ 1074 = z at *
  have e : x = energy (ieeeEnv m bs t) L N n cm (signalOn (ieeeEnv m bs t) rate channels ops) := rfl
  rw [← e] at hx'
  linarith

/-! ## Example -/

/-- A number with 90 binary places, rounded. -/
noncomputable def Demo.places (v : ℝ) : F64 := Fl.lit Fmt.b64 ⌊v * 2 ^ 90⌋ (2 ^ 90)

theorem Demo.places_wide {v : ℝ} (h1 : 1 / 2 ^ 26 ≤ v) (h2 : v ≤ 2 ^ 14) :
    (Demo.places v).Finite ∧ |(Demo.places v).value - v| ≤ 1 / 2 ^ 50 * v := by
  unfold Demo.places
  have f1 := Int.floor_le (v * 2 ^ 90)
  have f2 := Int.lt_floor_add_one (v * 2 ^ 90)
  generalize ⌊v * 2 ^ 90⌋ = n at *
  have ht := top64
  have hn : |(n : ℝ)| ≤ 2 ^ 14 * 2 ^ 90 := by
    rw [abs_le]
    norm_num at *
    constructor <;> linarith
  have hf : (Fl.lit Fmt.b64 n (2 ^ 90)).Finite := by
    refine lit_finite_int Fmt.ok64 (by norm_num) ?_
    push_cast
    norm_num at *
    linarith
  refine ⟨hf, ?_⟩
  have he := lit_err b64_ok.1 (by norm_num) hf
  have he := round_exact b64_ok.1 he
  rw [eps64] at he
  have e1 := eta64
  simp only [Nat.cast_pow, Nat.cast_ofNat] at he
  generalize (Fl.lit Fmt.b64 n (2 ^ 90)).value = w at *
  have q1 : |(n : ℝ) / 2 ^ 90 - v| ≤ 1 / 2 ^ 90 := by
    rw [abs_le]
    norm_num at *
    constructor <;> linarith
  have q2 : |(n : ℝ) / 2 ^ 90| ≤ v + 1 / 2 ^ 90 := by
    have := abs_sub_abs_le_abs_sub ((n : ℝ) / 2 ^ 90) v
    have hv : |v| = v := abs_of_nonneg (_root_.le_trans (by positivity) h1)
    rw [hv] at this
    linarith
  have tri := abs_sub_le w ((n : ℝ) / 2 ^ 90) v
  generalize |(n : ℝ) / 2 ^ 90| = a at *
  generalize |(n : ℝ) / 2 ^ 90 - v| = b at *
  generalize |w - (n : ℝ) / 2 ^ 90| = c at *
  norm_num at *
  linarith

theorem Demo.places_near {v : ℝ} (h1 : 1 / 2 ^ 26 ≤ v) (h2 : v ≤ 16) :
    (Demo.places v).Finite ∧ |(Demo.places v).value - v| ≤ 1 / 2 ^ 50 * v :=
  Demo.places_wide h1 (by norm_num at h2 ⊢; linarith)

/-- A mathematical library with the accuracy the theorem asks for. -/
noncomputable def Demo.libm57 : Libm F64 where
  log10 := Demo.log6.log10
  tan x := if x.value < 1 / 2 ^ 26 then x else Demo.places (Real.tan x.value)
  sin x := x
  cos x := x
  powf x y := Demo.places (x.value ^ y.value)

theorem tan_small {x : ℝ} (h0 : 0 ≤ x) (h1 : x ≤ 1 / 2) : x ≤ Real.tan x ∧ Real.tan x ≤ x + x * x ^ 2 := by
  constructor
  · rcases h0.eq_or_lt with h | h
    · rw [← h]; simp
    · exact (Real.lt_tan h (by linarith [Real.pi_gt_three])).le
  · have c := Real.one_sub_sq_div_two_le_cos (x := x)
    have c0 : 0 < Real.cos x := by nlinarith
    rw [Real.tan_eq_sin_div_cos, div_le_iff₀ c0]
    have s := Real.sin_le h0
    have p : 0 ≤ x + x * x ^ 2 := by positivity
    have := mul_le_mul_of_nonneg_left c p
    have q := mul_nonneg (mul_nonneg h0 (sq_nonneg x)) (by nlinarith : 0 ≤ 1 - x ^ 2)
    have e : (x + x * x ^ 2) * (1 - x ^ 2 / 2) = x + x * x ^ 2 * (1 - x ^ 2) / 2 := by ring
    linarith

theorem Demo.libm57_within : LogWithin Demo.libm57 (1 / 10 ^ 5) ∧ ElemWithin Demo.libm57 (1 / 2 ^ 50) := by
  refine ⟨fun x hx h0 => Demo.log6_within x hx h0, ?_, ?_⟩
  · intro x hx h0 h1
    show (if x.value < 1 / 2 ^ 26 then x else Demo.places (Real.tan x.value)).Finite ∧
      |(if x.value < 1 / 2 ^ 26 then x else Demo.places (Real.tan x.value)).value - Real.tan x.value| ≤ _
    split
    · rename_i h
      refine ⟨hx, ?_⟩
      obtain ⟨a, b⟩ := tan_small h0 (by norm_num at h ⊢; linarith)
      have sq : x.value ^ 2 ≤ (1 / 2 ^ 26) ^ 2 := pow_le_pow_left₀ h0 h.le 2
      have k := mul_le_mul_of_nonneg_left sq h0
      rw [abs_sub_comm, abs_of_nonneg (by linarith)]
      norm_num at *
      linarith
    · rename_i h
      have a : x.value ≤ Real.tan x.value := by
        rcases h0.eq_or_lt with h' | h'
        · rw [← h']; simp
        · exact (Real.lt_tan h' (by linarith [Real.pi_gt_three])).le
      refine Demo.places_near (_root_.le_trans (not_lt.1 h) a) ?_
      have c : 1 / 2 ≤ Real.cos x.value := by
        have := Real.one_sub_sq_div_two_le_cos (x := x.value)
        nlinarith
      rw [Real.tan_eq_sin_div_cos, div_le_iff₀ (by linarith)]
      linarith [Real.sin_le_one x.value]
  · intro x y hx hy h1 h2 h3 h4
    refine Demo.places_near ?_ ?_
    · have := Real.one_le_rpow h1 h3
      norm_num
      linarith
    · calc x.value ^ y.value ≤ x.value ^ (1 : ℝ) := Real.rpow_le_rpow_of_exponent_le h1 h4
        _ ≤ 16 := by rw [Real.rpow_one]; linarith

/-- One full-scale sample. -/
def Demo.pulse : List (Op F64 F32) := [.addFrames (.i16 [-32768])]

theorem Demo.pulse_heard : heard (ieeeEnv m bs t) 1 Demo.pulse =
    [⟨true, [(i16Ops (ieeeEnv m bs t)).toF64 (-32768)]⟩] := by
  have h : WellFormed (D := F64) (S := F32) 1 (.i16 [-32768]) := rfl
  simp only [Demo.pulse, heard, List.flatMap_cons, List.flatMap_nil, List.append_nil, delivered, if_pos h, inputFrames,
    List.map_cons, List.map_nil]
  simp [groups]

theorem meanSquare_pulse (N : Nat) (y : ℝ) : meanSquare (lastN 0 (N + 1) [y]) = y ^ 2 / (N + 1 : Nat) := by
  have h : lastN 0 (N + 1) [y] = List.replicate N 0 ++ [y] := by
    simp [lastN, List.replicate_succ]
  rw [h]
  simp [meanSquare]

theorem Demo.pulse_value : ((i16Ops (ieeeEnv m bs t)).toF64 (-32768)).value = -1 := by
  have := (int_value t (i := (-32768 : Int16).toInt) (j := 15) (natAbs16 _) (by omega)).2
  rw [show ((2 ^ 15 : Nat) : Int) = 32768 by norm_num] at this
  have e : ((-32768 : Int16).toInt : ℝ) / 2 ^ 15 = -1 := by
    rw [show (-32768 : Int16).toInt = -32768 from by decide]; norm_num
  rw [e] at this
  simp only [i16Ops]
  cases hs : t.sse2 <;> simp only [hs, ieeeEnv, if_true, if_false, Bool.false_eq_true] at this ⊢
  · simpa only [arith_div, arith_ofInt, arith_lit] using this
  · rw [ftz_ofInt, ftz_lit]; exact this

/-- A mono analyzer at 48 kHz after one full-scale sample: the momentary loudness is, to 0.03 dB, that of a block of
19200 values all zero except one of 1.535, the first coefficient of the filter. -/
example (bs : BSearch) (h64 : 2 ^ 64 - 1 ≤ t.usizeMax) :
    ∃ e0 e : Ebu F64 F32, Ebu.new (ieeeEnv Demo.libm57 bs t) 1 48000 Mode.I = .done (.ok e0) ∧
      runOps (ieeeEnv Demo.libm57 bs t) e0 Demo.pulse = .done e ∧
      ∃ (v : F64) (b : ℝ), ask (ieeeEnv Demo.libm57 bs t) e .loudnessMomentary = .done (.ok v) ∧
        Rounds b 1.53512485958697 ∧ |v.value - lufs (b ^ 2 / 19200)| ≤ 0.03 := by
  obtain ⟨e0, he⟩ := (C01_new_64 (ieeeEnv Demo.libm57 bs t) h64 1 48000 Mode.I).1.2
    ⟨⟨by omega, by omega, by omega, by omega⟩, by decide⟩
  have hst := Started.new he
  have hint : ∀ op ∈ Demo.pulse, IntegerFeed op := by
    intro op hop
    simp only [Demo.pulse, List.mem_singleton] at hop
    subst hop; trivial
  have hfeed : ∀ op ∈ Demo.pulse, Feed op := by
    intro op hop
    simp only [Demo.pulse, List.mem_singleton] at hop
    subst hop; trivial
  obtain ⟨e, hrun⟩ := C09_plain h64 he (by omega) Demo.pulse (by
    intro op hop
    simp only [Demo.pulse, List.mem_singleton] at hop
    subst hop; trivial)
  refine ⟨e0, e, he, hrun, ?_⟩
  obtain ⟨rfl, -⟩ := Ebu.new_ok he
  obtain ⟨b0, b1, b2, a1, a2, c1, c2, hb, -, hr0, -⟩ := C53_itu bs 0
  have hw : realWeight .left = 1 := by simp [realWeight, surrounds]
  have hP : idealPower [.left] 19200 1 (idealOuts bs 0 48000 (heard (ieeeEnv Demo.libm57 bs t) 1 Demo.pulse)) =
      b0 ^ 2 / 19200 := by
    have ho : idealOuts bs 0 48000 (heard (ieeeEnv Demo.libm57 bs t) 1 Demo.pulse) 0 = [b0 * -1] := by
      rw [Demo.pulse_heard]
      unfold idealOuts
      push_cast at hb ⊢
      rw [hb]
      simp [realEvents, outs, chan, filtered, response, internal, past, Demo.pulse_value, cascade, exactArith]
    unfold idealPower
    simp only [List.zipIdx_cons, List.zipIdx_nil, List.map_cons, List.map_nil, List.sum_cons, List.sum_nil, hw, ho]
    rw [List.take_of_length_le (by simp), meanSquare_pulse 19199]
    norm_num
  have hb0 : 1535 / 1000 ≤ b0 := by
    have := (abs_le.1 hr0).1
    norm_num at this ⊢
    linarith
  have hg : stateGain 48000 ≤ 3000000 := by unfold stateGain; norm_num
  have hg0 : 0 ≤ stateGain 48000 := by unfold stateGain; positivity
  have hmeas : measured (ieeeEnv Demo.libm57 bs t) 1 Demo.pulse = 1 := by
    rw [measured, Demo.pulse_heard]; rfl
  have hb2 : (1535 / 1000) ^ 2 ≤ b0 ^ 2 := pow_le_pow_left₀ (by norm_num) hb0 2
  have hmain : ∀ r : ℝ, 0 < r → r ≤ 1 / 10 → 0 < 4 * hop 48000 → 4 * hop 48000 + [Channel.left].length + 5 ≤ 2 ^ 49 →
      1 / 2 ^ 300 ≤ idealPower [.left] (4 * hop 48000) (measured (ieeeEnv Demo.libm57 bs t) 1 Demo.pulse)
        (idealOuts bs 0 48000 (heard (ieeeEnv Demo.libm57 bs t) 1 Demo.pulse)) →
      totalWeight [.left] * (stateGain 48000 / 2 ^ 38 * 1) ^ 2 ≤ r ^ 2 * idealPower [.left] (4 * hop 48000)
        (measured (ieeeEnv Demo.libm57 bs t) 1 Demo.pulse)
        (idealOuts bs 0 48000 (heard (ieeeEnv Demo.libm57 bs t) 1 Demo.pulse)) →
      ∃ v : F64, ask (ieeeEnv Demo.libm57 bs t) e .loudnessMomentary = .done (.ok v) ∧ v.Finite ∧
        |v.value - lufs (idealPower [.left] (4 * hop 48000) (measured (ieeeEnv Demo.libm57 bs t) 1 Demo.pulse)
        (idealOuts bs 0 48000 (heard (ieeeEnv Demo.libm57 bs t) 1 Demo.pulse)))| ≤
        12 * r + 10 * (1 / 10 ^ 5) + ((4 * hop 48000 : Nat) + ([Channel.left].length : Nat) + 5) / 2 ^ 48 + 1 / 10 ^ 12 :=
    (C57_windows (bs' := bs) (u := 0) (by norm_num) Demo.libm57_within.1 Demo.libm57_within.2 hst
    (show Adequate Mode.I 48000 (minWindow Mode.I) by decide) (by show 8000 ≤ 48000; omega) (by show 48000 ≤ 400000; omega)
    hfeed hrun (X := 1) (by norm_num) (by norm_num) (.inr (by norm_num)) (C57_integer hint)).1
  have e1 : 4 * hop 48000 = 19200 := by decide
  rw [e1, hmeas, hP] at hmain
  obtain ⟨v, v1, -, v2⟩ := hmain (1 / 500) (by norm_num) (by norm_num) (by norm_num) (by norm_num) (by
    have : (1 : ℝ) / 2 ^ 300 ≤ 1 / 2 ^ 20 := one_div_le_one_div_of_le (by positivity) (big_le (by norm_num))
    refine _root_.le_trans this ?_
    norm_num at hb2 ⊢
    linarith) (by
    have : (stateGain 48000 / 2 ^ 38 * 1) ^ 2 ≤ (3000000 / 2 ^ 38) ^ 2 := by
      rw [mul_one]
      exact pow_le_pow_left₀ (by positivity) (div_le_div_of_nonneg_right hg (by positivity)) 2
    have w1 : totalWeight [.left] = 1 := by simp [totalWeight, hw]
    rw [w1, one_mul]
    norm_num at hb2 this ⊢
    linarith)
  refine ⟨v, b0, v1, hr0, v2.trans ?_⟩
  norm_num

end Verif
