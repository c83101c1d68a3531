import Verif.Proofs.Steps
/-!
# Upper bounds on the loudness of a window

However little power there is in a window, its loudness is at most that of a power above it, or it is minus infinity.
-/

namespace Verif
open Spec
variable {m : Libm F64} {bs : BSearch} {t : Target}

/-- Minus infinity, or a finite value of at most `B`. -/
def Spec.AtMost (E : Env F64 F32) (v : F64) (B : ℝ) : Prop := v = E.f64.neg E.f64.inf ∨ (v.Finite ∧ v.value ≤ B)

theorem level_le {δ : ℝ} (hδ : δ ≤ 1) (hm : LogWithin m δ) {x : F64} (hx : x.Finite) {U : ℝ} (hU : x.value ≤ U) :
    AtMost (ieeeEnv m bs t) (level (ieeeEnv m bs t) x) (lufs U + 10 * δ + 1 / 10 ^ 12) := by
  by_cases h0 : 0 < x.value
  · right
    obtain ⟨a, b⟩ := level_near (bs := bs) (t := t) hδ hm hx h0
    refine ⟨a, ?_⟩
    have := lufs_mono h0 hU
    linarith [(abs_le.1 b).2]
  · left
    unfold level
    rw [if_pos]
    show Fl.le x (Fl.zero false) = true
    obtain ⟨s, k, hk, rfl, -⟩ := hx
    rw [Fl.value_num] at h0
    have hs : s = true ∨ k = 0 := by
      by_contra hc
      push Not at hc
      have hs : s = false := by simpa using hc.1
      have : 0 < Fmt.b64.mag k := Fl.mag_pos_iff.2 (by omega)
      refine h0 (div_pos ?_ (by positivity))
      rw [hs]
      show (0 : ℝ) < ((Fmt.b64.mag k : ℤ) : ℝ)
      exact_mod_cast this
    rw [Fl.zero, Fl.le_rank rfl rfl]
    rcases hs with rfl | rfl
    · simp [Fl.rank]
    · cases s <;> simp [Fl.rank]

/-- What a query of a window answers, whatever the power in it. -/
theorem windows_le {bs' : BSearch} {u : Nat} {δ : ℝ} (hδ : δ ≤ 1) (hm : LogWithin m δ) (he : ElemWithin m (1 / 2 ^ 50))
    {e0 e : Ebu F64 F32} (h : Started (ieeeEnv m bs t) e0) (hg : Adequate e0.mode e0.rate e0.window)
    (hr : 8000 ≤ e0.rate) (hr' : e0.rate ≤ 400000) {ops : List (Op F64 F32)} (hops : ∀ op ∈ ops, Feed op)
    (hrun : runOps (ieeeEnv m bs t) e0 ops = .done e) {X : ℝ} (hX : 1 / 2 ^ 100 ≤ X) (hX' : X ≤ 2 ^ 60)
    (hs : t.sse2 = true ∨ 1 / 2 ^ 13 ≤ X) (hx : SamplesWithin X (heard (ieeeEnv m bs t) e0.channels ops)) :
    let E := ieeeEnv m bs t
    let L := capacity e0.rate e0.window
    let P := fun N => idealPower e0.channelMap N (measured E e0.channels ops) (idealOuts bs' u e0.rate (heard E e0.channels ops))
    let Bounded := fun (q : Query) (N : Nat) => ∀ r U : ℝ, 0 < r → 0 < N → N + e0.channelMap.length + 5 ≤ 2 ^ 49 →
      (1 + (N + e0.channelMap.length + 5) / 2 ^ 52) *
        ((1 + r) * P N + (1 / r + 1) * noisePower e0.channelMap e0.rate X) + (8 * e0.channelMap.length + 1) / 2 ^ 1074 ≤ U →
      ∃ v : F64, ask E e q = .done (.ok v) ∧ AtMost E v (lufs U + 10 * δ + 1 / 10 ^ 12)
    Bounded .loudnessMomentary (4 * hop e0.rate) ∧
    (30 * hop e0.rate ≤ L → Bounded .loudnessShortterm (30 * hop e0.rate)) := by
  intro E L P Bounded
  have hsig := fun c => C57_signal (bs := bs) (t := t) (bs' := bs') (u := u) he hr hr' hX hX' hs hx c
  obtain ⟨h1, h2, -⟩ := C61_windows (E := E) (ieee_zero m bs t) h hg hops hrun
  have ε0 : 0 ≤ stateGain e0.rate / 2 ^ 38 * X := by
    have := (stateGain_bounds hr hr').1
    have X0 : 0 < X := lt_of_lt_of_le (by positivity) hX
    positivity
  have key : ∀ (q : Query) (N : Nat), ask E e q = .done (.ok (level E (energy E L N (measured E e0.channels ops)
      e0.channelMap (signalOn E e0.rate e0.channels ops)))) → Bounded q N := by
    intro q N hq r U r0 N0 hK hU
    have hf := C52_finite (m := m) (bs := bs) (t := t) L (n := measured E e0.channels ops) e0.channelMap
      (signalOn E e0.rate e0.channels ops) N0 (by omega) (by omega) fun c => (hsig c).2.2
    have hn := C52_energy L e0.channelMap (signalOn E e0.rate e0.channels ops) (by omega) hf
    refine ⟨_, hq, level_le hδ hm hf (le_trans ?_ hU)⟩
    have hp := power_near e0.channelMap (n := measured E e0.channels ops) N0 ε0 r0 (fun c => (hsig c).1)
    have a1 := (abs_le.1 hn).2
    have a2 := (abs_le.1 hp).2
    have a3 : windowPower e0.channelMap N (measured E e0.channels ops) (signalOn E e0.rate e0.channels ops) ≤
        (1 + r) * P N + (1 / r + 1) * noisePower e0.channelMap e0.rate X := by
      unfold noisePower
      linarith
    have c0 : (0 : ℝ) ≤ 1 + (N + e0.channelMap.length + 5) / 2 ^ 52 := by positivity
    have := mul_le_mul_of_nonneg_left a3 c0
    refine le_trans ?_ (add_le_add_left this _)
    generalize (8 * (e0.channelMap.length : ℝ) + 1) / 2 ^ 1074 = y at a1 ⊢
    linarith
  dsimp only at h1 h2
  refine ⟨key _ _ h1, fun hc => key _ _ ?_⟩
  rw [h2, if_neg (by omega)]

/-! ## Windows that begin before the signal -/

theorem meanSquare_short {ys : List ℝ} {N : ℕ} (h0 : 0 < ys.length) (h : ys.length ≤ N) :
    meanSquare (lastN 0 N ys) = ys.length / N * meanSquare (lastN 0 ys.length ys) := by
  have e : ∀ N, ys.length ≤ N → ((lastN 0 N ys).map fun x => x ^ 2).sum = (ys.map fun x => x ^ 2).sum := by
    intro N h
    unfold lastN
    rw [List.drop_append_of_le_length (by simpa using h), List.drop_replicate, List.map_append, List.sum_append,
      List.map_replicate, List.sum_replicate]
    simp
  have hN : (N : ℝ) ≠ 0 := by exact_mod_cast (by omega : N ≠ 0)
  have hl : (ys.length : ℝ) ≠ 0 := by exact_mod_cast h0.ne'
  unfold meanSquare
  rw [e N h, e ys.length le_rfl, lastN_length, lastN_length]
  field_simp

section
variable {tol : ℝ} {A : ℕ → ℝ} {K channels : ℕ} {φ : ℕ → ℝ} {evs : List (Event F64)}

/-- The power of any window of the signal, also of one that begins before it. -/
theorem sounds_le (bs : BSearch) (u : Nat) (h : Sounds tol A K channels φ evs) (t0 : 0 ≤ tol) {cm : List Channel}
    (hcm : cm.length = channels) {w : ℕ} (w0 : 0 < w) {a R O : ℝ} (hA : ∀ i < K, K - w ≤ i → |A i| ≤ a) (a0 : 0 ≤ a)
    (hR : ∑ i ∈ Finset.range (K - (K - w - 10)), |jump A (K - w - 10 + i)| ≤ R)
    (hO : ∑ i ∈ Finset.range (K - w - 10), |jump A i| ≤ O) :
    idealPower cm (w * 480) (K * 480) (idealOuts bs u 48000 evs) ≤
      totalWeight cm * (587139 / 10 ^ 6 * a ^ 2 + stepSlack a R O tol w) := by
  have wp : (0 : ℝ) < w := by exact_mod_cast w0
  have tw := (totalWeight_bounds cm).1
  have R0 : 0 ≤ R := (Finset.sum_nonneg fun _ _ => abs_nonneg _).trans hR
  have O0 : 0 ≤ O := (Finset.sum_nonneg fun _ _ => abs_nonneg _).trans hO
  have mean : ∀ v k : ℕ, 0 < v → K - w ≤ k → k + v ≤ K → (∑ i ∈ Finset.range v, A (k + i) ^ 2) / v ≤ a ^ 2 := by
    intro v k v0 hk hv
    rw [div_le_iff₀ (by exact_mod_cast v0)]
    calc ∑ i ∈ Finset.range v, A (k + i) ^ 2 ≤ ∑ _i ∈ Finset.range v, a ^ 2 := by
          refine Finset.sum_le_sum fun i hi => ?_
          have := Finset.mem_range.1 hi
          rw [← sq_abs]
          exact pow_le_pow_left₀ (abs_nonneg _) (hA _ (by omega) (by omega)) 2
      _ = a ^ 2 * v := by simp; ring
  rcases Nat.lt_or_ge K w with hK | hK
  · have hz : K - w = 0 := by omega
    rcases Nat.eq_zero_or_pos K with rfl | K0
    · have : idealPower cm (w * 480) (0 * 480) (idealOuts bs u 48000 evs) = 0 := by
        unfold idealPower
        apply List.sum_eq_zero
        intro x hx
        obtain ⟨y, -, rfl⟩ := List.mem_map.1 hx
        have : meanSquare (lastN 0 (w * 480) ((idealOuts bs u 48000 evs y.2).take (0 * 480))) = 0 := by
          rw [Nat.zero_mul, List.take_zero]
          unfold meanSquare lastN
          simp
        rw [this, mul_zero]
      rw [this]
      refine mul_nonneg tw (add_nonneg (by positivity) ?_)
      unfold stepSlack
      positivity
    · have Kp : (0 : ℝ) < K := by exact_mod_cast K0
      have main := (sounds_window bs u h t0 hcm (w := K) (k := 0) K0 (by omega) (S := a) (R := R) (O := O)
        (fun i hi => hA _ (by omega) (by omega)) (by
          rw [hz] at hR
          simpa using hR) (by simpa using O0)).2
      have sc : idealPower cm (w * 480) (K * 480) (idealOuts bs u 48000 evs) =
          K / w * idealPower cm (K * 480) (K * 480) (idealOuts bs u 48000 evs) := by
        unfold idealPower
        rw [← List.sum_map_mul_left]
        congr 1
        refine List.map_congr_left fun x _ => ?_
        have hl : ((idealOuts bs u 48000 evs x.2).take (K * 480)).length = K * 480 := by
          rw [idealOuts_all fun ev hev => (h.measured ev hev).1]
          simp [kWeighted, filtered, channelOf, h.length]
        have := meanSquare_short (ys := (idealOuts bs u 48000 evs x.2).take (K * 480)) (N := w * 480) (by omega) (by omega)
        rw [this, hl]
        push_cast
        field_simp
      rw [Nat.zero_add] at main
      rw [sc]
      refine (mul_le_mul_of_nonneg_left main (by positivity)).trans ?_
      rw [← mul_assoc, mul_comm ((K : ℝ) / w), mul_assoc]
      refine mul_le_mul_of_nonneg_left ?_ tw
      rw [mul_add]
      have q1 : (K : ℝ) / w ≤ 1 := by
        rw [div_le_one wp]
        exact_mod_cast hK.le
      have m1 := mean K 0 K0 (by omega) (by omega)
      refine add_le_add ?_ ?_
      · have := mul_le_mul q1 m1 (div_nonneg (Finset.sum_nonneg fun _ _ => by positivity) Kp.le) (by norm_num)
        linarith
      · unfold stepSlack
        rw [mul_add]
        refine add_le_add (le_of_eq ?_) ?_
        · field_simp
        · exact mul_le_of_le_one_left (by positivity) q1
  · have main := (sounds_window bs u h t0 hcm (w := w) (k := K - w) w0 (by omega) (S := a) (R := R) (O := O)
      (fun i hi => hA _ (by omega) (by omega)) (by
        rw [show K - w - (K - w - 10) + w = K - (K - w - 10) by omega]
        exact hR) hO).2
    rw [Nat.sub_add_cancel hK] at main
    refine main.trans (mul_le_mul_of_nonneg_left ?_ tw)
    have := mean w (K - w) w0 le_rfl (by omega)
    linarith

end

/-- What an analyzer answers at most after `K` hundredths of a second of such a tone. -/
theorem fine_le (hm : GoodLibm m) {mode : Mode} {e0 e : Ebu F64 F32}
    (hnew : Ebu.new (ieeeEnv m bs t) 2 48000 mode = .done (.ok e0)) {ops : List (Op F64 F32)} (hops : ∀ op ∈ ops, Feed op)
    (hrun : runOps (ieeeEnv m bs t) e0 ops = .done e) {K : ℕ} {A : ℕ → ℝ} {tol : ℝ} {φ : ℕ → ℝ}
    (hp : Sounds tol A K 2 φ (heard (ieeeEnv m bs t) 2 ops)) {X : ℝ} (hX : 1 / 2 ^ 13 ≤ X) (hX' : X ≤ 2 ^ 60)
    (hA : ∀ i < K, |A i| + tol ≤ X) {w : ℕ} {q : Query}
    (hq : (w = 40 ∧ q = .loudnessMomentary) ∨ (w = 300 ∧ q = .loudnessShortterm ∧ mode.contains Mode.S = true)) {B : ℝ}
    (hP : idealPower (defaultChannelMap 2) (w * 480) (K * 480) (idealOuts bs 0 48000 (heard (ieeeEnv m bs t) 2 ops)) ≤ B)
    (hB : X ^ 2 ≤ 2 * B) :
    ∃ v : F64, ask (ieeeEnv m bs t) e q = .done (.ok v) ∧ AtMost (ieeeEnv m bs t) v (lufs (1001 / 1000 * B) + 2 / 10 ^ 4) := by
  have ha := (Ebu.new_inv2 hnew).inv.adequate
  have hw3 : mode.contains Mode.S = true → e0.window = 3000 := by
    obtain ⟨rfl, -⟩ := Ebu.new_ok hnew
    intro hS
    show (if mode.contains Mode.S then 3000 else 400) = 3000
    rw [if_pos hS]
  have f : e0.rate = 48000 ∧ e0.channels = 2 ∧ e0.channelMap = defaultChannelMap 2 := by
    obtain ⟨rfl, -⟩ := Ebu.new_ok hnew
    exact ⟨rfl, rfl, rfl⟩
  obtain ⟨f1, f2, f3⟩ := f
  have hmeas : measured (ieeeEnv m bs t) 2 ops = K * 480 := sounds_count hp
  have key := windows_le (bs' := bs) (u := 0) (by norm_num) hm.log hm.elem (Started.new hnew)
    (ha (by rw [f1]; norm_num)) (by omega) (by omega) hops hrun (X := X)
    ((one_div_le_one_div_of_le (by positivity) (big_le (by norm_num))).trans hX) hX' (.inr hX)
    (by rw [f2]; exact sounds_within hp hA)
  dsimp only at key
  have hl2 : (defaultChannelMap 2).length = 2 := by decide
  rw [f1, f2, f3, hmeas, show hop 48000 = 4800 by decide, hl2] at key
  have g48 := stateGain48
  have g0 : 0 ≤ stateGain 48000 := by unfold stateGain; positivity
  have X0 : (0 : ℝ) < X := lt_of_lt_of_le (by positivity) hX
  have B0 : 1 / 2 ^ 27 ≤ B := by
    have h2 : (1 / 2 ^ 13 : ℝ) ^ 2 ≤ X ^ 2 := pow_le_pow_left₀ (by positivity) hX 2
    norm_num at h2 ⊢
    linarith
  have hn : noisePower (defaultChannelMap 2) 48000 X ≤ 1 / 10 ^ 9 * B := by
    unfold noisePower
    rw [stereo_weight, mul_pow]
    have : (stateGain 48000 / 2 ^ 38) ^ 2 ≤ (3000000 / 2 ^ 38) ^ 2 :=
      pow_le_pow_left₀ (by positivity) (div_le_div_of_nonneg_right g48 (by positivity)) 2
    have X2 : 0 ≤ X ^ 2 := by positivity
    have h2 := mul_le_mul_of_nonneg_right this X2
    norm_num at h2 ⊢
    linarith
  have hn0 : 0 ≤ noisePower (defaultChannelMap 2) 48000 X := by
    unfold noisePower
    rw [stereo_weight]
    positivity
  have tiny : (17 : ℝ) / 2 ^ 1074 ≤ 1 / 10 ^ 9 * B := by
    have h1 : (17 : ℝ) / 2 ^ 1074 ≤ 17 / 2 ^ 100 := div_le_div_of_nonneg_left (by norm_num) (by positivity) (big_le (by norm_num))
    refine h1.trans ?_
    norm_num at B0 ⊢
    linarith
  have fin : ∀ N : ℕ, N ≤ 144000 → ∀ P : ℝ, P ≤ B → ∀ n : ℝ, n ≤ 1 / 10 ^ 9 * B → 0 ≤ n →
      (1 + ((N : ℝ) + ((2 : ℕ) : ℝ) + 5) / 2 ^ 52) * ((1 + 1 / 10 ^ 4) * P + (1 / (1 / 10 ^ 4) + 1) * n) + (8 * ((2 : ℕ) : ℝ) + 1) / 2 ^ 1074 ≤
        1001 / 1000 * B := by
    intro N hN P hP n hn n0
    rw [show (8 * ((2 : ℕ) : ℝ) + 1) = 17 by norm_num]
    generalize (17 : ℝ) / 2 ^ 1074 = y at tiny
    have w30 : (N : ℝ) ≤ 144000 := by exact_mod_cast hN
    have hz : ((N : ℝ) + ((2 : ℕ) : ℝ) + 5) / 2 ^ 52 ≤ 1 / 10 ^ 6 := by
      rw [div_le_iff₀ (by positivity)]
      push_cast
      norm_num
      linarith
    have hz0 : 0 ≤ ((N : ℝ) + ((2 : ℕ) : ℝ) + 5) / 2 ^ 52 := by positivity
    generalize ((N : ℝ) + ((2 : ℕ) : ℝ) + 5) / 2 ^ 52 = z at hz hz0
    have b0 : 0 < B := lt_of_lt_of_le (by positivity) B0
    have h1 : (1 + 1 / 10 ^ 4) * P + (1 / (1 / 10 ^ 4) + 1) * n ≤ (1 + 2 / 10 ^ 4) * B := by
      norm_num at hn ⊢
      linarith
    have h2 := mul_le_mul_of_nonneg_left h1 (by linarith : 0 ≤ 1 + z)
    have h3 : (1 + z) * ((1 + 2 / 10 ^ 4) * B) ≤ (1 + 1 / 10 ^ 6) * ((1 + 2 / 10 ^ 4) * B) :=
      mul_le_mul_of_nonneg_right (by linarith) (by positivity)
    norm_num at h2 h3 tiny ⊢
    linarith
  have ending : ∀ v : F64, AtMost (ieeeEnv m bs t) v (lufs (1001 / 1000 * B) + 10 * (1 / 10 ^ 5) + 1 / 10 ^ 12) →
      AtMost (ieeeEnv m bs t) v (lufs (1001 / 1000 * B) + 2 / 10 ^ 4) := by
    rintro v (h | ⟨h1, h2⟩)
    · exact .inl h
    · refine .inr ⟨h1, h2.trans ?_⟩
      norm_num
      linarith
  rcases hq with ⟨rfl, rfl⟩ | ⟨rfl, rfl, hS⟩
  · obtain ⟨v, v1, v2⟩ := key.1 (1 / 10 ^ 4) (1001 / 1000 * B) (by norm_num) (by norm_num) (by norm_num)
      (fin (4 * 4800) (by norm_num) _ hP _ hn hn0)
    exact ⟨v, v1, ending v v2⟩
  · obtain ⟨v, v1, v2⟩ := key.2 (by rw [hw3 hS]; decide) (1 / 10 ^ 4) (1001 / 1000 * B) (by norm_num) (by norm_num) (by norm_num)
      (fin (30 * 4800) (by norm_num) _ hP _ hn hn0)
    exact ⟨v, v1, ending v v2⟩

end Verif
