import Verif.Proofs.FineProfile
import Verif.Props.C72
import Verif.Spec.Steps
/-!
# The windows of a tone whose amplitude changes every 10 ms
-/

namespace Verif
open Spec
variable {m : Libm F64} {bs : BSearch} {t : Target}

/-- Bound on the deviation of the power of a window of `w` hundredths of a second. -/
noncomputable def stepSlack (S R O ε w : ℝ) : ℝ :=
  ((2 * (1084 / 1000 * S) + 2 * (13 * ε)) * (1153 / 100 * R + 3 / 1000 * O) +
    (1453 / 1000 * R ^ 2 + 2 * (3 / 1000 * O) * (1153 / 100 * R) + (3 / 1000 * O) ^ 2)) / (480 * w) +
    (2 * (1084 / 1000 * S) + 13 * ε) * (13 * ε)

section
variable {tol : ℝ} {A : ℕ → ℝ} {K channels : ℕ} {φ : ℕ → ℝ} {evs : List (Event F64)}

theorem sounds_count (h : Sounds tol A K channels φ evs) : count evs = K * 480 := by
  rw [count, List.filter_eq_self.2 fun ev hev => (h.measured ev hev).1, h.length]

theorem sounds_within (h : Sounds tol A K channels φ evs) {X : ℝ} (hX : ∀ i < K, |A i| + tol ≤ X) : SamplesWithin X evs := by
  intro ev hev x hx
  obtain ⟨n, hn, rfl⟩ := List.getElem_of_mem hev
  obtain ⟨c, hc, rfl⟩ := List.getElem_of_mem hx
  obtain ⟨h1, h2⟩ := h.sample n hn c hc
  refine ⟨h1, ?_⟩
  have h3 := hX (n / 480) ((Nat.div_lt_iff_lt_mul (by norm_num)).2 (by rw [← h.length]; exact hn))
  have h4 : |A (n / 480) * Real.sin (2 * Real.pi * 1000 * (n / 48000) + φ c)| ≤ |A (n / 480)| := by
    rw [abs_mul]
    exact mul_le_of_le_one_right (abs_nonneg _) (Real.abs_sin_le_one _)
  have h5 := abs_le.1 h2
  have h6 := abs_le.1 h4
  exact abs_le.2 ⟨by linarith [h5.1, h6.1], by linarith [h5.2, h6.2]⟩

theorem sounds_near (h : Sounds tol A K channels φ evs) {c : ℕ} (hc : c < channels) :
    ∀ n < (channelOf evs c).length, |(channelOf evs c).getD n 0 - (phasor 0 (φ c) * (A (n / 480) : ℝ) * tone1k ^ n).re| ≤
      ‖phasor 0 (φ c)‖ * tol := by
  intro n hn
  have hn' : n < evs.length := by simpa [channelOf] using hn
  have hf := (h.measured _ (List.getElem_mem hn')).2
  have e : (channelOf evs c).getD n 0 = (evs[n].frame[c]'(by omega)).value := by
    rw [List.getD, List.getElem?_eq_getElem hn, Option.getD_some]
    simp [channelOf, hf, hc]
  obtain ⟨-, hs⟩ := h.sample n hn' c (by omega)
  rw [phasor_re, phasor_norm, zero_div, Real.rpow_zero, one_mul, one_mul, e]
  exact hs

/-- The power of a window of `w` hundredths of a second, from the `k`-th on. -/
theorem sounds_window (bs : BSearch) (u : Nat) (h : Sounds tol A K channels φ evs) (t0 : 0 ≤ tol) {cm : List Channel}
    (hcm : cm.length = channels) {w k : ℕ} (w0 : 0 < w) (hk : k + w ≤ K) {S R O : ℝ} (hS : ∀ i < w, |A (k + i)| ≤ S)
    (hR : ∑ i ∈ Finset.range (k - (k - 10) + w), |jump A (k - 10 + i)| ≤ R)
    (hO : ∑ i ∈ Finset.range (k - 10), |jump A i| ≤ O) :
    let P := idealPower cm (w * 480) ((k + w) * 480) (idealOuts bs u 48000 evs)
    let M := (∑ i ∈ Finset.range w, A (k + i) ^ 2) / w
    totalWeight cm * (587138 / 10 ^ 6 * M - stepSlack S R O tol w) ≤ P ∧
      P ≤ totalWeight cm * (587139 / 10 ^ 6 * M + stepSlack S R O tol w) := by
  intro P M
  have M0 : 0 ≤ M := div_nonneg (Finset.sum_nonneg fun _ _ => by positivity) (Nat.cast_nonneg _)
  have one : ∀ x ∈ cm.zipIdx, 1 * (587138 / 10 ^ 6 * M - stepSlack S R O tol w) ≤
      meanSquare (lastN 0 (w * 480) ((idealOuts bs u 48000 evs x.2).take ((k + w) * 480))) ∧
      meanSquare (lastN 0 (w * 480) ((idealOuts bs u 48000 evs x.2).take ((k + w) * 480))) ≤
      1 * (587139 / 10 ^ 6 * M + stepSlack S R O tol w) := by
    intro x hx
    have hc : x.2 < channels := by
      have := List.snd_lt_of_mem_zipIdx hx
      omega
    rw [idealOuts_all fun ev hev => (h.measured ev hev).1]
    have hl : (channelOf evs x.2).length = K * 480 := by simpa [channelOf] using h.length
    have hlen : (kWeighted bs u 48000 (channelOf evs x.2)).length = (channelOf evs x.2).length := by simp [kWeighted, filtered]
    have hkK : k * 480 + w * 480 ≤ (channelOf evs x.2).length := by
      rw [hl, ← Nat.add_mul]
      exact Nat.mul_le_mul_right _ hk
    have main := fine48 bs u w0 hk t0 hS hl.ge (sounds_near h hc)
    dsimp only at main
    rw [phasor_norm, zero_div, Real.rpow_zero, one_pow, one_mul, one_mul, ← lastN_range (by rw [hlen]; exact hkK),
      ← Nat.add_mul] at main
    obtain ⟨H1, H2⟩ := gain1k bs u
    have R0 : 0 ≤ ∑ i ∈ Finset.range (k - (k - 10) + w), |jump A (k - 10 + i)| := Finset.sum_nonneg fun _ _ => abs_nonneg _
    have O0 : 0 ≤ ∑ i ∈ Finset.range (k - 10), |jump A i| := Finset.sum_nonneg fun _ _ => abs_nonneg _
    have S0 : 0 ≤ S := (abs_nonneg _).trans (hS 0 w0)
    have wp : (0 : ℝ) < w := by exact_mod_cast w0
    have err : ((2 * (1084 / 1000 * S) + 2 * (13 * tol)) * (1153 / 100 * (∑ i ∈ Finset.range (k - (k - 10) + w), |jump A (k - 10 + i)|) +
        3 / 1000 * ∑ i ∈ Finset.range (k - 10), |jump A i|) +
        (1453 / 1000 * (∑ i ∈ Finset.range (k - (k - 10) + w), |jump A (k - 10 + i)|) ^ 2 +
        2 * (3 / 1000 * ∑ i ∈ Finset.range (k - 10), |jump A i|) *
          (1153 / 100 * ∑ i ∈ Finset.range (k - (k - 10) + w), |jump A (k - 10 + i)|) +
        (3 / 1000 * ∑ i ∈ Finset.range (k - 10), |jump A i|) ^ 2)) / (w * 480 : ℕ) +
        (2 * (1084 / 1000 * S) + 13 * tol) * (13 * tol) ≤ stepSlack S R O tol w := by
      generalize ∑ i ∈ Finset.range (k - (k - 10) + w), |jump A (k - 10 + i)| = R' at *
      generalize ∑ i ∈ Finset.range (k - 10), |jump A i| = O' at *
      have O1 : 0 ≤ O := O0.trans hO
      unfold stepSlack
      push_cast
      rw [mul_comm (480 : ℝ)]
      gcongr
    have m1 : 587138 / 10 ^ 6 * M ≤ ‖transfer (filterCoefficients (exactEnv bs u) ((exactEnv bs u).f64.ofInt 48000)) tone1k‖ ^ 2 / 2 * M :=
      mul_le_mul_of_nonneg_right (by linarith) M0
    have m2 : ‖transfer (filterCoefficients (exactEnv bs u) ((exactEnv bs u).f64.ofInt 48000)) tone1k‖ ^ 2 / 2 * M ≤ 587139 / 10 ^ 6 * M :=
      mul_le_mul_of_nonneg_right (by linarith) M0
    have b := abs_le.1 (main.trans err)
    constructor
    · linarith [b.1]
    · linarith [b.2]
  have := weighted_between cm.zipIdx (w := fun x => realWeight x.1) (q := fun _ => 1)
    (f := fun x => meanSquare (lastN 0 (w * 480) ((idealOuts bs u 48000 evs x.2).take ((k + w) * 480))))
    (fun x _ => realWeight_nonneg x.1) one
  have e : (cm.zipIdx.map fun x => realWeight x.1 * 1).sum = totalWeight cm := by
    unfold totalWeight
    conv_rhs => rw [← List.zipIdx_map_fst 0 cm]
    simp only [mul_one, List.map_map]
    rfl
  rw [e] at this
  exact this

end

/-- Loudness from power, with wider limits than `lufs_ge` and `lufs_le`. -/
theorem lufs_fine {x L : ℝ} (h1 : 11473 / 10000 * (10 : ℝ) ^ (L / 10) ≤ x) (h2 : x ≤ 11993 / 10000 * (10 : ℝ) ^ (L / 10)) :
    L - 96 / 1000 ≤ lufs x ∧ lufs x ≤ L + 985 / 10000 := by
  have h0 : (0 : ℝ) < 10 ^ (L / 10) := by positivity
  have x0 : 0 < x := lt_of_lt_of_le (by positivity) h1
  have g1 : (10 : ℝ) ^ ((5 : ℝ) / 84 + L / 10) ≤ x := by
    rw [Real.rpow_add (by norm_num)]
    have := rpow_le_of_pow (a := 11473 / 10000) (p := 5) (q := 84) (by norm_num) (by norm_num) (by norm_num)
    push_cast at this
    exact (mul_le_mul_of_nonneg_right this h0.le).trans h1
  have g2 : x ≤ (10 : ℝ) ^ ((3 : ℝ) / 38 + L / 10) := by
    rw [Real.rpow_add (by norm_num)]
    have := le_rpow_of_pow (a := 11993 / 10000) (p := 3) (q := 38) (by norm_num) (by norm_num) (by norm_num)
    push_cast at this
    exact h2.trans (mul_le_mul_of_nonneg_right this h0.le)
  have k1 := Real.logb_le_logb_of_le (b := 10) (by norm_num) (by positivity) g1
  have k2 := Real.logb_le_logb_of_le (b := 10) (by norm_num) x0 g2
  rw [Real.logb_rpow (by norm_num) (by norm_num)] at k1 k2
  unfold lufs
  constructor <;> linarith

/-- What an analyzer answers after `K` hundredths of a second of such a tone. -/
theorem fine_ask (hm : GoodLibm m) {mode : Mode} {e0 e : Ebu F64 F32}
    (hnew : Ebu.new (ieeeEnv m bs t) 2 48000 mode = .done (.ok e0)) {ops : List (Op F64 F32)} (hops : ∀ op ∈ ops, Feed op)
    (hrun : runOps (ieeeEnv m bs t) e0 ops = .done e) {K : ℕ} {A : ℕ → ℝ} {tol : ℝ} {φ : ℕ → ℝ}
    (hp : Sounds tol A K 2 φ (heard (ieeeEnv m bs t) 2 ops)) {X : ℝ} (hX : 1 / 2 ^ 13 ≤ X) (hX' : X ≤ 2 ^ 60)
    (hA : ∀ i < K, |A i| + tol ≤ X) {w : ℕ} {q : Query}
    (hq : (w = 40 ∧ q = .loudnessMomentary) ∨ (w = 300 ∧ q = .loudnessShortterm ∧ mode.contains Mode.S = true)) :
    let P := idealPower (defaultChannelMap 2) (w * 480) (K * 480) (idealOuts bs 0 48000 (heard (ieeeEnv m bs t) 2 ops))
    X ^ 2 ≤ 2 * P → ∃ v : F64, ask (ieeeEnv m bs t) e q = .done (.ok v) ∧ v.Finite ∧ |v.value - lufs P| ≤ 5 / 10 ^ 4 := by
  intro P hXP
  have ha := (Ebu.new_inv2 hnew).inv.adequate
  have hw3 : mode.contains Mode.S = true → e0.window = 3000 := by
    obtain ⟨rfl, -⟩ := Ebu.new_ok hnew
    intro hS
    show (if mode.contains Mode.S then 3000 else 400) = 3000
    rw [if_pos hS]
  have f : e0.rate = 48000 ∧ e0.channels = 2 ∧ e0.channelMap = defaultChannelMap 2 := by
    obtain ⟨rfl, -⟩ := Ebu.new_ok hnew
    exact ⟨rfl, rfl, rfl⟩
  obtain ⟨f1, f2, f3⟩ := f
  have hmeas : measured (ieeeEnv m bs t) 2 ops = K * 480 := sounds_count hp
  have key := C57_windows (bs' := bs) (u := 0) (by norm_num) hm.log hm.elem (Started.new hnew)
    (ha (by rw [f1]; norm_num)) (by omega) (by omega) hops hrun (X := X)
    ((one_div_le_one_div_of_le (by positivity) (big_le (by norm_num))).trans hX) hX' (.inr hX)
    (by rw [f2]; exact sounds_within hp hA)
  dsimp only at key
  rw [f1, f2, f3, hmeas, show hop 48000 = 4800 by decide, stereo_weight] at key
  have hl2 : (defaultChannelMap 2).length = 2 := by decide
  have g48 := stateGain48
  have g0 : 0 ≤ stateGain 48000 := by unfold stateGain; positivity
  have X0 : (0 : ℝ) < X := lt_of_lt_of_le (by positivity) hX
  have hP : 1 / 2 ^ 300 ≤ P := by
    have h1 : (1 : ℝ) / 2 ^ 300 ≤ 1 / 2 ^ 28 := one_div_le_one_div_of_le (by positivity) (big_le (by norm_num))
    have h2 : (1 / 2 ^ 13 : ℝ) ^ 2 ≤ X ^ 2 := pow_le_pow_left₀ (by positivity) hX 2
    norm_num at h2
    refine h1.trans ?_
    norm_num
    linarith
  have hn : 2 * (stateGain 48000 / 2 ^ 38 * X) ^ 2 ≤ (1 / 40000) ^ 2 * P := by
    rw [mul_pow]
    have : (stateGain 48000 / 2 ^ 38) ^ 2 ≤ (3000000 / 2 ^ 38) ^ 2 :=
      pow_le_pow_left₀ (by positivity) (div_le_div_of_nonneg_right g48 (by positivity)) 2
    have X2 : 0 ≤ X ^ 2 := by positivity
    have h2 := mul_le_mul_of_nonneg_right this X2
    norm_num at h2 ⊢
    linarith
  have fin : ∀ N : ℕ, N ≤ 144000 → 0 < N → ∀ v : F64,
      |v.value - lufs P| ≤ 12 * (1 / 40000) + 10 * (1 / 10 ^ 5) + ((N : ℕ) + ((defaultChannelMap 2).length : ℝ) + 5) / 2 ^ 48 + 1 / 10 ^ 12 →
      |v.value - lufs P| ≤ 5 / 10 ^ 4 := by
    intro N hN _ v hv
    refine hv.trans ?_
    rw [hl2]
    have w30 : (N : ℝ) ≤ 144000 := by exact_mod_cast hN
    have hz : ((N : ℝ) + ((2 : ℕ) : ℝ) + 5) / 2 ^ 48 ≤ 1 / 10 ^ 6 := by
      rw [div_le_iff₀ (by positivity)]
      push_cast
      norm_num
      linarith
    generalize ((N : ℝ) + ((2 : ℕ) : ℝ) + 5) / 2 ^ 48 = z at hz
    norm_num at hz ⊢
    linarith
  rcases hq with ⟨rfl, rfl⟩ | ⟨rfl, rfl, hS⟩
  · obtain ⟨v, v1, v2, v3⟩ := key.1 (1 / 40000) (by norm_num) (by norm_num) (by norm_num) (by rw [hl2]; norm_num) hP hn
    exact ⟨v, v1, v2, fin (4 * 4800) (by norm_num) (by norm_num) v v3⟩
  · obtain ⟨v, v1, v2, v3⟩ := key.2.1 (by rw [hw3 hS]; decide) (1 / 40000) (by norm_num) (by norm_num) (by norm_num)
      (by rw [hl2]; norm_num) hP hn
    exact ⟨v, v1, v2, fin (30 * 4800) (by norm_num) (by norm_num) v v3⟩

end Verif
