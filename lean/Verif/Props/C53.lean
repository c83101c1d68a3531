import Verif.Proofs.Numeric
import Verif.Props.C47
/-!
# C53: the filter of ITU-R BS.1770

In exact arithmetic: at 48 kHz the coefficients are those of the recommendation, to every digit printed there; at the
other rates the filter is the same analogue filter, except for a gain that depends on the rate.
-/

set_option linter.unusedSimpArgs false

namespace Verif
open Spec

/-- Coefficients of two second-order sections in series. -/
def Spec.cascade (p0 p1 p2 r0 r1 r2 : ℝ) : V5 ℝ :=
  ⟨p0 * r0, p0 * r1 + p1 * r0, p0 * r2 + p1 * r1 + p2 * r0, p1 * r2 + p2 * r1, p2 * r2⟩

/-- `x` is `t` when rounded to fourteen digits after the point. -/
def Spec.Rounds (x t : ℝ) : Prop := |x - t| ≤ 5 / 10 ^ 15

/-! ## Numbers -/

theorem tan1_48k : |tan1 48000 - 11053183227049440473 / 10 ^ 20| ≤ 1 / 10 ^ 18 := by
  unfold tan1 piC
  refine tan_near (by norm_num) (by norm_num) (by norm_num) (by norm_num [abs_of_pos]) ?_
  unfold sinT cosT
  norm_num [abs_le]

theorem tan2_48k : |tan2 48000 - 249596591533546567 / 10 ^ 20| ≤ 1 / 10 ^ 18 := by
  unfold tan2 piC
  refine tan_near (by norm_num) (by norm_num) (by norm_num) (by norm_num [abs_of_pos]) ?_
  unfold sinT cosT
  norm_num [abs_le]

theorem expT_quarter : 10 ≤ (expT ((2302585092994045685 / 10 ^ 18 : ℝ) / 4) - 2 / 10 ^ 20) ^ 4 ∧
    (expT ((2302585092994045683 / 10 ^ 18 : ℝ) / 4) + 2 / 10 ^ 20) ^ 4 ≤ 10 ∧
    0 ≤ expT ((2302585092994045685 / 10 ^ 18 : ℝ) / 4) - 2 / 10 ^ 20 := by
  unfold expT
  simp only [Finset.sum_range_succ, Finset.sum_range_zero, Nat.factorial]
  norm_num

theorem log10_near : 2302585092994045683 / 10 ^ 18 ≤ Real.log 10 ∧ Real.log 10 ≤ 2302585092994045685 / 10 ^ 18 := by
  obtain ⟨h1, h2, h3⟩ := expT_quarter
  have e : ∀ x : ℝ, Real.exp x = Real.exp (x / 4) ^ 4 := fun x => by
    rw [← Real.exp_nat_mul]
    congr 1
    push_cast
    ring
  constructor
  · rw [Real.le_log_iff_exp_le (by norm_num), e]
    refine le_trans (pow_le_pow_left₀ (Real.exp_pos _).le ?_ 4) h2
    have := exp_taylor (x := (2302585092994045683 / 10 ^ 18 : ℝ) / 4) (by norm_num [abs_le])
    rw [abs_le] at this
    linarith
  · rw [Real.log_le_iff_le_exp (by norm_num), e]
    refine le_trans h1 (pow_le_pow_left₀ h3 ?_ 4)
    have := exp_taylor (x := (2302585092994045685 / 10 ^ 18 : ℝ) / 4) (by norm_num [abs_le])
    rw [abs_le] at this
    linarith

theorem exp_between {lo hi y v e : ℝ} (h1 : lo ≤ y) (h2 : y ≤ hi) (h3 : |lo| ≤ 3 / 5) (h4 : |hi| ≤ 3 / 5)
    (h5 : v - e ≤ expT lo - 2 / 10 ^ 20) (h6 : expT hi + 2 / 10 ^ 20 ≤ v + e) : |Real.exp y - v| ≤ e := by
  have a1 := abs_le.1 (exp_taylor h3)
  have a2 := abs_le.1 (exp_taylor h4)
  have b1 := Real.exp_le_exp.2 h1
  have b2 := Real.exp_le_exp.2 h2
  rw [abs_le]
  constructor <;> linarith

theorem gainH_exp : gainH = Real.exp (3999843853973347 / 10 ^ 15 / 20 * Real.log 10) := by
  unfold gainH
  rw [Real.rpow_def_of_pos (by norm_num), mul_comm]

theorem gainB_exp : gainB = Real.exp (4996667741545416 / 10 ^ 16 * (3999843853973347 / 10 ^ 15 / 20 * Real.log 10)) := by
  unfold gainB
  rw [gainH_exp, Real.rpow_def_of_pos (Real.exp_pos _), Real.log_exp, mul_comm]

theorem gainH_near : |gainH - 1584864701130855615 / 10 ^ 18| ≤ 2 / 10 ^ 18 := by
  obtain ⟨h1, h2⟩ := log10_near
  rw [gainH_exp]
  refine exp_between (lo := 3999843853973347 / 10 ^ 15 / 20 * (2302585092994045683 / 10 ^ 18))
    (hi := 3999843853973347 / 10 ^ 15 / 20 * (2302585092994045685 / 10 ^ 18))
    (mul_le_mul_of_nonneg_left h1 (by norm_num)) (mul_le_mul_of_nonneg_left h2 (by norm_num))
    (by norm_num [abs_le]) (by norm_num [abs_le]) ?_ ?_
  all_goals
    unfold expT
    simp only [Finset.sum_range_succ, Finset.sum_range_zero, Nat.factorial]
    norm_num

theorem gainB_near : |gainB - 1258720930232561767 / 10 ^ 18| ≤ 2 / 10 ^ 18 := by
  obtain ⟨h1, h2⟩ := log10_near
  rw [gainB_exp]
  refine exp_between (lo := 4996667741545416 / 10 ^ 16 * (3999843853973347 / 10 ^ 15 / 20 * (2302585092994045683 / 10 ^ 18)))
    (hi := 4996667741545416 / 10 ^ 16 * (3999843853973347 / 10 ^ 15 / 20 * (2302585092994045685 / 10 ^ 18)))
    (by
      refine mul_le_mul_of_nonneg_left (mul_le_mul_of_nonneg_left h1 ?_) ?_ <;> norm_num)
    (by
      refine mul_le_mul_of_nonneg_left (mul_le_mul_of_nonneg_left h2 ?_) ?_ <;> norm_num)
    (by norm_num [abs_le]) (by norm_num [abs_le]) ?_ ?_
  all_goals
    unfold expT
    simp only [Finset.sum_range_succ, Finset.sum_range_zero, Nat.factorial]
    norm_num

theorem mul_near {x y a b e : ℝ} (hx : |x - a| ≤ e) (hy : |y - b| ≤ e) (ha : |a| ≤ 2) (hb : |b| ≤ 2) (he : e ≤ 1) :
    |x * y - a * b| ≤ 5 * e := by
  have h : x * y - a * b = (x - a) * (y - b) + a * (y - b) + (x - a) * b := by ring
  have e0 : 0 ≤ e := (abs_nonneg _).trans hx
  have h1 : |(x - a) * (y - b)| ≤ e * 1 := by
    rw [abs_mul]; exact mul_le_mul hx (hy.trans he) (abs_nonneg _) e0
  have h2 : |a * (y - b)| ≤ 2 * e := by
    rw [abs_mul]; exact mul_le_mul ha hy (abs_nonneg _) (by norm_num)
  have h3 : |(x - a) * b| ≤ e * 2 := by
    rw [abs_mul]; exact mul_le_mul hx hb (abs_nonneg _) e0
  rw [h]
  have h4 := abs_add_le ((x - a) * (y - b) + a * (y - b)) ((x - a) * b)
  have h5 := abs_add_le ((x - a) * (y - b)) (a * (y - b))
  linarith

theorem ratio_near {N d t : ℝ} (hd : 1 ≤ d) (h : |N - t * d| ≤ 5 / 10 ^ 15) : Rounds (N / d) t := by
  unfold Rounds
  have : N / d - t = (N - t * d) / d := by field_simp
  rw [this, abs_div, abs_of_nonneg (by linarith : 0 ≤ d), div_le_iff₀ (by linarith)]
  linarith

theorem den1_ge : 1 ≤ den (tan1 48000) q1 := by
  have h := abs_le.1 tan1_48k
  have : 0 ≤ tan1 48000 := by linarith
  unfold den q1
  have : 0 ≤ tan1 48000 * tan1 48000 := mul_nonneg this this
  have : 0 ≤ tan1 48000 / (7071752369554196 / 10 ^ 16) := by positivity
  linarith

theorem den2_ge : 1 ≤ den (tan2 48000) q2 := by
  have h := abs_le.1 tan2_48k
  have : 0 ≤ tan2 48000 := by linarith
  unfold den q2
  have : 0 ≤ tan2 48000 * tan2 48000 := mul_nonneg this this
  have : 0 ≤ tan2 48000 / (5003270373238773 / 10 ^ 16) := by positivity
  linarith

/-- **C53.** At 48 kHz the filter is the cascade of the two sections of ITU-R BS.1770 (tables 1 and 2); every
coefficient agrees with the recommendation in all fourteen digits printed there. -/
theorem C53_itu (bs : BSearch) (u : Nat) :
    let coef := filterCoefficients (exactEnv bs u) ((exactEnv bs u).f64.ofInt 48000)
    ∃ b0 b1 b2 a1 a2 c1 c2 : ℝ,
      coef.1 = cascade b0 b1 b2 1 (-2) 1 ∧ coef.2 = cascade 1 a1 a2 1 c1 c2 ∧
      Rounds b0 1.53512485958697 ∧ Rounds b1 (-2.69169618940638) ∧ Rounds b2 1.19839281085285 ∧
      Rounds a1 (-1.69065929318241) ∧ Rounds a2 0.73248077421585 ∧
      Rounds c1 (-1.99004745483398) ∧ Rounds c2 0.99007225036621 := by
  intro coef
  refine ⟨num0 (tan1 48000), num1 (tan1 48000), num2 (tan1 48000), sec1 (tan1 48000) q1, sec2 (tan1 48000) q1,
    sec1 (tan2 48000) q2, sec2 (tan2 48000) q2, ?_, ?_, ?_⟩
  · have := coef_b bs u 48000
    simp only [coef, cascade]
    push_cast at this ⊢
    rw [this]
    congr 1 <;> ring
  · have := coef_a bs u 48000
    simp only [coef, cascade]
    push_cast at this ⊢
    rw [this]
    congr 1 <;> ring
  · have k1 := tan1_48k
    have k2 := tan2_48k
    have gh := gainH_near
    have gb := gainB_near
    have d1 := den1_ge
    have d2 := den2_ge
    have kk1 := mul_near k1 k1 (by norm_num [abs_le]) (by norm_num [abs_le]) (by norm_num)
    have kk2 := mul_near k2 k2 (by norm_num [abs_le]) (by norm_num [abs_le]) (by norm_num)
    have bk := mul_near gb (k1.trans (by norm_num : (1 : ℝ) / 10 ^ 18 ≤ 2 / 10 ^ 18)) (by norm_num [abs_le])
      (by norm_num [abs_le]) (by norm_num)
    unfold num0 num1 num2 sec1 sec2
    refine ⟨ratio_near d1 ?_, ratio_near d1 ?_, ratio_near d1 ?_, ratio_near d1 ?_, ratio_near d1 ?_,
      ratio_near d2 ?_, ratio_near d2 ?_⟩
    all_goals
      unfold den q1 q2 at *
      clear d1 d2
      generalize tan1 48000 * tan1 48000 = KK at *
      generalize gainB * tan1 48000 = BK at *
      generalize tan2 48000 * tan2 48000 = KK' at *
      generalize tan1 48000 = K at *
      generalize tan2 48000 = K' at *
      generalize gainH = H at *
      rw [abs_le] at *
      constructor <;> linarith

/-! ## Other rates -/

/-- Frequency response of a filter (as a function on the complex plane). -/
noncomputable def Spec.transfer (coef : V5 ℝ × V5 ℝ) (z : ℂ) : ℂ := quartic coef.1 z / quartic coef.2 z

/-- The analogue filter: a high shelf at the frequency where `s₁ = i`, and a high pass at the frequency where
`s₂ = i`. -/
noncomputable def Spec.analogue (s₁ s₂ : ℂ) : ℂ :=
  ((10 ^ (3.999843853973347 / 20 : ℝ) : ℝ) * s₁ ^ 2 +
    ((10 ^ (3.999843853973347 / 20 : ℝ)) ^ (0.4996667741545416 : ℝ) / 0.7071752369554196 : ℝ) * s₁ + 1) /
    (s₁ ^ 2 + s₁ / (0.7071752369554196 : ℝ) + 1) *
  (s₂ ^ 2 / (s₂ ^ 2 + s₂ / (0.5003270373238773 : ℝ) + 1))

/-- Gain of the high pass at high frequencies. -/
noncomputable def Spec.passGain (rate : Nat) : ℝ := 1 + tan2 rate / 0.5003270373238773 + tan2 rate ^ 2

theorem tan_ne_zero {rate : Nat} (hr : 0 < rate) : tan1 rate ≠ 0 ∧ tan2 rate ≠ 0 := by
  constructor
  · by_cases h : Even (3363 / rate)
    · exact ((tan1_sign hr).1 h).ne'
    · exact ((tan1_sign hr).2 h).ne
  · by_cases h : Even (76 / rate)
    · exact ((tan2_sign hr).1 h).ne'
    · exact ((tan2_sign hr).2 h).ne

theorem section_bilinear {K Q : ℝ} (hQ : 1 / 2 < Q) (hK : K ≠ 0) {z : ℂ} (hz : z + 1 ≠ 0) :
    (den K Q : ℂ) * (z ^ 2 + sec1 K Q * z + sec2 K Q) =
      (z + 1) ^ 2 * K ^ 2 * (((z - 1) / (z + 1) / K) ^ 2 + (z - 1) / (z + 1) / K / Q + 1) := by
  have hd : (den K Q : ℂ) ≠ 0 := by exact_mod_cast (den_pos (K := K) hQ).ne'
  have hQ0 : (Q : ℂ) ≠ 0 := by
    have : Q ≠ 0 := by linarith
    exact_mod_cast this
  have hK0 : (K : ℂ) ≠ 0 := by exact_mod_cast hK
  have e1 : (den K Q : ℂ) * (sec1 K Q : ℂ) = 2 * (K * K - 1) := by
    unfold sec1; push_cast; field_simp
  have e2 : (den K Q : ℂ) * (sec2 K Q : ℂ) = 1 - K / Q + K * K := by
    unfold sec2; push_cast; field_simp
  have e3 : (den K Q : ℂ) = 1 + K / Q + K * K := by unfold den; push_cast; ring
  have : (den K Q : ℂ) * (z ^ 2 + sec1 K Q * z + sec2 K Q) =
      den K Q * z ^ 2 + (den K Q * sec1 K Q) * z + den K Q * sec2 K Q := by ring
  rw [this, e1, e2, e3]
  field_simp
  ring

theorem shelf_bilinear {K : ℝ} (hK : K ≠ 0) {z : ℂ} (hz : z + 1 ≠ 0) :
    (den K q1 : ℂ) * (num0 K * z ^ 2 + num1 K * z + num2 K) =
      (z + 1) ^ 2 * K ^ 2 * (gainH * ((z - 1) / (z + 1) / K) ^ 2 + (gainB / q1 : ℝ) * ((z - 1) / (z + 1) / K) + 1) := by
  have hd : (den K q1 : ℂ) ≠ 0 := by exact_mod_cast (den_pos (K := K) q1_half).ne'
  have hQ0 : (q1 : ℂ) ≠ 0 := by
    have : q1 ≠ 0 := by have := q1_half; linarith
    exact_mod_cast this
  have hK0 : (K : ℂ) ≠ 0 := by exact_mod_cast hK
  have e0 : (den K q1 : ℂ) * (num0 K : ℂ) = gainH + gainB * K / q1 + K * K := by
    unfold num0; push_cast; field_simp
  have e1 : (den K q1 : ℂ) * (num1 K : ℂ) = 2 * (K * K - gainH) := by
    unfold num1; push_cast; field_simp
  have e2 : (den K q1 : ℂ) * (num2 K : ℂ) = gainH - gainB * K / q1 + K * K := by
    unfold num2; push_cast; field_simp
  have : (den K q1 : ℂ) * (num0 K * z ^ 2 + num1 K * z + num2 K) =
      (den K q1 * num0 K) * z ^ 2 + (den K q1 * num1 K) * z + den K q1 * num2 K := by ring
  rw [this, e0, e1, e2]
  push_cast
  field_simp
  ring

/-- **C53.** At every rate the filter is the bilinear transform of one and the same analogue filter, with both corner
frequencies in place, times `passGain rate`. -/
theorem C53_prototype (bs : BSearch) (u : Nat) {rate : Nat} (hr : 0 < rate) {z : ℂ} (hz : z ≠ -1) :
    let coef := filterCoefficients (exactEnv bs u) ((exactEnv bs u).f64.ofInt rate)
    let s := (z - 1) / (z + 1)
    quartic coef.2 z ≠ 0 → transfer coef z = passGain rate * analogue (s / tan1 rate) (s / tan2 rate) := by
  intro coef s ha
  have hz1 : z + 1 ≠ 0 := fun h => hz (eq_neg_of_add_eq_zero_left h)
  obtain ⟨k1, k2⟩ := tan_ne_zero hr
  have hb : quartic coef.1 z = (num0 (tan1 rate) * z ^ 2 + num1 (tan1 rate) * z + num2 (tan1 rate)) * (z - 1) ^ 2 := by
    show quartic (filterCoefficients (exactEnv bs u) ((exactEnv bs u).f64.ofInt rate)).1 z = _
    rw [coef_b]
    simp only [quartic]
    push_cast
    ring
  have ha' := quartic_a bs u rate z
  change quartic coef.2 z = _ at ha'
  have s1 := section_bilinear q1_half k1 hz1
  have s2 := section_bilinear q2_half k2 hz1
  have s3 := shelf_bilinear k1 hz1
  have d1 : (den (tan1 rate) q1 : ℂ) ≠ 0 := by exact_mod_cast (den_pos (K := tan1 rate) q1_half).ne'
  have d2 : (den (tan2 rate) q2 : ℂ) ≠ 0 := by exact_mod_cast (den_pos (K := tan2 rate) q2_half).ne'
  have k1c : (tan1 rate : ℂ) ≠ 0 := by exact_mod_cast k1
  have k2c : (tan2 rate : ℂ) ≠ 0 := by exact_mod_cast k2
  rw [ha'] at ha
  have hA1 := left_ne_zero_of_mul ha
  have hA2 := right_ne_zero_of_mul ha
  have gp : (passGain rate : ℂ) = den (tan2 rate) q2 := by
    unfold passGain den q2
    push_cast
    norm_num
    ring
  have gh : (10 : ℝ) ^ (3.999843853973347 / 20 : ℝ) = gainH := by
    unfold gainH
    congr 1
    norm_num
  have gb : gainH ^ (0.4996667741545416 : ℝ) / 0.7071752369554196 = gainB / q1 := by
    unfold gainB q1
    rw [show (0.4996667741545416 : ℝ) = 4996667741545416 / 10 ^ 16 by norm_num]
    norm_num
  have gq1 : (0.7071752369554196 : ℝ) = q1 := by unfold q1; norm_num
  have gq2 : (0.5003270373238773 : ℝ) = q2 := by unfold q2; norm_num
  unfold transfer analogue
  rw [gh, gb, gq1, gq2, gp, hb, ha']
  have hw : (z - 1) ^ 2 = (s / tan2 rate) ^ 2 * ((z + 1) ^ 2 * (tan2 rate : ℂ) ^ 2) := by
    simp only [s]
    field_simp
  rw [hw]
  change (den (tan1 rate) q1 : ℂ) * _ = (z + 1) ^ 2 * (tan1 rate : ℂ) ^ 2 * ((s / tan1 rate) ^ 2 + s / tan1 rate / q1 + 1) at s1
  change (den (tan2 rate) q2 : ℂ) * _ = (z + 1) ^ 2 * (tan2 rate : ℂ) ^ 2 * ((s / tan2 rate) ^ 2 + s / tan2 rate / q2 + 1) at s2
  change (den (tan1 rate) q1 : ℂ) * _ = (z + 1) ^ 2 * (tan1 rate : ℂ) ^ 2 *
    (gainH * (s / tan1 rate) ^ 2 + (gainB / q1 : ℝ) * (s / tan1 rate) + 1) at s3
  have hX1 : (s / tan1 rate) ^ 2 + s / tan1 rate / q1 + 1 ≠ 0 := by
    intro h
    rw [h, mul_zero] at s1
    exact mul_ne_zero d1 hA1 s1
  have hX2 : (s / tan2 rate) ^ 2 + s / tan2 rate / q2 + 1 ≠ 0 := by
    intro h
    rw [h, mul_zero] at s2
    exact mul_ne_zero d2 hA2 s2
  generalize (s / tan1 rate) ^ 2 + s / tan1 rate / q1 + 1 = X1 at *
  generalize (s / tan2 rate) ^ 2 + s / tan2 rate / q2 + 1 = X2 at *
  generalize (gainH : ℂ) * (s / tan1 rate) ^ 2 + (gainB / q1 : ℝ) * (s / tan1 rate) + 1 = N at *
  generalize z ^ 2 + (sec1 (tan1 rate) q1 : ℂ) * z + (sec2 (tan1 rate) q1 : ℂ) = A1 at *
  generalize z ^ 2 + (sec1 (tan2 rate) q2 : ℂ) * z + (sec2 (tan2 rate) q2 : ℂ) = A2 at *
  generalize (num0 (tan1 rate) : ℂ) * z ^ 2 + (num1 (tan1 rate) : ℂ) * z + (num2 (tan1 rate) : ℂ) = P at *
  have h1 : P / A1 = N / X1 := by
    rw [div_eq_div_iff hA1 hX1]
    apply mul_left_cancel₀ d1
    linear_combination X1 * s3 - N * s1
  have h2 : (z + 1) ^ 2 * (tan2 rate : ℂ) ^ 2 / A2 = den (tan2 rate) q2 / X2 := by
    rw [div_eq_div_iff hA2 hX2, ← s2]
  rw [mul_div_mul_comm, h1, mul_div_assoc, h2]
  ring

/-- Difference in gain between two rates, in decibels. -/
noncomputable def Spec.gainOver (rate rate' : Nat) : ℝ := 20 * Real.logb 10 (passGain rate / passGain rate')

theorem passGain_48k : |passGain 48000 - 10049948987147 / 10 ^ 13| ≤ 1 / 10 ^ 10 := by
  have h := abs_le.1 tan2_48k
  unfold passGain
  have hk : |tan2 48000 ^ 2 - (249596591533546567 / 10 ^ 20) ^ 2| ≤ 1 / 10 ^ 16 := by
    have := mul_near tan2_48k tan2_48k (by norm_num [abs_le]) (by norm_num [abs_le]) (by norm_num)
    rw [← pow_two, ← pow_two] at this
    linarith
  rw [abs_le] at hk ⊢
  norm_num at h hk ⊢
  constructor <;> linarith

theorem tan2_8k : |tan2 8000 - 1497688404940122861 / 10 ^ 20| ≤ 1 / 10 ^ 18 := by
  unfold tan2 piC
  refine tan_near (by norm_num) (by norm_num) (by norm_num) (by norm_num [abs_of_pos]) ?_
  unfold sinT cosT
  norm_num [abs_le]

theorem tan2_32k : tan2 32000 ≤ 375 / 100000 := by
  have : |tan2 32000 - 374395859145 / 10 ^ 14| ≤ 1 / 10 ^ 10 := by
    unfold tan2 piC
    refine tan_near (by norm_num) (by norm_num) (by norm_num) (by norm_num [abs_of_pos]) ?_
    unfold sinT cosT
    norm_num [abs_le]
  have := abs_le.1 this
  linarith

/-- The tangent falls with the rate. -/
theorem tan2_mono {r : Nat} (h : 32000 ≤ r) : 0 < tan2 r ∧ tan2 r ≤ 375 / 100000 := by
  have hr : (32000 : ℝ) ≤ r := by exact_mod_cast h
  have hpi := Real.pi_gt_three
  refine ⟨(tan2_sign (by omega)).1 (by rw [Nat.div_eq_of_lt (by omega)]; exact Even.zero), le_trans ?_ tan2_32k⟩
  unfold tan2 piC
  have hle : (314159265358979323846264338327950288 / 10 ^ 35 * (3813547087602444 / 10 ^ 14) / r : ℝ) ≤
      314159265358979323846264338327950288 / 10 ^ 35 * (3813547087602444 / 10 ^ 14) / (32000 : Nat) := by
    apply div_le_div_of_nonneg_left (by positivity) (by norm_num)
    exact_mod_cast h
  have hp : (0 : ℝ) ≤ 314159265358979323846264338327950288 / 10 ^ 35 * (3813547087602444 / 10 ^ 14) / r := by positivity
  have hq : (314159265358979323846264338327950288 / 10 ^ 35 * (3813547087602444 / 10 ^ 14) / (32000 : Nat) : ℝ) ≤ 1 := by
    norm_num
  rcases hle.eq_or_lt with he | hl
  · rw [he]
  · exact (Real.tan_lt_tan_of_nonneg_of_lt_pi_div_two hp (by linarith) hl).le

/-- **C53.** The gain `passGain` makes the same signal read up to 0.05 dB differently at the usual rates, compared to
48 kHz, and more than 0.2 dB louder at 8 kHz. -/
theorem C53_gain : (∀ rate, 32000 ≤ rate → |gainOver rate 48000| ≤ 0.05) ∧ 0.2 < gainOver 8000 48000 := by
  have g48 := abs_le.1 passGain_48k
  obtain ⟨l1, l2⟩ := log10_near
  constructor
  · intro rate hr
    obtain ⟨t0, t1⟩ := tan2_mono hr
    have g1 : 1 < passGain rate := by
      unfold passGain
      have : 0 < tan2 rate / 0.5003270373238773 := by positivity
      nlinarith [sq_nonneg (tan2 rate)]
    have g2 : passGain rate ≤ 10076 / 10000 := by
      unfold passGain
      have h1 : tan2 rate / 0.5003270373238773 ≤ 375 / 100000 / 0.5003270373238773 :=
        div_le_div_of_nonneg_right t1 (by norm_num)
      have h2 : tan2 rate ^ 2 ≤ (375 / 100000) ^ 2 := pow_le_pow_left₀ t0.le t1 2
      norm_num at h1 h2 ⊢
      linarith
    have p48 : 0 < passGain 48000 := by linarith
    have x0 : 0 < passGain rate / passGain 48000 := by positivity
    have x1 : passGain rate / passGain 48000 ≤ 1 + 3 / 1000 := by
      rw [div_le_iff₀ p48]; linarith
    have x2 : 1 - 5 / 1000 ≤ passGain rate / passGain 48000 := by
      rw [le_div_iff₀ p48]; linarith
    unfold gainOver Real.logb
    generalize passGain rate / passGain 48000 = x at *
    have a1 := Real.log_le_sub_one_of_pos x0
    have a2 : -Real.log x ≤ 5.03 / 1000 := by
      have h1 := Real.log_le_sub_one_of_pos (inv_pos.2 x0)
      rw [Real.log_inv] at h1
      have h2 : x⁻¹ ≤ (1 - 5 / 1000)⁻¹ := inv_anti₀ (by norm_num) x2
      norm_num at h2 ⊢
      linarith
    have a3 : |Real.log x| ≤ 5.03 / 1000 := abs_le.2 ⟨by linarith, by norm_num; linarith⟩
    rw [abs_mul, abs_div, abs_of_nonneg (by norm_num : (0 : ℝ) ≤ 20), abs_of_nonneg (by linarith : 0 ≤ Real.log 10)]
    have : |Real.log x| / Real.log 10 ≤ 0.0025 := by
      rw [div_le_iff₀ (by linarith)]
      norm_num at a3 ⊢
      linarith
    linarith
  · have t := abs_le.1 tan2_8k
    have g1 : 103015 / 100000 ≤ passGain 8000 := by
      unfold passGain
      have h1 : 149768 / 10000000 / 0.5003270373238773 ≤ tan2 8000 / 0.5003270373238773 :=
        div_le_div_of_nonneg_right (by linarith) (by norm_num)
      have h2 : (149768 / 10000000) ^ 2 ≤ tan2 8000 ^ 2 := pow_le_pow_left₀ (by norm_num) (by linarith) 2
      norm_num at h1 h2 ⊢
      linarith
    have p48 : 0 < passGain 48000 := by linarith
    have x1 : 1025 / 1000 ≤ passGain 8000 / passGain 48000 := by
      rw [le_div_iff₀ p48]; linarith
    unfold gainOver Real.logb
    generalize passGain 8000 / passGain 48000 = x at *
    have x0 : 0 < x := by linarith
    have a1 : 0.024 ≤ Real.log x := by
      have h1 := Real.log_le_sub_one_of_pos (inv_pos.2 x0)
      rw [Real.log_inv] at h1
      have h2 : x⁻¹ ≤ (1025 / 1000)⁻¹ := inv_anti₀ (by norm_num) x1
      norm_num at h2 ⊢
      linarith
    have : 0.0101 ≤ Real.log x / Real.log 10 := by
      rw [le_div_iff₀ (by linarith)]
      norm_num at a1 ⊢
      linarith
    norm_num at this ⊢
    linarith

/-- The condition of `C53_prototype` holds for every frequency below the Nyquist frequency at the usual rates. -/
example (bs : BSearch) (u : Nat) {rate : Nat} (hr : 3364 ≤ rate) {z : ℂ} (h1 : ‖z‖ = 1) (hz : z ≠ -1) :
    transfer (filterCoefficients (exactEnv bs u) ((exactEnv bs u).f64.ofInt rate)) z =
      passGain rate * analogue ((z - 1) / (z + 1) / tan1 rate) ((z - 1) / (z + 1) / tan2 rate) :=
  C53_prototype bs u (by omega) hz fun h => by
    have := C47_stable bs u hr z h
    linarith

/-- The analogue filter is not trivial: it blocks constants and amplifies high frequencies. -/
example : analogue 0 0 = 0 := by simp [analogue]

/-- The tolerance tells 1.53512485958697 from its neighbours. -/
example : ¬ Rounds 1.53512485958698 1.53512485958697 := by
  unfold Rounds
  norm_num [abs_of_pos]

end Verif
