import Verif.Props.C13_C15
import Verif.Spec.Exact
import Mathlib.Analysis.Real.Pi.Bounds
import Mathlib.Analysis.Complex.Polynomial.Basic
/-!
# C47: poles and zeros of the K-weighting filter

In exact arithmetic, for every sample rate: where the poles are, that the filter blocks direct current, that its
output is bounded at the stable rates and unbounded at all others.
-/

set_option linter.unusedSimpArgs false

namespace Verif
open Spec

/-- A polynomial of degree four, highest coefficient first. -/
noncomputable def Spec.quartic (a : V5 ℝ) (z : ℂ) : ℂ := a.v0 * z ^ 4 + a.v1 * z ^ 3 + a.v2 * z ^ 2 + a.v3 * z + a.v4

/-- All poles are strictly inside the unit circle. -/
def Spec.Stable (a : V5 ℝ) : Prop := ∀ z : ℂ, quartic a z = 0 → ‖z‖ < 1

/-! ## Second-order sections -/

/-- The section with `K` and `Q`. -/
noncomputable def den (K Q : ℝ) : ℝ := 1 + K / Q + K * K
noncomputable def sec1 (K Q : ℝ) : ℝ := 2 * (K * K - 1) / den K Q
noncomputable def sec2 (K Q : ℝ) : ℝ := (1 - K / Q + K * K) / den K Q

theorem den_pos {K Q : ℝ} (hQ : 1 / 2 < Q) : 0 < den K Q := by
  unfold den
  have hQ0 : 0 < Q := by linarith
  have h1 : 1 / Q < 2 := by rw [div_lt_iff₀ hQ0]; linarith
  have h2 : 0 < 1 / Q := by positivity
  have h3 : K / Q = K * (1 / Q) := by ring
  rw [h3]
  generalize 1 / Q = w at *
  nlinarith [sq_nonneg (2 * K + w), mul_pos h2 (by linarith : 0 < 2 - w)]

theorem quad_inside {p q : ℝ} (h2 : q < 1) (h3 : -(1 + q) < p) (h4 : p < 1 + q) {z : ℂ}
    (h : z ^ 2 + p * z + q = 0) : ‖z‖ < 1 := by
  obtain ⟨x, y⟩ := z
  have hre := congrArg Complex.re h
  have him := congrArg Complex.im h
  simp [pow_two] at hre him
  have hn : ‖(⟨x, y⟩ : ℂ)‖ ^ 2 = x * x + y * y := by rw [Complex.sq_norm, Complex.normSq_mk]
  have key : x * x + y * y < 1 := by
    by_cases hy : y = 0
    · subst hy
      simp at hre ⊢
      by_contra hc
      have hx : 1 ≤ x ∨ x ≤ -1 := by
        by_contra hd
        push Not at hd
        exact hc (by nlinarith)
      rcases hx with hx | hx
      · nlinarith [mul_nonneg (by linarith : 0 ≤ x - 1) (by linarith : 0 ≤ x - q),
          mul_pos (by linarith : 0 < x) (by linarith : 0 < p + (1 + q))]
      · nlinarith [mul_nonneg (by linarith : 0 ≤ -x - 1) (by linarith : 0 ≤ -x - q),
          mul_pos (by linarith : 0 < -x) (by linarith : 0 < (1 + q) - p)]
    · have hp : p = -2 * x := by
        have : y * (2 * x + p) = 0 := by linarith
        rcases mul_eq_zero.1 this with h | h
        · exact absurd h hy
        · linarith
      subst hp
      nlinarith
  nlinarith [norm_nonneg (⟨x, y⟩ : ℂ)]

theorem quad_outside {p q : ℝ} (h : 1 < q) : ∃ z : ℂ, z ^ 2 + p * z + q = 0 ∧ 1 < ‖z‖ := by
  obtain ⟨s, hs⟩ := IsAlgClosed.exists_pow_nat_eq ((p : ℂ) ^ 2 - 4 * q) (n := 2) (by norm_num)
  have h1 : ((-p + s) / 2) ^ 2 + p * ((-p + s) / 2) + q = 0 := by linear_combination hs / 4
  have h2 : ((-p - s) / 2) ^ 2 + p * ((-p - s) / 2) + q = 0 := by linear_combination hs / 4
  have h3 : ((-p + s) / 2) * ((-p - s) / 2) = (q : ℂ) := by linear_combination -hs / 4
  by_cases hc : 1 < ‖(-p + s) / 2‖
  · exact ⟨_, h1, hc⟩
  · refine ⟨_, h2, ?_⟩
    by_contra hd
    push Not at hc hd
    have := congrArg norm h3
    rw [norm_mul, Complex.norm_real, Real.norm_of_nonneg (by linarith)] at this
    nlinarith [norm_nonneg ((-(p : ℂ) + s) / 2), norm_nonneg ((-(p : ℂ) - s) / 2)]

theorem sec_inside {K Q : ℝ} (hQ : 1 / 2 < Q) (hK : 0 < K) {z : ℂ} (h : z ^ 2 + sec1 K Q * z + sec2 K Q = 0) :
    ‖z‖ < 1 := by
  have hd := den_pos (K := K) hQ
  have hk : 0 < K / Q := div_pos hK (by linarith)
  have hdd : den K Q = 1 + K / Q + K * K := rfl
  have hQ0 : Q ≠ 0 := by linarith
  refine quad_inside ?_ ?_ ?_ h
  · rw [sec2, div_lt_iff₀ hd]; linarith
  · rw [sec1, sec2, ← sub_pos]
    have : 2 * (K * K - 1) / den K Q - -(1 + (1 - K / Q + K * K) / den K Q) = 4 * (K * K) / den K Q := by
      field_simp; rw [hdd]; field_simp; ring
    rw [this]; positivity
  · rw [sec1, sec2, ← sub_pos]
    have : 1 + (1 - K / Q + K * K) / den K Q - 2 * (K * K - 1) / den K Q = 4 / den K Q := by
      field_simp; rw [hdd]; field_simp; ring
    rw [this]; positivity

theorem sec_outside {K Q : ℝ} (hQ : 1 / 2 < Q) (hK : K < 0) :
    ∃ z : ℂ, z ^ 2 + sec1 K Q * z + sec2 K Q = 0 ∧ 1 < ‖z‖ := by
  have hd := den_pos (K := K) hQ
  have hk : K / Q < 0 := div_neg_of_neg_of_pos hK (by linarith)
  have hdd : den K Q = 1 + K / Q + K * K := rfl
  refine quad_outside ?_
  rw [sec2, lt_div_iff₀ hd]; linarith

/-! ## The sign of the tangent -/

theorem tan_sign {P f : ℝ} {N r : Nat} (hr : 0 < r) (hlo : N * Real.pi < P * (2 * f))
    (hhi : P * (2 * f) < (N + 1) * Real.pi) :
    (Even (N / r) → 0 < Real.tan (P * f / r)) ∧ (¬ Even (N / r) → Real.tan (P * f / r) < 0) := by
  have hr' : (0 : ℝ) < r := by exact_mod_cast hr
  have h1 : ((N / r : Nat) : ℝ) * r ≤ N := by exact_mod_cast Nat.div_mul_le_self N r
  have h2 : (N : ℝ) + 1 ≤ (((N / r : Nat) : ℝ) + 1) * r := by
    have := Nat.lt_succ_iff.1 (Nat.lt_succ_of_lt (Nat.lt_mul_div_succ N hr))
    have h3 : N + 1 ≤ (N / r + 1) * r := by rw [Nat.mul_comm]; exact Nat.lt_mul_div_succ N hr
    exact_mod_cast h3
  have hpi := Real.pi_pos
  generalize N / r = n at *
  have e1 : n * (Real.pi / 2) < P * f / r := by
    rw [lt_div_iff₀ hr']; nlinarith
  have e2 : P * f / r < (n + 1) * (Real.pi / 2) := by
    rw [div_lt_iff₀ hr']; nlinarith
  constructor
  · rintro ⟨k, rfl⟩
    push_cast at e1 e2
    rw [← Real.tan_sub_nat_mul_pi _ k]
    exact Real.tan_pos_of_pos_of_lt_pi_div_two (by nlinarith) (by nlinarith)
  · intro h
    obtain ⟨k, rfl⟩ := Nat.not_even_iff_odd.1 h
    push_cast at e1 e2
    rw [← Real.tan_sub_nat_mul_pi _ (k + 1)]
    push_cast
    exact Real.tan_neg_of_neg_of_pi_div_two_lt (by nlinarith) (by nlinarith)

/-- The constant `PI` of the code. -/
noncomputable def piC : ℝ := 314159265358979323846264338327950288 / 10 ^ 35

noncomputable def tan1 (rate : Nat) : ℝ := Real.tan (piC * (1681974450955533 / 10 ^ 12) / rate)
noncomputable def tan2 (rate : Nat) : ℝ := Real.tan (piC * (3813547087602444 / 10 ^ 14) / rate)
noncomputable def q1 : ℝ := 7071752369554196 / 10 ^ 16
noncomputable def q2 : ℝ := 5003270373238773 / 10 ^ 16

theorem tan1_sign {rate : Nat} (hr : 0 < rate) :
    (Even (3363 / rate) → 0 < tan1 rate) ∧ (¬ Even (3363 / rate) → tan1 rate < 0) := by
  have h1 := Real.pi_gt_d20
  have h2 := Real.pi_lt_d20
  exact tan_sign hr (by unfold piC; norm_num at h1 h2 ⊢; linarith) (by unfold piC; norm_num at h1 h2 ⊢; linarith)

theorem tan2_sign {rate : Nat} (hr : 0 < rate) :
    (Even (76 / rate) → 0 < tan2 rate) ∧ (¬ Even (76 / rate) → tan2 rate < 0) := by
  have h1 := Real.pi_gt_d20
  have h2 := Real.pi_lt_d20
  exact tan_sign hr (by unfold piC; norm_num at h1 h2 ⊢; linarith) (by unfold piC; norm_num at h1 h2 ⊢; linarith)

/-! ## The coefficients -/

noncomputable def gainH : ℝ := (10 : ℝ) ^ ((3999843853973347 / 10 ^ 15 : ℝ) / 20)
noncomputable def gainB : ℝ := gainH ^ (4996667741545416 / 10 ^ 16 : ℝ)

/-- First section, numerator. -/
noncomputable def num0 (K : ℝ) : ℝ := (gainH + gainB * K / q1 + K * K) / den K q1
noncomputable def num1 (K : ℝ) : ℝ := 2 * (K * K - gainH) / den K q1
noncomputable def num2 (K : ℝ) : ℝ := (gainH - gainB * K / q1 + K * K) / den K q1

theorem gainH_eq : (exactArith.lit 10 1) ^
    (exactArith.div (exactArith.lit 3999843853973347 (10 ^ 15)) (exactArith.lit 20 1)) = gainH := by
  have h1 : exactArith.lit 10 1 = 10 := by norm_num [exactArith]
  have h2 : exactArith.div (exactArith.lit 3999843853973347 (10 ^ 15)) (exactArith.lit 20 1) =
      (3999843853973347 / 10 ^ 15 : ℝ) / 20 := by norm_num [exactArith]
  rw [h1, h2, gainH]

theorem gainB_eq : gainH ^ (exactArith.lit 4996667741545416 (10 ^ 16)) = gainB := by
  have h2 : exactArith.lit 4996667741545416 (10 ^ 16) = (4996667741545416 / 10 ^ 16 : ℝ) := by norm_num [exactArith]
  rw [h2, gainB]

theorem q1_eq : exactArith.lit 7071752369554196 (10 ^ 16) = q1 := by norm_num [exactArith, q1]
theorem q2_eq : exactArith.lit 5003270373238773 (10 ^ 16) = q2 := by norm_num [exactArith, q2]

theorem tan1_eq (rate : Nat) : Real.tan (exactArith.div (exactArith.mul (piLit exactArith)
    (exactArith.lit 1681974450955533 (10 ^ 12))) (exactArith.ofInt rate)) = tan1 rate := by
  norm_num [exactArith, tan1, piLit, piC]

theorem tan2_eq (rate : Nat) : Real.tan (exactArith.div (exactArith.mul (piLit exactArith)
    (exactArith.lit 3813547087602444 (10 ^ 14))) (exactArith.ofInt rate)) = tan2 rate := by
  norm_num [exactArith, tan2, piLit, piC]

theorem coef_b (bs : BSearch) (u rate : Nat) :
    (filterCoefficients (exactEnv bs u) ((exactEnv bs u).f64.ofInt rate)).1 =
      ⟨num0 (tan1 rate), -2 * num0 (tan1 rate) + num1 (tan1 rate),
       num0 (tan1 rate) - 2 * num1 (tan1 rate) + num2 (tan1 rate), num1 (tan1 rate) - 2 * num2 (tan1 rate),
       num2 (tan1 rate)⟩ := by
  simp only [filterCoefficients, exactEnv, gainH_eq, gainB_eq, q1_eq, q2_eq, tan1_eq, tan2_eq]
  simp only [exactArith, num0, num1, num2, den]
  push_cast
  congr 1 <;> ring

theorem coef_a (bs : BSearch) (u rate : Nat) :
    (filterCoefficients (exactEnv bs u) ((exactEnv bs u).f64.ofInt rate)).2 =
      ⟨1, sec1 (tan2 rate) q2 + sec1 (tan1 rate) q1,
       sec2 (tan2 rate) q2 + sec1 (tan1 rate) q1 * sec1 (tan2 rate) q2 + sec2 (tan1 rate) q1,
       sec1 (tan1 rate) q1 * sec2 (tan2 rate) q2 + sec2 (tan1 rate) q1 * sec1 (tan2 rate) q2,
       sec2 (tan1 rate) q1 * sec2 (tan2 rate) q2⟩ := by
  simp only [filterCoefficients, exactEnv, gainH_eq, gainB_eq, q1_eq, q2_eq, tan1_eq, tan2_eq]
  simp only [exactArith, sec1, sec2, den]
  push_cast
  congr 1 <;> ring

/-- The denominator is the product of the two sections. -/
theorem quartic_a (bs : BSearch) (u rate : Nat) (z : ℂ) :
    quartic (filterCoefficients (exactEnv bs u) ((exactEnv bs u).f64.ofInt rate)).2 z =
      (z ^ 2 + sec1 (tan1 rate) q1 * z + sec2 (tan1 rate) q1) *
      (z ^ 2 + sec1 (tan2 rate) q2 * z + sec2 (tan2 rate) q2) := by
  rw [coef_a]
  simp only [quartic]
  push_cast
  ring

theorem q1_half : 1 / 2 < q1 := by unfold q1; norm_num
theorem q2_half : 1 / 2 < q2 := by unfold q2; norm_num

/-- **C47**, the poles.  At every sample rate (0 excepted) the filter is stable if and only if both corner
frequencies, 1681.97 Hz and 38.14 Hz, lie in the first half of a period of the tangent; otherwise it has a pole
strictly outside the unit circle. -/
theorem C47_poles (bs : BSearch) (u : Nat) {rate : Nat} (hr : 0 < rate) :
    let a := (filterCoefficients (exactEnv bs u) ((exactEnv bs u).f64.ofInt rate)).2
    (Even (3363 / rate) ∧ Even (76 / rate) → Stable a) ∧
    (¬ (Even (3363 / rate) ∧ Even (76 / rate)) → ∃ z : ℂ, quartic a z = 0 ∧ 1 < ‖z‖) := by
  constructor
  · rintro ⟨h1, h2⟩ z hz
    rw [quartic_a] at hz
    rcases mul_eq_zero.1 hz with h | h
    · exact sec_inside q1_half ((tan1_sign hr).1 h1) h
    · exact sec_inside q2_half ((tan2_sign hr).1 h2) h
  · intro h
    by_cases h1 : Even (3363 / rate)
    · have h2 : ¬ Even (76 / rate) := fun h2 => h ⟨h1, h2⟩
      obtain ⟨z, hz, hn⟩ := sec_outside q2_half ((tan2_sign hr).2 h2)
      exact ⟨z, by rw [quartic_a, hz, mul_zero], hn⟩
    · obtain ⟨z, hz, hn⟩ := sec_outside q1_half ((tan1_sign hr).2 h1)
      exact ⟨z, by rw [quartic_a, hz, zero_mul], hn⟩

/-- **C47**: stable from 3364 Hz on. -/
theorem C47_stable (bs : BSearch) (u : Nat) {rate : Nat} (hr : 3364 ≤ rate) :
    Stable (filterCoefficients (exactEnv bs u) ((exactEnv bs u).f64.ofInt rate)).2 :=
  (C47_poles bs u (by omega)).1 ⟨by rw [Nat.div_eq_of_lt (by omega)]; exact Even.zero,
    by rw [Nat.div_eq_of_lt (by omega)]; exact Even.zero⟩

/-- **C47**: a pole strictly outside the unit circle from 1682 to 3363 Hz. -/
theorem C47_unstable (bs : BSearch) (u : Nat) {rate : Nat} (h1 : 1682 ≤ rate) (h2 : rate ≤ 3363) :
    ∃ z : ℂ, quartic (filterCoefficients (exactEnv bs u) ((exactEnv bs u).f64.ofInt rate)).2 z = 0 ∧ 1 < ‖z‖ := by
  refine (C47_poles bs u (by omega)).2 fun h => ?_
  have : 3363 / rate = 1 := by
    rw [Nat.div_eq_iff (by omega)]
    omega
  rw [this] at h
  exact absurd h.1 (by decide)

/-- **C47**, direct current: at every rate the numerator has a double zero at `z = 1`. -/
theorem C47_dc (bs : BSearch) (u rate : Nat) :
    let b := (filterCoefficients (exactEnv bs u) ((exactEnv bs u).f64.ofInt rate)).1
    ∃ c0 c1 c2 : ℝ, ∀ z : ℂ, quartic b z = (c0 * z ^ 2 + c1 * z + c2) * (z - 1) ^ 2 := by
  refine ⟨num0 (tan1 rate), num1 (tan1 rate), num2 (tan1 rate), fun z => ?_⟩
  rw [coef_b]
  simp only [quartic]
  push_cast
  ring

/-! ## Signals -/

/-- The state variable of the filter for an infinite signal; four values of silence come first. -/
noncomputable def stateSeq (a : V5 ℝ) (X : ℕ → ℝ) (n : ℕ) : ℝ :=
  if n < 4 then 0 else past 0 (internal exactArith a 0 ((List.range (n - 3)).map X)) 0

theorem internal_succ (a : V5 ℝ) (X : ℕ → ℝ) (n : ℕ) :
    internal exactArith a 0 ((List.range (n + 1)).map X) =
      (X n - a.v1 * past 0 (internal exactArith a 0 ((List.range n).map X)) 0 -
        a.v2 * past 0 (internal exactArith a 0 ((List.range n).map X)) 1 -
        a.v3 * past 0 (internal exactArith a 0 ((List.range n).map X)) 2 -
        a.v4 * past 0 (internal exactArith a 0 ((List.range n).map X)) 3) ::
      internal exactArith a 0 ((List.range n).map X) := by
  rw [List.range_succ, List.map_append, internal, List.foldl_append]
  rfl

theorem past_stateSeq (a : V5 ℝ) (X : ℕ → ℝ) : ∀ (n k : ℕ), k ≤ n + 3 →
    past 0 (internal exactArith a 0 ((List.range n).map X)) k = stateSeq a X (n + 3 - k) := by
  intro n
  induction n with
  | zero =>
    intro k hk
    rw [stateSeq, if_pos (by omega)]
    simp [internal, past]
  | succ n ih =>
    intro k hk
    cases k with
    | zero => rw [stateSeq, if_neg (by omega)]; rfl
    | succ k =>
      rw [internal_succ]
      have := ih k (by omega)
      rw [show n + 1 + 3 - (k + 1) = n + 3 - k by omega, ← this]
      simp [past]

theorem stateSeq_rec (a : V5 ℝ) (X : ℕ → ℝ) (n : ℕ) :
    stateSeq a X (n + 4) = X n - a.v1 * stateSeq a X (n + 3) - a.v2 * stateSeq a X (n + 2) -
      a.v3 * stateSeq a X (n + 1) - a.v4 * stateSeq a X n := by
  have h := past_stateSeq a X (n + 1) 0 (by omega)
  rw [internal_succ, past_stateSeq a X n 0 (by omega), past_stateSeq a X n 1 (by omega),
    past_stateSeq a X n 2 (by omega), past_stateSeq a X n 3 (by omega)] at h
  rw [show n + 1 + 3 - 0 = n + 4 by omega] at h
  rw [← h]
  rfl

theorem stateSeq_zero (a : V5 ℝ) (X : ℕ → ℝ) {n : ℕ} (h : n < 4) : stateSeq a X n = 0 := if_pos h

/-- The output of the filter. -/
theorem response_stateSeq (a b : V5 ℝ) (X : ℕ → ℝ) (n : ℕ) :
    response exactArith b 0 (internal exactArith a 0 ((List.range (n + 1)).map X)) =
      b.v0 * stateSeq a X (n + 4) + b.v1 * stateSeq a X (n + 3) + b.v2 * stateSeq a X (n + 2) +
      b.v3 * stateSeq a X (n + 1) + b.v4 * stateSeq a X n := by
  rw [response, past_stateSeq a X (n + 1) 0 (by omega), past_stateSeq a X (n + 1) 1 (by omega),
    past_stateSeq a X (n + 1) 2 (by omega), past_stateSeq a X (n + 1) 3 (by omega),
    past_stateSeq a X (n + 1) 4 (by omega)]
  rfl

/-! ## One pole at a time -/

/-- A first-order recursion driven by a geometric bound. -/
theorem one_pole {w u : ℕ → ℂ} {r : ℂ} {ρ A C : ℝ} (hw : ∀ n, w (n + 1) = r * w n + u n) (hr : ‖r‖ < ρ)
    (h0 : ‖w 0‖ ≤ A) (hu : ∀ n, ‖u n‖ ≤ C * ρ ^ n) (n : ℕ) : ‖w n‖ ≤ max A (C / (ρ - ‖r‖)) * ρ ^ n := by
  have hρ : 0 < ρ := lt_of_le_of_lt (norm_nonneg r) hr
  induction n with
  | zero => simpa using Or.inl h0
  | succ n ih =>
    have h1 : C ≤ max A (C / (ρ - ‖r‖)) * (ρ - ‖r‖) := by
      have := le_max_right A (C / (ρ - ‖r‖))
      rwa [div_le_iff₀ (by linarith)] at this
    have h2 : 0 < ρ ^ n := pow_pos hρ n
    calc ‖w (n + 1)‖ ≤ ‖r‖ * ‖w n‖ + ‖u n‖ := by
          rw [hw]; exact (norm_add_le _ _).trans (by rw [norm_mul])
      _ ≤ ‖r‖ * (max A (C / (ρ - ‖r‖)) * ρ ^ n) + max A (C / (ρ - ‖r‖)) * (ρ - ‖r‖) * ρ ^ n := by
          have := mul_le_mul_of_nonneg_left ih (norm_nonneg r)
          have := (hu n).trans (mul_le_mul_of_nonneg_right h1 h2.le)
          linarith
      _ = max A (C / (ρ - ‖r‖)) * ρ ^ (n + 1) := by rw [pow_succ]; ring

/-- A quadratic splits. -/
theorem quad_split (p q : ℝ) : ∃ r s : ℂ, (∀ z : ℂ, z ^ 2 + p * z + q = (z - r) * (z - s)) ∧
    (p : ℂ) = -(r + s) ∧ (q : ℂ) = r * s := by
  obtain ⟨d, hd⟩ := IsAlgClosed.exists_pow_nat_eq ((p : ℂ) ^ 2 - 4 * q) (n := 2) (by norm_num)
  refine ⟨(-p + d) / 2, (-p - d) / 2, fun z => ?_, by ring, by linear_combination hd / 4⟩
  linear_combination hd / 4

/-- The poles at a rate. -/
structure Poles (a : V5 ℝ) (r : Fin 4 → ℂ) : Prop where
  v1 : (a.v1 : ℂ) = -(r 0 + r 1 + r 2 + r 3)
  v2 : (a.v2 : ℂ) = r 0 * r 1 + r 0 * r 2 + r 0 * r 3 + r 1 * r 2 + r 1 * r 3 + r 2 * r 3
  v3 : (a.v3 : ℂ) = -(r 0 * r 1 * r 2 + r 0 * r 1 * r 3 + r 0 * r 2 * r 3 + r 1 * r 2 * r 3)
  v4 : (a.v4 : ℂ) = r 0 * r 1 * r 2 * r 3
  root : ∀ z : ℂ, quartic a z = (z - r 0) * (z - r 1) * (z - r 2) * (z - r 3)

theorem poles_exist (bs : BSearch) (u rate : Nat) :
    ∃ r, Poles (filterCoefficients (exactEnv bs u) ((exactEnv bs u).f64.ofInt rate)).2 r := by
  obtain ⟨r0, r1, h1, h2, h3⟩ := quad_split (sec1 (tan1 rate) q1) (sec2 (tan1 rate) q1)
  obtain ⟨r2, r3, g1, g2, g3⟩ := quad_split (sec1 (tan2 rate) q2) (sec2 (tan2 rate) q2)
  refine ⟨![r0, r1, r2, r3], ⟨?_, ?_, ?_, ?_, ?_⟩⟩
  · rw [coef_a]; push_cast; rw [h2, g2]; simp; ring
  · rw [coef_a]; push_cast; rw [h2, g2, h3, g3]; simp; ring
  · rw [coef_a]; push_cast; rw [h2, g2, h3, g3]; simp; ring
  · rw [coef_a]; push_cast; rw [h3, g3]; ring
  · intro z
    rw [quartic_a, h1, g1]; simp; ring

/-- Taking one pole off a sequence. -/
noncomputable def peel (r : ℂ) (w : ℕ → ℂ) (n : ℕ) : ℂ := w (n + 1) - r * w n

theorem peel_rec (r : ℂ) (w : ℕ → ℂ) (n : ℕ) : w (n + 1) = r * w n + peel r w n := by unfold peel; ring

/-- Taking off all four poles leaves the input. -/
theorem peel_all {a : V5 ℝ} {r : Fin 4 → ℂ} (h : Poles a r) {w x : ℕ → ℂ}
    (hw : ∀ n, w (n + 4) = x n - a.v1 * w (n + 3) - a.v2 * w (n + 2) - a.v3 * w (n + 1) - a.v4 * w n) (n : ℕ) :
    peel (r 3) (peel (r 2) (peel (r 1) (peel (r 0) w))) n = x n := by
  simp only [peel]
  rw [show n + 1 + 1 + 1 + 1 = n + 4 by ring, show n + 1 + 1 + 1 = n + 3 by ring, show n + 1 + 1 = n + 2 by ring,
    hw n, h.v1, h.v2, h.v3, h.v4]
  ring

/-- A bound for the input gives a bound for the state. -/
theorem peel_bound {a : V5 ℝ} {r : Fin 4 → ℂ} (h : Poles a r) {w x : ℕ → ℂ}
    (hw : ∀ n, w (n + 4) = x n - a.v1 * w (n + 3) - a.v2 * w (n + 2) - a.v3 * w (n + 1) - a.v4 * w n) {ρ C : ℝ}
    (hr : ∀ i, ‖r i‖ < ρ) (hx : ∀ n, ‖x n‖ ≤ C * ρ ^ n) (n : ℕ) :
    ‖w n‖ ≤ max ‖w 0‖ (max ‖peel (r 0) w 0‖ (max ‖peel (r 1) (peel (r 0) w) 0‖
      (max ‖peel (r 2) (peel (r 1) (peel (r 0) w)) 0‖ (C / (ρ - ‖r 3‖)) / (ρ - ‖r 2‖)) / (ρ - ‖r 1‖)) /
        (ρ - ‖r 0‖)) * ρ ^ n := by
  refine one_pole (peel_rec (r 0) w) (hr 0) le_rfl ?_ n
  refine one_pole (peel_rec (r 1) _) (hr 1) le_rfl ?_
  refine one_pole (peel_rec (r 2) _) (hr 2) le_rfl ?_
  refine one_pole (peel_rec (r 3) _) (hr 3) le_rfl fun n => ?_
  rw [peel_all h hw]
  exact hx n

/-- Poles inside the unit circle are inside a smaller circle. -/
theorem poles_radius {r : Fin 4 → ℂ} (h : ∀ i, ‖r i‖ < 1) : ∃ ρ, 0 < ρ ∧ ρ < 1 ∧ ∀ i, ‖r i‖ < ρ := by
  obtain ⟨ρ, h1, h2⟩ := exists_between (max_lt (max_lt (h 0) (h 1)) (max_lt (h 2) (h 3)))
  have hi : ∀ i, ‖r i‖ < ρ := by
    intro i
    simp only [max_lt_iff] at h1
    fin_cases i
    · exact h1.1.1
    · exact h1.1.2
    · exact h1.2.1
    · exact h1.2.2
  exact ⟨ρ, lt_of_le_of_lt (norm_nonneg _) (hi 0), h2, hi⟩

theorem Poles.stable {a : V5 ℝ} {r : Fin 4 → ℂ} (h : Poles a r) (hs : Stable a) (i : Fin 4) : ‖r i‖ < 1 := by
  refine hs _ ?_
  rw [h.root]
  fin_cases i <;> simp

/-- The state, as complex numbers. -/
noncomputable def stateC (a : V5 ℝ) (X : ℕ → ℝ) (n : ℕ) : ℂ := (stateSeq a X n : ℂ)

theorem stateC_rec (a : V5 ℝ) (X : ℕ → ℝ) (n : ℕ) :
    stateC a X (n + 4) = (X n : ℂ) - a.v1 * stateC a X (n + 3) - a.v2 * stateC a X (n + 2) -
      a.v3 * stateC a X (n + 1) - a.v4 * stateC a X n := by
  simp only [stateC, stateSeq_rec]
  push_cast
  ring

theorem stateC_norm (a : V5 ℝ) (X : ℕ → ℝ) (n : ℕ) : ‖stateC a X n‖ = |stateSeq a X n| := by
  rw [stateC, Complex.norm_real, Real.norm_eq_abs]

theorem stateC_zero (a : V5 ℝ) (X : ℕ → ℝ) {n : ℕ} (h : n < 4) : stateC a X n = 0 := by
  rw [stateC, stateSeq_zero a X h]; rfl

/-- Bounded input, bounded state. -/
theorem state_bounded {a : V5 ℝ} {r : Fin 4 → ℂ} (h : Poles a r) (hs : ∀ i, ‖r i‖ < 1) {X : ℕ → ℝ} {M : ℝ}
    (hX : ∀ n, |X n| ≤ M) (n : ℕ) :
    |stateSeq a X n| ≤ M / ((1 - ‖r 0‖) * (1 - ‖r 1‖) * (1 - ‖r 2‖) * (1 - ‖r 3‖)) := by
  have hM : 0 ≤ M := (abs_nonneg _).trans (hX 0)
  have := peel_bound h (stateC_rec a X) (ρ := 1) (C := M) hs
    (fun n => by rw [one_pow, mul_one, Complex.norm_real]; exact hX n) n
  have z0 : ‖stateC a X 0‖ = 0 := by rw [stateC_zero a X (by omega), norm_zero]
  have z1 : ‖peel (r 0) (stateC a X) 0‖ = 0 := by
    simp only [peel, stateC_zero a X (show 0 < 4 by omega), stateC_zero a X (show 0 + 1 < 4 by omega)]; simp
  have z2 : ‖peel (r 1) (peel (r 0) (stateC a X)) 0‖ = 0 := by
    simp only [peel, stateC_zero a X (show 0 < 4 by omega), stateC_zero a X (show 0 + 1 < 4 by omega),
      stateC_zero a X (show 0 + 1 + 1 < 4 by omega)]; simp
  have z3 : ‖peel (r 2) (peel (r 1) (peel (r 0) (stateC a X))) 0‖ = 0 := by
    simp only [peel, stateC_zero a X (show 0 < 4 by omega), stateC_zero a X (show 0 + 1 < 4 by omega),
      stateC_zero a X (show 0 + 1 + 1 < 4 by omega), stateC_zero a X (show 0 + 1 + 1 + 1 < 4 by omega)]; simp
  have p : ∀ i, 0 < 1 - ‖r i‖ := fun i => by linarith [hs i]
  have e3 : 0 ≤ M / (1 - ‖r 3‖) := div_nonneg hM (p 3).le
  have e2 := div_nonneg e3 (p 2).le
  have e1 := div_nonneg e2 (p 1).le
  have e0 := div_nonneg e1 (p 0).le
  rw [z0, z1, z2, z3, max_eq_right e3, max_eq_right e2, max_eq_right e1, max_eq_right e0, one_pow, mul_one,
    stateC_norm] at this
  refine this.trans (le_of_eq ?_)
  rw [div_div, div_div, div_div]
  congr 1
  ring

/-- The state dies out after the input stops. -/
theorem state_decays {a : V5 ℝ} {r : Fin 4 → ℂ} (h : Poles a r) {ρ : ℝ} (hr : ∀ i, ‖r i‖ < ρ) {w : ℕ → ℝ}
    (hw : ∀ n, w (n + 4) = - a.v1 * w (n + 3) - a.v2 * w (n + 2) - a.v3 * w (n + 1) - a.v4 * w n) :
    ∃ C, ∀ n, |w n| ≤ C * ρ ^ n := by
  have := fun n => peel_bound h (w := fun n => (w n : ℂ)) (x := fun _ => 0) (fun n => by
    show ((w (n + 4) : ℝ) : ℂ) = _
    rw [hw]; push_cast; ring) hr (C := 0) (fun n => by simp) n
  exact ⟨_, fun n => (le_of_eq (by rw [Complex.norm_real, Real.norm_eq_abs])).trans (this n)⟩

/-- Reading one value of the filtered signal. -/
theorem filtered_getD (a b : V5 ℝ) (X : ℕ → ℝ) {xs : List ℝ} {k : ℕ} (hk : k < xs.length)
    (hX : xs.take (k + 1) = (List.range (k + 1)).map X) :
    (filtered exactArith b a 0 xs).getD k 0 =
      b.v0 * stateSeq a X (k + 4) + b.v1 * stateSeq a X (k + 3) + b.v2 * stateSeq a X (k + 2) +
      b.v3 * stateSeq a X (k + 1) + b.v4 * stateSeq a X k := by
  rw [← response_stateSeq, ← hX, filtered]
  simp [List.getD, hk]

theorem take_eq_range (xs : List ℝ) (d : ℝ) {k : ℕ} (hk : k < xs.length) :
    xs.take (k + 1) = (List.range (k + 1)).map fun n => xs.getD n d := by
  apply List.ext_getElem
  · simp; omega
  · intro i h1 h2
    simp at h1 h2
    simp [List.getD, h1]

/-- The K-weighting filter of the code, in exact arithmetic. -/
noncomputable def Spec.kWeighted (bs : BSearch) (u rate : Nat) (xs : List ℝ) : List ℝ :=
  filtered exactArith (filterCoefficients (exactEnv bs u) ((exactEnv bs u).f64.ofInt rate)).1
    (filterCoefficients (exactEnv bs u) ((exactEnv bs u).f64.ofInt rate)).2 0 xs

/-- **C47**, bounded: at every stable rate there is one constant such that a signal bounded by `M` leaves the
filter bounded by `B * M`, however long it is. -/
theorem C47_bounded (bs : BSearch) (u : Nat) {rate : Nat} (hr : 0 < rate) (h1 : Even (3363 / rate))
    (h2 : Even (76 / rate)) :
    ∃ B : ℝ, ∀ (M : ℝ) (xs : List ℝ), (∀ x ∈ xs, |x| ≤ M) → ∀ y ∈ kWeighted bs u rate xs, |y| ≤ B * M := by
  obtain ⟨r, hp⟩ := poles_exist bs u rate
  have hs := hp.stable ((C47_poles bs u hr).1 ⟨h1, h2⟩)
  unfold kWeighted
  generalize (filterCoefficients (exactEnv bs u) ((exactEnv bs u).f64.ofInt rate)).2 = a at hp
  generalize (filterCoefficients (exactEnv bs u) ((exactEnv bs u).f64.ofInt rate)).1 = b
  generalize hP : (1 - ‖r 0‖) * (1 - ‖r 1‖) * (1 - ‖r 2‖) * (1 - ‖r 3‖) = P
  refine ⟨(|b.v0| + |b.v1| + |b.v2| + |b.v3| + |b.v4|) / P, fun M xs hx y hy => ?_⟩
  rw [List.mem_iff_getElem] at hy
  obtain ⟨k, hk, rfl⟩ := hy
  have hk' : k < xs.length := by simpa [filtered] using hk
  have hM : 0 ≤ M := (abs_nonneg _).trans (hx _ (List.getElem_mem hk'))
  have hX : ∀ n, |xs.getD n 0| ≤ M := by
    intro n
    by_cases hn : n < xs.length
    · simpa [List.getD, hn] using hx _ (List.getElem_mem hn)
    · simpa [List.getD, hn] using hM
  have hv := state_bounded hp hs hX
  rw [hP] at hv
  have := filtered_getD a b _ hk' (take_eq_range xs 0 hk')
  rw [show (filtered exactArith b a 0 xs).getD k 0 = (filtered exactArith b a 0 xs)[k] by simp [List.getD, hk]] at this
  rw [this]
  have hb : ∀ c m, |c * stateSeq a (fun n => xs.getD n 0) m| ≤ |c| * (M / P) := fun c m => by
    rw [abs_mul]; exact mul_le_mul_of_nonneg_left (hv m) (abs_nonneg _)
  have e : (|b.v0| + |b.v1| + |b.v2| + |b.v3| + |b.v4|) / P * M =
      |b.v0| * (M / P) + |b.v1| * (M / P) + |b.v2| * (M / P) + |b.v3| * (M / P) + |b.v4| * (M / P) := by ring
  rw [e]
  refine (abs_add_le _ _).trans (add_le_add ?_ (hb _ _))
  refine (abs_add_le _ _).trans (add_le_add ?_ (hb _ _))
  refine (abs_add_le _ _).trans (add_le_add ?_ (hb _ _))
  exact (abs_add_le _ _).trans (add_le_add (hb _ _) (hb _ _))

/-- **C47**, direct current: at every stable rate there is a `ρ < 1` such that, after any signal, a constant
input leaves the filter as a signal dying out like `ρ ^ k`. -/
theorem C47_constant (bs : BSearch) (u : Nat) {rate : Nat} (hr : 0 < rate) (h1 : Even (3363 / rate))
    (h2 : Even (76 / rate)) :
    ∃ ρ : ℝ, 0 < ρ ∧ ρ < 1 ∧ ∀ (xs : List ℝ) (c : ℝ), ∃ C : ℝ, ∀ n k,
      |(kWeighted bs u rate (xs ++ List.replicate n c)).getD (xs.length + k) 0| ≤ C * ρ ^ k := by
  obtain ⟨r, hp⟩ := poles_exist bs u rate
  have hs := hp.stable ((C47_poles bs u hr).1 ⟨h1, h2⟩)
  have hdc : ∀ b : V5 ℝ, b = (filterCoefficients (exactEnv bs u) ((exactEnv bs u).f64.ofInt rate)).1 →
      b.v4 = - b.v0 - b.v1 - b.v2 - b.v3 := by
    rintro b rfl; rw [coef_b]; ring
  unfold kWeighted
  generalize (filterCoefficients (exactEnv bs u) ((exactEnv bs u).f64.ofInt rate)).2 = a at hp
  generalize (filterCoefficients (exactEnv bs u) ((exactEnv bs u).f64.ofInt rate)).1 = b at hdc
  have hdc := hdc b rfl
  obtain ⟨ρ, hρ, hρ1, hrρ⟩ := poles_radius hs
  refine ⟨ρ, hρ, hρ1, fun xs c => ?_⟩
  let X : ℕ → ℝ := fun n => xs.getD n c
  have hXc : ∀ n, X (xs.length + n) = c := fun n => by simp [X, List.getD]
  obtain ⟨C, hC⟩ := state_decays hp hrρ
    (w := fun n => stateSeq a X (xs.length + n + 1) - stateSeq a X (xs.length + n)) (fun n => by
      have g1 := stateSeq_rec a X (xs.length + n + 1)
      have g2 := stateSeq_rec a X (xs.length + n)
      rw [show xs.length + n + 1 = xs.length + (n + 1) by ring, hXc] at g1
      rw [hXc] at g2
      simp only [← add_assoc] at g1 g2 ⊢
      rw [show xs.length + n + 1 + 4 = xs.length + n + 4 + 1 by ring,
        show xs.length + n + 1 + 3 = xs.length + n + 3 + 1 by ring,
        show xs.length + n + 1 + 2 = xs.length + n + 2 + 1 by ring] at g1
      rw [g1, g2]
      ring_nf)
  have hC0 : 0 ≤ C := by
    have := (abs_nonneg _).trans (hC 0)
    simpa using this
  refine ⟨(|b.v0| + |b.v0 + b.v1| + |b.v0 + b.v1 + b.v2| + |b.v0 + b.v1 + b.v2 + b.v3|) * C, fun n k => ?_⟩
  by_cases hk : k < n
  swap
  · have hlen : ¬ xs.length + k < (filtered exactArith b a 0 (xs ++ List.replicate n c)).length := by
      simp [filtered]; omega
    rw [List.getD, List.getElem?_eq_none (Nat.le_of_not_lt hlen)]
    simp only [Option.getD_none, abs_zero]
    positivity
  have hk' : xs.length + k < (xs ++ List.replicate n c).length := by simp; omega
  have hX : (xs ++ List.replicate n c).take (xs.length + k + 1) = (List.range (xs.length + k + 1)).map X := by
    apply List.ext_getElem
    · simp; omega
    · intro i g1 g2
      simp at g1 g2
      by_cases hi : i < xs.length
      · simp [X, List.getElem_append_left, hi]
      · rw [List.getElem_take, List.getElem_append_right (by omega)]
        simp [X, hi, List.getD]
  rw [filtered_getD a b X hk' hX]
  generalize hL : xs.length = L at *
  have hd : ∀ j, |stateSeq a X (L + k + j + 1) - stateSeq a X (L + k + j)| ≤ C * ρ ^ k := fun j => by
    have := hC (k + j)
    rw [← add_assoc] at this
    refine this.trans (mul_le_mul_of_nonneg_left ?_ hC0)
    exact pow_le_pow_of_le_one hρ.le hρ1.le (by omega)
  have e : b.v0 * stateSeq a X (L + k + 4) + b.v1 * stateSeq a X (L + k + 3) + b.v2 * stateSeq a X (L + k + 2) +
      b.v3 * stateSeq a X (L + k + 1) + b.v4 * stateSeq a X (L + k) =
      b.v0 * (stateSeq a X (L + k + 3 + 1) - stateSeq a X (L + k + 3)) +
      (b.v0 + b.v1) * (stateSeq a X (L + k + 2 + 1) - stateSeq a X (L + k + 2)) +
      (b.v0 + b.v1 + b.v2) * (stateSeq a X (L + k + 1 + 1) - stateSeq a X (L + k + 1)) +
      (b.v0 + b.v1 + b.v2 + b.v3) * (stateSeq a X (L + k + 0 + 1) - stateSeq a X (L + k + 0)) := by
    rw [hdc]; simp only [add_zero, add_assoc, Nat.reduceAdd]; ring
  rw [e]
  have hb : ∀ q j, |q * (stateSeq a X (L + k + j + 1) - stateSeq a X (L + k + j))| ≤ |q| * (C * ρ ^ k) :=
    fun q j => by rw [abs_mul]; exact mul_le_mul_of_nonneg_left (hd j) (abs_nonneg _)
  rw [show ∀ p q s t : ℝ, (p + q + s + t) * C * ρ ^ k =
    p * (C * ρ ^ k) + q * (C * ρ ^ k) + s * (C * ρ ^ k) + t * (C * ρ ^ k) by intros; ring]
  refine (abs_add_le _ _).trans (add_le_add ?_ (hb _ 0))
  refine (abs_add_le _ _).trans (add_le_add ?_ (hb _ 1))
  exact (abs_add_le _ _).trans (add_le_add (hb _ 3) (hb _ 2))

/-! ## No cancellation -/

theorem gainH_one : 1 < gainH := by
  unfold gainH
  apply Real.one_lt_rpow <;> norm_num

theorem gainB_sq : gainB * gainB ≤ gainH := by
  have h0 : 0 < gainH := lt_trans one_pos gainH_one
  rw [gainB, ← Real.rpow_add h0]
  conv_rhs => rw [← Real.rpow_one gainH]
  apply Real.rpow_le_rpow_of_exponent_le gainH_one.le
  norm_num

/-- A root of a section, in the variable `s = (z - 1) / (z + 1)`, is not real. -/
theorem section_s {K Q : ℝ} (hQ : 1 / 2 < Q) (hK : K ≠ 0) {s : ℂ} (h : s ^ 2 + ((K / Q : ℝ) : ℂ) * s + ((K * K : ℝ) : ℂ) = 0) :
    s.im ≠ 0 := by
  intro hi
  obtain ⟨x, rfl⟩ : ∃ x : ℝ, s = x := ⟨s.re, Complex.ext rfl (by simpa using hi)⟩
  have h' : x ^ 2 + K / Q * x + K * K = 0 := by exact_mod_cast h
  have hq : (K / Q) ^ 2 < 4 * (K * K) := by
    rw [div_pow, div_lt_iff₀ (by nlinarith)]
    have h1 : 0 < K ^ 2 := by positivity
    have h2 : 0 < 4 * Q ^ 2 - 1 := by nlinarith
    nlinarith [mul_pos h1 h2]
  nlinarith [sq_nonneg (2 * x + K / Q)]

theorem section_z {K Q : ℝ} (hQ : 1 / 2 < Q) {z : ℂ} (hz : z + 1 ≠ 0)
    (h : z ^ 2 + (sec1 K Q : ℂ) * z + (sec2 K Q : ℂ) = 0) :
    ((z - 1) / (z + 1)) ^ 2 + ((K / Q : ℝ) : ℂ) * ((z - 1) / (z + 1)) + ((K * K : ℝ) : ℂ) = 0 := by
  have hd := den_pos (K := K) hQ
  have hd' : (den K Q : ℂ) ≠ 0 := by exact_mod_cast hd.ne'
  have e1 : (den K Q : ℂ) * (sec1 K Q : ℂ) = ((2 * (K * K - 1) : ℝ) : ℂ) := by
    rw [← Complex.ofReal_mul, sec1, mul_div_cancel₀ _ hd.ne']
  have e2 : (den K Q : ℂ) * (sec2 K Q : ℂ) = ((1 - K / Q + K * K : ℝ) : ℂ) := by
    rw [← Complex.ofReal_mul, sec2, mul_div_cancel₀ _ hd.ne']
  have e0 : (den K Q : ℂ) = 1 + ((K / Q : ℝ) : ℂ) + ((K * K : ℝ) : ℂ) := by unfold den; push_cast; ring
  generalize (K / Q : ℝ) = k at *
  have hh : (den K Q : ℂ) * z ^ 2 + (den K Q : ℂ) * (sec1 K Q : ℂ) * z + (den K Q : ℂ) * (sec2 K Q : ℂ) = 0 := by
    linear_combination (den K Q : ℂ) * h
  rw [e1, e2, e0] at hh
  push_cast at hh ⊢
  field_simp
  linear_combination hh

/-- Poles outside the unit circle are not cancelled by the numerator. -/
theorem no_cancel (bs : BSearch) (u : Nat) {rate : Nat} (hr : 0 < rate) {z : ℂ} (hz : 1 < ‖z‖)
    (h : quartic (filterCoefficients (exactEnv bs u) ((exactEnv bs u).f64.ofInt rate)).2 z = 0) :
    quartic (filterCoefficients (exactEnv bs u) ((exactEnv bs u).f64.ofInt rate)).1 z ≠ 0 := by
  have hz1 : z - 1 ≠ 0 := fun h => by rw [sub_eq_zero.1 h] at hz; simp at hz
  have hz2 : z + 1 ≠ 0 := fun h => by rw [eq_neg_of_add_eq_zero_left h] at hz; simp at hz
  have t1 : tan1 rate ≠ 0 := by
    by_cases g : Even (3363 / rate)
    · exact ((tan1_sign hr).1 g).ne'
    · exact ((tan1_sign hr).2 g).ne
  have t2 : tan2 rate ≠ 0 := by
    by_cases g : Even (76 / rate)
    · exact ((tan2_sign hr).1 g).ne'
    · exact ((tan2_sign hr).2 g).ne
  have hd := den_pos (K := tan1 rate) q1_half
  have hH := gainH_one
  intro hb
  have hq : (gainH : ℂ) * ((z - 1) / (z + 1)) ^ 2 + ((gainB * tan1 rate / q1 : ℝ) : ℂ) * ((z - 1) / (z + 1)) +
      ((tan1 rate * tan1 rate : ℝ) : ℂ) = 0 := by
    rw [coef_b] at hb
    have hb' : ((num0 (tan1 rate) : ℂ) * z ^ 2 + (num1 (tan1 rate) : ℂ) * z + (num2 (tan1 rate) : ℂ)) * (z - 1) ^ 2 = 0 := by
      rw [← hb]; simp only [quartic]; push_cast; ring
    have hb'' := (mul_eq_zero.1 hb').resolve_right (pow_ne_zero 2 hz1)
    have e0 : (den (tan1 rate) q1 : ℂ) * (num0 (tan1 rate) : ℂ) =
        ((gainH + gainB * tan1 rate / q1 + tan1 rate * tan1 rate : ℝ) : ℂ) := by
      rw [← Complex.ofReal_mul, num0, mul_div_cancel₀ _ hd.ne']
    have e1 : (den (tan1 rate) q1 : ℂ) * (num1 (tan1 rate) : ℂ) =
        ((2 * (tan1 rate * tan1 rate - gainH) : ℝ) : ℂ) := by
      rw [← Complex.ofReal_mul, num1, mul_div_cancel₀ _ hd.ne']
    have e2 : (den (tan1 rate) q1 : ℂ) * (num2 (tan1 rate) : ℂ) =
        ((gainH - gainB * tan1 rate / q1 + tan1 rate * tan1 rate : ℝ) : ℂ) := by
      rw [← Complex.ofReal_mul, num2, mul_div_cancel₀ _ hd.ne']
    generalize (gainB * tan1 rate / q1 : ℝ) = k at *
    have hh : (den (tan1 rate) q1 : ℂ) * (num0 (tan1 rate) : ℂ) * z ^ 2 +
        (den (tan1 rate) q1 : ℂ) * (num1 (tan1 rate) : ℂ) * z + (den (tan1 rate) q1 : ℂ) * (num2 (tan1 rate) : ℂ) = 0 := by
      linear_combination (den (tan1 rate) q1 : ℂ) * hb''
    rw [e0, e1, e2] at hh
    push_cast at hh ⊢
    field_simp
    linear_combination hh
  -- a common root makes the two polynomials proportional
  have key : ∀ K Q : ℝ, 1 / 2 < Q → K ≠ 0 → z ^ 2 + (sec1 K Q : ℂ) * z + (sec2 K Q : ℂ) = 0 →
      gainB * tan1 rate / q1 = gainH * (K / Q) ∧ tan1 rate * tan1 rate = gainH * (K * K) := by
    intro K Q hQ hK hs
    have g := section_z hQ hz2 hs
    have hi := section_s hQ hK g
    generalize (z - 1) / (z + 1) = s at *
    have hl : ((gainB * tan1 rate / q1 - gainH * (K / Q) : ℝ) : ℂ) * s +
        ((tan1 rate * tan1 rate - gainH * (K * K) : ℝ) : ℂ) = 0 := by
      generalize (gainB * tan1 rate / q1 : ℝ) = k at *
      generalize (K / Q : ℝ) = l at *
      push_cast at hq g ⊢
      linear_combination hq - (gainH : ℂ) * g
    have him := congrArg Complex.im hl
    rw [Complex.add_im, Complex.im_ofReal_mul, Complex.ofReal_im, add_zero, Complex.zero_im] at him
    have h1 := (mul_eq_zero.1 him).resolve_right hi
    rw [h1, Complex.ofReal_zero, zero_mul, zero_add, Complex.ofReal_eq_zero] at hl
    exact ⟨by linarith, by linarith⟩
  rw [quartic_a] at h
  rcases mul_eq_zero.1 h with h | h
  · have := (key _ _ q1_half t1 h).2
    have : 0 < tan1 rate * tan1 rate := mul_self_pos.2 t1
    nlinarith
  · obtain ⟨g1, g2⟩ := key _ _ q2_half t2 h
    have hq1 : q1 ≠ 0 := by linarith [q1_half]
    have hq2 : q2 ≠ 0 := by linarith [q2_half]
    have g3 : gainB * tan1 rate * q2 = gainH * tan2 rate * q1 := by
      rw [div_eq_iff hq1] at g1
      rw [g1]; field_simp
    have g4 : gainB * gainB * (tan1 rate * tan1 rate) * (q2 * q2) =
        gainH * gainH * (tan2 rate * tan2 rate) * (q1 * q1) := by
      linear_combination (gainB * tan1 rate * q2 + gainH * tan2 rate * q1) * g3
    rw [g2] at g4
    have hp : 0 < gainH * (tan2 rate * tan2 rate) := mul_pos (by linarith) (mul_self_pos.2 t2)
    have g5 : gainB * gainB * (q2 * q2) = gainH * (q1 * q1) := by
      apply mul_left_cancel₀ hp.ne'
      linear_combination g4
    have g6 : q2 * q2 < q1 * q1 := by unfold q1 q2; norm_num
    have g7 : gainB * gainB * (q2 * q2) ≤ gainH * (q2 * q2) :=
      mul_le_mul_of_nonneg_right gainB_sq (mul_self_nonneg q2)
    nlinarith

/-- **C47**, unbounded: at every other rate a single sample of value 1 followed by silence leaves the filter as an
unbounded signal. -/
theorem C47_unbounded (bs : BSearch) (u : Nat) {rate : Nat} (hr : 0 < rate)
    (h : ¬ (Even (3363 / rate) ∧ Even (76 / rate))) (B : ℝ) :
    ∃ n, B < |(kWeighted bs u rate (1 :: List.replicate n 0)).getD n 0| := by
  obtain ⟨z, hz, hz1⟩ := (C47_poles bs u hr).2 h
  have hc := no_cancel bs u hr hz1 hz
  have ha1 : (filterCoefficients (exactEnv bs u) ((exactEnv bs u).f64.ofInt rate)).2.v0 = 1 := by rw [coef_a]
  unfold kWeighted
  generalize (filterCoefficients (exactEnv bs u) ((exactEnv bs u).f64.ofInt rate)).2 = a at hz ha1
  generalize (filterCoefficients (exactEnv bs u) ((exactEnv bs u).f64.ofInt rate)).1 = b at hc
  by_contra hB
  push Not at hB
  let X : ℕ → ℝ := fun n => if n = 0 then 1 else 0
  have hX : ∀ n, (1 :: List.replicate n (0 : ℝ)).take (n + 1) = (List.range (n + 1)).map X := by
    intro n
    rw [List.take_of_length_le (by simp)]
    apply List.ext_getElem
    · simp
    · intro i g1 g2
      cases i <;> simp [X]
  let w := stateC a X
  let y : ℕ → ℂ := fun n => b.v0 * w (n + 4) + b.v1 * w (n + 3) + b.v2 * w (n + 2) + b.v3 * w (n + 1) + b.v4 * w n
  have hy : ∀ n, ‖y n‖ ≤ B := by
    intro n
    have := hB n
    rw [filtered_getD a b X (by simp) (hX n)] at this
    have e : y n = ((b.v0 * stateSeq a X (n + 4) + b.v1 * stateSeq a X (n + 3) + b.v2 * stateSeq a X (n + 2) +
      b.v3 * stateSeq a X (n + 1) + b.v4 * stateSeq a X n : ℝ) : ℂ) := by
      simp only [y, w, stateC]; push_cast; ring
    rw [e, Complex.norm_real]
    exact this
  let c1 : ℂ := a.v1 + z
  let c2 : ℂ := a.v2 + z * c1
  let c3 : ℂ := a.v3 + z * c2
  have hc4 : (a.v4 : ℂ) + z * c3 = 0 := by
    rw [← hz]; simp only [quartic, c1, c2, c3, ha1]; push_cast; ring
  let U : ℕ → ℂ := fun m => w (m + 3) + c1 * w (m + 2) + c2 * w (m + 1) + c3 * w m
  have hU : ∀ m, U (m + 1) = z * U m + X m := by
    intro m
    have := stateC_rec a X m
    simp only [U, w]
    rw [show m + 1 + 3 = m + 4 by ring, show m + 1 + 2 = m + 3 by ring, show m + 1 + 1 = m + 2 by ring, this]
    simp only [c3, c2, c1] at hc4 ⊢
    linear_combination (-stateC a X m) * hc4
  have hU0 : U 0 = 0 := by
    simp only [U, w]
    rw [stateC_zero a X (by omega), stateC_zero a X (by omega), stateC_zero a X (by omega), stateC_zero a X (by omega)]
    simp
  have hUn : ∀ m, U (m + 1) = z ^ m := by
    intro m
    induction m with
    | zero => rw [hU, hU0]; simp [X]
    | succ m ih => rw [hU, ih]; simp [X, pow_succ, mul_comm]
  have hV : ∀ n, y (n + 4) + c1 * y (n + 3) + c2 * y (n + 2) + c3 * y (n + 1) = z ^ n * quartic b z := by
    intro n
    have : y (n + 4) + c1 * y (n + 3) + c2 * y (n + 2) + c3 * y (n + 1) =
        b.v0 * U (n + 4 + 1) + b.v1 * U (n + 3 + 1) + b.v2 * U (n + 2 + 1) + b.v3 * U (n + 1 + 1) + b.v4 * U (n + 1) := by
      simp only [y, U, add_assoc, Nat.reduceAdd]
      ring
    rw [this, hUn, hUn, hUn, hUn, hUn, quartic]
    ring
  have hbound : ∀ n, ‖z‖ ^ n * ‖quartic b z‖ ≤ (1 + ‖c1‖ + ‖c2‖ + ‖c3‖) * B := by
    intro n
    rw [← norm_pow, ← norm_mul, ← hV]
    have m : ∀ c k, ‖c * y k‖ ≤ ‖c‖ * B := fun c k => by
      rw [norm_mul]; exact mul_le_mul_of_nonneg_left (hy k) (norm_nonneg _)
    rw [show (1 + ‖c1‖ + ‖c2‖ + ‖c3‖) * B = B + ‖c1‖ * B + ‖c2‖ * B + ‖c3‖ * B by ring]
    refine (norm_add_le _ _).trans (add_le_add ?_ (m _ _))
    refine (norm_add_le _ _).trans (add_le_add ?_ (m _ _))
    exact (norm_add_le _ _).trans (add_le_add (hy _) (m _ _))
  have hq : 0 < ‖quartic b z‖ := norm_pos_iff.2 hc
  obtain ⟨n, hn⟩ := pow_unbounded_of_one_lt ((1 + ‖c1‖ + ‖c2‖ + ‖c3‖) * B / ‖quartic b z‖) hz1
  rw [div_lt_iff₀ hq] at hn
  exact absurd (hbound n) (not_le.2 hn)

/-- **C47** for the analyzer: at every stable rate the K-weighted signal that is measured is bounded, by one
constant times the largest sample, whatever the calls. -/
theorem C47_signal (bs : BSearch) (u : Nat) {rate : Nat} (hr : 0 < rate) (h1 : Even (3363 / rate))
    (h2 : Even (76 / rate)) :
    ∃ B : ℝ, ∀ (M : ℝ) (channels : Nat) (ops : List (Op ℝ ℝ)) (c : Nat),
      (∀ x ∈ chan 0 c (heard (exactEnv bs u) channels ops), |x| ≤ M) →
      ∀ y ∈ signal (exactEnv bs u) rate channels ops c, |y| ≤ B * M := by
  obtain ⟨B, hB⟩ := C47_bounded bs u hr h1 h2
  refine ⟨B, fun M channels ops c hx y hy => hB M _ hx y ?_⟩
  simp only [signal, outs, List.mem_filterMap] at hy
  obtain ⟨p, hp, he⟩ := hy
  split at he
  · cases he
    exact (List.of_mem_zip hp).1
  · cases he

/-! Concrete rates. -/

example (bs : BSearch) (u : Nat) :
    Stable (filterCoefficients (exactEnv bs u) ((exactEnv bs u).f64.ofInt (48000 : Nat))).2 :=
  C47_stable bs u (by norm_num)

example (bs : BSearch) (u : Nat) :
    Stable (filterCoefficients (exactEnv bs u) ((exactEnv bs u).f64.ofInt (30 : Nat))).2 :=
  (C47_poles bs u (by norm_num)).1 (by decide)

example (bs : BSearch) (u : Nat) : ∃ n, 1000000 < |(kWeighted bs u 2000 (1 :: List.replicate n 0)).getD n 0| :=
  C47_unbounded bs u (by norm_num) (by decide) _

-- the second section alone
example (bs : BSearch) (u : Nat) : ∃ n, 1000000 < |(kWeighted bs u 20 (1 :: List.replicate n 0)).getD n 0| :=
  C47_unbounded bs u (by norm_num) (by decide) _

-- the filter is not the zero filter
example (bs : BSearch) (u : Nat) {rate : Nat} (hr : 3364 ≤ rate) :
    0 < (filterCoefficients (exactEnv bs u) ((exactEnv bs u).f64.ofInt rate)).1.v0 := by
  rw [coef_b]
  have hK : 0 < tan1 rate := (tan1_sign (by omega)).1 (by rw [Nat.div_eq_of_lt (by omega)]; exact Even.zero)
  have hB : 0 < gainB := Real.rpow_pos_of_pos (lt_trans one_pos gainH_one) _
  have hq : 0 < q1 := by linarith [q1_half]
  have := gainH_one
  show 0 < num0 (tan1 rate)
  exact div_pos (by positivity) (den_pos q1_half)

end Verif
