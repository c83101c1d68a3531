import Mathlib.Analysis.Complex.Trigonometric
import Mathlib.Analysis.Complex.Exponential
import Mathlib.Analysis.SpecialFunctions.Pow.Real
import Mathlib.Analysis.SpecialFunctions.Trigonometric.Bounds
/-!
# Numerical values of sine, cosine, exponential and powers
-/

namespace Verif

/-- Taylor polynomials of degree 13 and 12. -/
noncomputable def sinT (x : ℝ) : ℝ := x - x ^ 3 / 6 + x ^ 5 / 120 - x ^ 7 / 5040 + x ^ 9 / 362880 - x ^ 11 / 39916800 + x ^ 13 / 6227020800
noncomputable def cosT (x : ℝ) : ℝ := 1 - x ^ 2 / 2 + x ^ 4 / 24 - x ^ 6 / 720 + x ^ 8 / 40320 - x ^ 10 / 3628800 + x ^ 12 / 479001600

theorem taylor_exp (x : ℝ) : ∑ m ∈ Finset.range 14, ((x : ℂ) * Complex.I) ^ m / (m.factorial : ℂ) = cosT x + sinT x * Complex.I := by
  have i2 : Complex.I ^ 2 = -1 := Complex.I_sq
  have i3 : Complex.I ^ 3 = -Complex.I := by rw [pow_succ, i2]; ring
  have i4 : Complex.I ^ 4 = 1 := by rw [pow_succ, i3]; ring_nf; rw [i2]; ring
  have i5 : Complex.I ^ 5 = Complex.I := by rw [pow_succ, i4]; ring
  have i6 : Complex.I ^ 6 = -1 := by rw [pow_succ, i5, ← pow_two, i2]
  have i7 : Complex.I ^ 7 = -Complex.I := by rw [pow_succ, i6]; ring
  have i8 : Complex.I ^ 8 = 1 := by rw [pow_succ, i7]; ring_nf; rw [i2]; ring
  have i9 : Complex.I ^ 9 = Complex.I := by rw [pow_succ, i8]; ring
  have i10 : Complex.I ^ 10 = -1 := by rw [pow_succ, i9, ← pow_two, i2]
  have i11 : Complex.I ^ 11 = -Complex.I := by rw [pow_succ, i10]; ring
  have i12 : Complex.I ^ 12 = 1 := by rw [pow_succ, i11]; ring_nf; rw [i2]; ring
  have i13 : Complex.I ^ 13 = Complex.I := by rw [pow_succ, i12]; ring
  unfold cosT sinT
  simp only [Finset.sum_range_succ, Finset.sum_range_zero, mul_pow, i2, i3, i4, i5, i6, i7, i8, i9, i10, i11, i12, i13,
    Nat.factorial]
  push_cast
  ring

theorem sin_cos_taylor {x : ℝ} (hx : |x| ≤ 1) :
    |Real.sin x - sinT x| ≤ |x| ^ 14 / 80000000000 ∧ |Real.cos x - cosT x| ≤ |x| ^ 14 / 80000000000 := by
  have hn : ‖(x : ℂ) * Complex.I‖ = |x| := by simp
  have h := Complex.exp_bound (x := (x : ℂ) * Complex.I) (by rw [hn]; exact hx) (n := 14) (by norm_num)
  rw [taylor_exp, hn] at h
  have hb : |x| ^ 14 * (((14 : ℕ).succ : ℝ) * (((14 : ℕ).factorial : ℝ) * (14 : ℕ))⁻¹) ≤ |x| ^ 14 / 80000000000 := by
    rw [div_eq_mul_inv]
    refine mul_le_mul_of_nonneg_left ?_ (by positivity)
    norm_num [Nat.factorial]
  have h := h.trans hb
  rw [Complex.exp_mul_I, ← Complex.ofReal_cos, ← Complex.ofReal_sin] at h
  generalize Real.sin x = sx at *
  generalize Real.cos x = cx at *
  constructor
  · refine le_trans ?_ h
    refine le_trans (le_of_eq ?_) (Complex.abs_im_le_norm _)
    simp
  · refine le_trans ?_ h
    refine le_trans (le_of_eq ?_) (Complex.abs_re_le_norm _)
    simp

/-- Bounds of a tangent from rational bounds. -/
theorem tan_near {x T e : ℝ} (h0 : 0 ≤ x) (hx : x ≤ 1 / 2) (he : 0 ≤ e) (hT : |T| ≤ 1)
    (h : |sinT x - T * cosT x| + 2 * (x ^ 14 / 80000000000) ≤ e * (3 / 4)) : |Real.tan x - T| ≤ e := by
  have hax : |x| = x := abs_of_nonneg h0
  obtain ⟨h1, h2⟩ := sin_cos_taylor (x := x) (by rw [hax]; linarith)
  rw [hax] at h1 h2
  have hc : 3 / 4 ≤ Real.cos x := by
    have := Real.one_sub_sq_div_two_le_cos (x := x)
    nlinarith
  rw [Real.tan_eq_sin_div_cos]
  have : Real.sin x / Real.cos x - T = (Real.sin x - T * Real.cos x) / Real.cos x := by
    field_simp
  rw [this, abs_div, abs_of_nonneg (by linarith : 0 ≤ Real.cos x), div_le_iff₀ (by linarith)]
  have h3 : Real.sin x - T * Real.cos x = (Real.sin x - sinT x) - T * (Real.cos x - cosT x) + (sinT x - T * cosT x) := by ring
  rw [h3]
  have h4 : |T * (Real.cos x - cosT x)| ≤ x ^ 14 / 80000000000 := by
    rw [abs_mul]
    calc _ ≤ 1 * (x ^ 14 / 80000000000) := mul_le_mul hT h2 (abs_nonneg _) (by norm_num)
      _ = _ := by ring
  have h5 := abs_add_le ((Real.sin x - sinT x) - T * (Real.cos x - cosT x)) (sinT x - T * cosT x)
  have h6 := abs_sub (Real.sin x - sinT x) (T * (Real.cos x - cosT x))
  have h7 : e * (3 / 4) ≤ e * Real.cos x := mul_le_mul_of_nonneg_left hc he
  linarith

/-- Taylor polynomial of the exponential, degree 17. -/
noncomputable def expT (x : ℝ) : ℝ := ∑ m ∈ Finset.range 18, x ^ m / m.factorial

theorem exp_taylor {x : ℝ} (hx : |x| ≤ 3 / 5) : |Real.exp x - expT x| ≤ 2 / 10 ^ 20 := by
  refine (Real.exp_bound (by linarith) (n := 18) (by norm_num)).trans ?_
  have : |x| ^ 18 ≤ (3 / 5) ^ 18 := pow_le_pow_left₀ (abs_nonneg _) hx 18
  calc _ ≤ (3 / 5 : ℝ) ^ 18 * (((18 : ℕ).succ : ℝ) / ((18 : ℕ).factorial * (18 : ℕ))) :=
        mul_le_mul_of_nonneg_right this (by positivity)
    _ ≤ _ := by norm_num [Nat.factorial]

end Verif
