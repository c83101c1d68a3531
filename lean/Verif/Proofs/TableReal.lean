import Verif.Proofs.Hist
import Mathlib.Analysis.SpecialFunctions.Pow.Real
/-! # The histogram tables against the exact boundaries and centres -/

namespace Verif

/-- Entry `i` of `l` is `10^(i/100)` times the first entry up to one part in `10^14`. -/
def geometric (n0 : Nat) : List Nat → Nat → Bool
  | [], _ => true
  | n :: l, i =>
    Nat.ble ((n * (10 ^ 14 - 1)) ^ 100) (10 ^ i * n0 ^ 100 * (10 ^ 14) ^ 100) &&
      Nat.ble (10 ^ i * n0 ^ 100 * (10 ^ 14) ^ 100) ((n * (10 ^ 14 + 1)) ^ 100) && geometric n0 l (i + 1)

theorem geometric_boundaries : geometric 117246530458229809506033624374 boundariesN 0 = true := by decide +kernel
theorem geometric_energies : geometric 118604181294802408330460116465 energiesN 0 = true := by decide +kernel

theorem geometric_get {n0 : Nat} {l : List Nat} {i : Nat} (h : geometric n0 l i = true) (j : Nat) (hj : j < l.length) :
    (l.getD j 0 * (10 ^ 14 - 1)) ^ 100 ≤ 10 ^ (i + j) * n0 ^ 100 * (10 ^ 14) ^ 100 ∧
      10 ^ (i + j) * n0 ^ 100 * (10 ^ 14) ^ 100 ≤ (l.getD j 0 * (10 ^ 14 + 1)) ^ 100 := by
  induction l generalizing i j with
  | nil => simp at hj
  | cons n l ih =>
    simp only [geometric, Bool.and_eq_true, Nat.ble_eq] at h
    cases j with
    | zero => exact h.1
    | succ j =>
      have := ih h.2 j (by simpa using hj)
      rw [show i + (j + 1) = i + 1 + j by omega]
      exact this

theorem first_boundary :
    (117246530458229809506033624374 * (10 ^ 14 - 1)) ^ 10000 ≤ 10 ^ 290691 * (10 ^ 14) ^ 10000 ∧
      10 ^ 290691 * (10 ^ 14) ^ 10000 ≤ (117246530458229809506033624374 * (10 ^ 14 + 1)) ^ 10000 := by
  decide +kernel

theorem first_energy :
    (118604181294802408330460116465 * (10 ^ 14 - 1)) ^ 10000 ≤ 10 ^ 290741 * (10 ^ 14) ^ 10000 ∧
      10 ^ 290741 * (10 ^ 14) ^ 10000 ≤ (118604181294802408330460116465 * (10 ^ 14 + 1)) ^ 10000 := by
  decide +kernel

theorem root_bounds {e k : Nat} (hk : k ≠ 0) {n a b d m : Nat} (h1 : (n * a) ^ k ≤ 10 ^ e * m ^ k * d ^ k)
    (h2 : 10 ^ e * m ^ k * d ^ k ≤ (n * b) ^ k) :
    (n : ℝ) * a ≤ (10 : ℝ) ^ ((e : ℝ) / k) * m * d ∧ (10 : ℝ) ^ ((e : ℝ) / k) * m * d ≤ n * b := by
  have hk0 : (k : ℝ) ≠ 0 := Nat.cast_ne_zero.2 hk
  have hp : ((10 : ℝ) ^ ((e : ℝ) / k)) ^ k = 10 ^ e := by
    rw [← Real.rpow_natCast, ← Real.rpow_mul (by norm_num), div_mul_cancel₀ _ hk0, Real.rpow_natCast]
  have hpos : 0 ≤ (10 : ℝ) ^ ((e : ℝ) / k) := Real.rpow_nonneg (by norm_num) _
  constructor
  · refine (pow_le_pow_iff_left₀ (by positivity) (by positivity) hk).1 ?_
    rw [mul_pow ((10 : ℝ) ^ ((e : ℝ) / k) * m), mul_pow ((10 : ℝ) ^ ((e : ℝ) / k)), hp]
    exact_mod_cast h1
  · refine (pow_le_pow_iff_left₀ (by positivity) (by positivity) hk).1 ?_
    rw [mul_pow ((10 : ℝ) ^ ((e : ℝ) / k) * m), mul_pow ((10 : ℝ) ^ ((e : ℝ) / k)), hp]
    exact_mod_cast h2

theorem root_entry {n n0 i e0 : Nat} {ex : ℝ}
    (h1 : (n * (10 ^ 14 - 1)) ^ 100 ≤ 10 ^ i * n0 ^ 100 * (10 ^ 14) ^ 100)
    (h2 : 10 ^ i * n0 ^ 100 * (10 ^ 14) ^ 100 ≤ (n * (10 ^ 14 + 1)) ^ 100)
    (h3 : (n0 * (10 ^ 14 - 1)) ^ 10000 ≤ 10 ^ e0 * (10 ^ 14) ^ 10000)
    (h4 : 10 ^ e0 * (10 ^ 14) ^ 10000 ≤ (n0 * (10 ^ 14 + 1)) ^ 10000)
    (hex : ex + 36 = (i : ℝ) / 100 + (e0 : ℝ) / 10000) :
    |(n : ℝ) / 10 ^ 36 - 10 ^ ex| ≤ 3 / 10 ^ 14 * 10 ^ ex := by
  obtain ⟨k1, k2⟩ := root_bounds (by norm_num) h1 h2
  obtain ⟨k3, k4⟩ := root_bounds (e := e0) (k := 10000) (n := n0) (a := 10 ^ 14 - 1) (b := 10 ^ 14 + 1)
    (d := 10 ^ 14) (m := 1) (Nat.succ_ne_zero _) (by rw [Nat.one_pow, Nat.mul_one]; exact h3)
    (by rw [Nat.one_pow, Nat.mul_one]; exact h4)
  clear h1 h2 h3 h4
  have hx : (10 : ℝ) ^ ex * 10 ^ 36 = (10 : ℝ) ^ ((i : ℝ) / 100) * (10 : ℝ) ^ ((e0 : ℝ) / 10000) := by
    rw [← Real.rpow_add (by norm_num), ← hex, Real.rpow_add (by norm_num)]
    norm_num
  norm_num at k1 k2 k3 k4
  have p0 : (0 : ℝ) < 10 ^ ex := Real.rpow_pos_of_pos (by norm_num) _
  have p1 : (0 : ℝ) < (10 : ℝ) ^ ((i : ℝ) / 100) := Real.rpow_pos_of_pos (by norm_num) _
  have p2 : (0 : ℝ) < (10 : ℝ) ^ ((e0 : ℝ) / 10000) := Real.rpow_pos_of_pos (by norm_num) _
  generalize (10 : ℝ) ^ ((i : ℝ) / 100) = x at *
  generalize (10 : ℝ) ^ ((e0 : ℝ) / 10000) = y at *
  generalize (10 : ℝ) ^ ex = z at *
  have q1 : x * n0 * 99999999999999 ≤ x * y * 100000000000000 := by nlinarith
  have q2 : x * y * 100000000000000 ≤ x * n0 * 100000000000001 := by nlinarith
  rw [← hx] at q1 q2
  rw [abs_le]
  constructor
  · rw [div_sub' (by norm_num), le_div_iff₀ (by norm_num)]
    nlinarith
  · rw [div_sub' (by norm_num), div_le_iff₀ (by norm_num)]
    nlinarith

/-- `HISTOGRAM_BOUNDARIES[i]` is the energy of `-70 + i/10` LUFS. -/
theorem boundary_exact {i : Nat} (hi : i ≤ 1000) :
    |(boundariesN.getD i 0 : ℝ) / 10 ^ 36 - 10 ^ ((-70 + (i : ℝ) / 10 + 691 / 1000) / 10)| ≤
      3 / 10 ^ 14 * 10 ^ ((-70 + (i : ℝ) / 10 + 691 / 1000) / 10) := by
  obtain ⟨h1, h2⟩ := geometric_get geometric_boundaries i (by rw [boundariesN_length]; omega)
  rw [Nat.zero_add] at h1 h2
  exact root_entry h1 h2 first_boundary.1 first_boundary.2 (by push_cast; ring)

/-- `HISTOGRAM_ENERGIES[i]` is the energy of `-70 + i/10 + 1/20` LUFS. -/
theorem centre_exact {i : Nat} (hi : i < 1000) :
    |(energiesN.getD i 0 : ℝ) / 10 ^ 36 - 10 ^ ((-70 + (i : ℝ) / 10 + 1 / 20 + 691 / 1000) / 10)| ≤
      3 / 10 ^ 14 * 10 ^ ((-70 + (i : ℝ) / 10 + 1 / 20 + 691 / 1000) / 10) := by
  obtain ⟨h1, h2⟩ := geometric_get geometric_energies i (by rw [energiesN_length]; omega)
  rw [Nat.zero_add] at h1 h2
  exact root_entry h1 h2 first_energy.1 first_energy.2 (by push_cast; ring)

end Verif
