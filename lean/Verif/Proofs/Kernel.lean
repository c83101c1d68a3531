import Verif.Spec.Sinc
import Verif.Proofs.Numeric
import Mathlib.Analysis.Real.Pi.Bounds
import Mathlib.Tactic.IntervalCases
import Mathlib.Algebra.BigOperators.Field
/-!
# The windowed sinc: numerical values, and its response to a sinusoid
-/

namespace Verif
open Spec

/-! ## Cosines of multiples of `π / 24` -/

/-- `10^12 cos (i π / 24)` for `i ≤ 12`. -/
def cosBase : List ℤ := [1000000000000, 991444861374, 965925826289, 923879532511, 866025403784, 793353340291,
  707106781187, 608761429009, 500000000000, 382683432365, 258819045103, 130526192220, 0]

/-- `10^12 cos (i π / 24)` for `i < 48`. -/
def cosTab (i : Nat) : ℤ :=
  if i ≤ 12 then cosBase.getD i 0 else if i ≤ 24 then -cosBase.getD (24 - i) 0
  else if i ≤ 36 then -cosBase.getD (i - 24) 0 else cosBase.getD (48 - i) 0

theorem cos_num {x q C : ℝ} (hx : |x - q| ≤ 1 / 10 ^ 13) (hq : |q| ≤ 4 / 5)
    (h : |cosT q - C| ≤ 6 / 10 ^ 13) : |Real.cos x - C| ≤ 2 / 10 ^ 12 := by
  have h1 : |Real.cos x - Real.cos q| ≤ |x - q| := Real.abs_cos_sub_cos_le x q
  have h2 := (sin_cos_taylor (x := q) (by linarith)).2
  have h3 : |q| ^ 14 / 80000000000 ≤ 7 / 10 ^ 13 := by
    have : |q| ^ 14 ≤ (4 / 5) ^ 14 := pow_le_pow_left₀ (abs_nonneg _) hq _
    refine (div_le_div_of_nonneg_right this (by norm_num)).trans (by norm_num)
  have h4 := abs_add_le (Real.cos x - Real.cos q) (Real.cos q - cosT q)
  have h5 := abs_add_le (Real.cos x - Real.cos q + (Real.cos q - cosT q)) (cosT q - C)
  rw [show Real.cos x - Real.cos q + (Real.cos q - cosT q) + (cosT q - C) = Real.cos x - C by ring] at h5
  linarith

theorem sin_num {x q C : ℝ} (hx : |x - q| ≤ 1 / 10 ^ 13) (hq : |q| ≤ 4 / 5)
    (h : |sinT q - C| ≤ 6 / 10 ^ 13) : |Real.sin x - C| ≤ 2 / 10 ^ 12 := by
  have h1 : |Real.sin x - Real.sin q| ≤ |x - q| := Real.abs_sin_sub_sin_le x q
  have h2 := (sin_cos_taylor (x := q) (by linarith)).1
  have h3 : |q| ^ 14 / 80000000000 ≤ 7 / 10 ^ 13 := by
    have : |q| ^ 14 ≤ (4 / 5) ^ 14 := pow_le_pow_left₀ (abs_nonneg _) hq _
    refine (div_le_div_of_nonneg_right this (by norm_num)).trans (by norm_num)
  have h4 := abs_add_le (Real.sin x - Real.sin q) (Real.sin q - sinT q)
  have h5 := abs_add_le (Real.sin x - Real.sin q + (Real.sin q - sinT q)) (sinT q - C)
  rw [show Real.sin x - Real.sin q + (Real.sin q - sinT q) + (sinT q - C) = Real.sin x - C by ring] at h5
  linarith

theorem cos_base (i : Nat) (hi : i ≤ 12) : |Real.cos (Real.pi * i / 24) - cosBase.getD i 0 / 10 ^ 12| ≤ 2 / 10 ^ 12 := by
  have p1 := Real.pi_gt_d20
  have p2 := Real.pi_lt_d20
  have low : ∀ i : Nat, i ≤ 6 → |cosT (314159265358979 / 10 ^ 14 * i / 24) - cosBase.getD i 0 / 10 ^ 12| ≤ 6 / 10 ^ 13 →
      |Real.cos (Real.pi * i / 24) - cosBase.getD i 0 / 10 ^ 12| ≤ 2 / 10 ^ 12 := by
    intro i hi h
    have hi' : (i : ℝ) ≤ 6 := by exact_mod_cast hi
    have hi0 : (0 : ℝ) ≤ i := Nat.cast_nonneg i
    refine cos_num (q := 314159265358979 / 10 ^ 14 * i / 24) ?_ ?_ h
    · rw [← sub_div, ← sub_mul, abs_le]
      constructor
      · have : 0 ≤ (Real.pi - 314159265358979 / 10 ^ 14) * i := mul_nonneg (by norm_num at p1 ⊢; linarith) hi0
        linarith
      · have : (Real.pi - 314159265358979 / 10 ^ 14) * i ≤ 1 / 10 ^ 13 * 6 :=
          mul_le_mul (by norm_num at p2 ⊢; linarith) hi' hi0 (by norm_num)
        linarith
    · rw [abs_of_nonneg (by positivity)]
      linarith
  have high : ∀ i : Nat, i ≤ 6 → |sinT (314159265358979 / 10 ^ 14 * i / 24) - cosBase.getD (12 - i) 0 / 10 ^ 12| ≤ 6 / 10 ^ 13 →
      |Real.cos (Real.pi * ((12 - i : Nat) : ℝ) / 24) - cosBase.getD (12 - i) 0 / 10 ^ 12| ≤ 2 / 10 ^ 12 := by
    intro i hi h
    have hi' : (i : ℝ) ≤ 6 := by exact_mod_cast hi
    have hi0 : (0 : ℝ) ≤ i := Nat.cast_nonneg i
    have e : Real.pi * ((12 - i : Nat) : ℝ) / 24 = Real.pi / 2 - Real.pi * i / 24 := by
      rw [Nat.cast_sub (by omega)]; push_cast; ring
    rw [e, Real.cos_pi_div_two_sub]
    refine sin_num (q := 314159265358979 / 10 ^ 14 * i / 24) ?_ ?_ h
    · rw [← sub_div, ← sub_mul, abs_le]
      constructor
      · have : 0 ≤ (Real.pi - 314159265358979 / 10 ^ 14) * i := mul_nonneg (by norm_num at p1 ⊢; linarith) hi0
        linarith
      · have : (Real.pi - 314159265358979 / 10 ^ 14) * i ≤ 1 / 10 ^ 13 * 6 :=
          mul_le_mul (by norm_num at p2 ⊢; linarith) hi' hi0 (by norm_num)
        linarith
    · rw [abs_of_nonneg (by positivity)]
      linarith
  have low' : ∀ i : Nat, i ≤ 6 → |cosT (314159265358979 / 10 ^ 14 * i / 24) - cosBase.getD i 0 / 10 ^ 12| ≤ 6 / 10 ^ 13 := by
    intro i hi
    interval_cases i <;> norm_num [cosT, cosBase, abs_le]
  have high' : ∀ i : Nat, i ≤ 6 → |sinT (314159265358979 / 10 ^ 14 * i / 24) - cosBase.getD (12 - i) 0 / 10 ^ 12| ≤ 6 / 10 ^ 13 := by
    intro i hi
    interval_cases i <;> norm_num [sinT, cosBase, abs_le]
  by_cases h6 : i ≤ 6
  · exact low i h6 (low' i h6)
  · have := high (12 - i) (by omega) (high' (12 - i) (by omega))
    rwa [show 12 - (12 - i) = i by omega] at this

theorem cos_tab (i : Nat) (hi : i < 48) : |Real.cos (Real.pi * i / 24) - cosTab i / 10 ^ 12| ≤ 2 / 10 ^ 12 := by
  unfold cosTab
  split_ifs with h1 h2 h3
  · exact cos_base i h1
  · have := cos_base (24 - i) (by omega)
    have e : Real.pi * ((24 - i : Nat) : ℝ) / 24 = Real.pi - Real.pi * i / 24 := by
      rw [Nat.cast_sub (by omega)]; push_cast; ring
    rw [e, Real.cos_pi_sub] at this
    rw [abs_sub_comm] at this
    refine le_trans (le_of_eq ?_) this
    push_cast
    congr 1
    ring
  · have := cos_base (i - 24) (by omega)
    have e : Real.pi * ((i - 24 : Nat) : ℝ) / 24 = Real.pi * i / 24 - Real.pi := by
      rw [Nat.cast_sub (by omega)]; push_cast; ring
    rw [e, Real.cos_sub_pi] at this
    rw [abs_sub_comm] at this
    refine le_trans (le_of_eq ?_) this
    rw [Int.cast_neg]
    congr 1
    ring
  · have := cos_base (48 - i) (by omega)
    have e : Real.pi * ((48 - i : Nat) : ℝ) / 24 = 2 * Real.pi - Real.pi * i / 24 := by
      rw [Nat.cast_sub (by omega)]; push_cast; ring
    rwa [e, Real.cos_two_pi_sub] at this

/-- Any multiple of `π / 24`. -/
theorem cos_int (i : ℤ) : |Real.cos (Real.pi * i / 24) - cosTab (i % 48).toNat / 10 ^ 12| ≤ 2 / 10 ^ 12 := by
  have h0 : 0 ≤ i % 48 := Int.emod_nonneg i (by norm_num)
  have h1 : i % 48 < 48 := Int.emod_lt_of_pos i (by norm_num)
  have := cos_tab (i % 48).toNat (by omega)
  have hc : (((i % 48).toNat : Nat) : ℝ) = ((i % 48 : ℤ) : ℝ) := by
    have : (((i % 48).toNat : Nat) : ℤ) = i % 48 := Int.toNat_of_nonneg h0
    exact_mod_cast this
  have e : Real.pi * i / 24 = Real.pi * (i % 48).toNat / 24 + ((i / 48 : ℤ) : ℝ) * (2 * Real.pi) := by
    rw [hc]
    have : (i : ℝ) = ((i % 48 : ℤ) : ℝ) + 48 * ((i / 48 : ℤ) : ℝ) := by
      have := Int.emod_add_mul_ediv i 48
      exact_mod_cast this.symm
    rw [this]
    ring
  rw [e, Real.cos_add_int_mul_two_pi]
  exact this

/-! ## The coefficients -/

/-- `10^9` times the windowed sinc, for the factors 2 and 4. -/
def kernelZ (factor j : Nat) : ℤ :=
  if j = 24 then 10 ^ 9 else
    let m : ℤ := (j : ℤ) - 24
    (10 ^ 12 - cosTab (j % 48)) * cosTab (((24 / factor : Nat) * m - 12) % 48).toNat * 318309886184 * factor / (2 * m * 10 ^ 27)


theorem ediv_near (a b : ℤ) (hb : b ≠ 0) : |((a / b : ℤ) : ℝ) - (a : ℝ) / b| ≤ 1 := by
  have h1 := Int.emod_add_mul_ediv a b
  have h2 := Int.emod_nonneg a hb
  have h3 := Int.emod_lt_abs a hb
  have hb' : (b : ℝ) ≠ 0 := by exact_mod_cast hb
  have e : ((a / b : ℤ) : ℝ) - (a : ℝ) / b = -((a % b : ℤ) : ℝ) / b := by
    have h1' : (a : ℝ) = ((a % b : ℤ) : ℝ) + b * ((a / b : ℤ) : ℝ) := by exact_mod_cast h1.symm
    field_simp
    linarith
  have h2' : (0 : ℝ) ≤ ((a % b : ℤ) : ℝ) := by exact_mod_cast h2
  have h3' : ((a % b : ℤ) : ℝ) ≤ |(b : ℝ)| := by exact_mod_cast h3.le
  rw [e, abs_div, abs_neg, abs_of_nonneg h2', div_le_one (abs_pos.2 hb')]
  exact h3'

theorem three_near {a A b B c C e d f : ℝ} (ha : |a - A| ≤ e) (hb : |b - B| ≤ d) (hc : |c - C| ≤ f)
    (b1 : |b| ≤ 1) (A1 : |A| ≤ 1) (c1 : |c| ≤ 1) (B2 : |B| ≤ 2) :
    |a * b * c - A * B * C| ≤ e + d + 2 * f := by
  have e0 : a * b * c - A * B * C = (a - A) * (b * c) + (b - B) * (A * c) + (c - C) * (A * B) := by ring
  have h0 := abs_nonneg (a - A)
  have h1 := abs_nonneg (b - B)
  have h2 := abs_nonneg (c - C)
  rw [e0]
  refine (abs_add_le _ _).trans (add_le_add ((abs_add_le _ _).trans (add_le_add ?_ ?_)) ?_)
  · rw [abs_mul, abs_mul]
    calc _ ≤ e * (1 * 1) := mul_le_mul ha (mul_le_mul b1 c1 (abs_nonneg _) (by norm_num)) (by positivity) (by linarith)
      _ = e := by ring
  · rw [abs_mul, abs_mul]
    calc _ ≤ d * (1 * 1) := mul_le_mul hb (mul_le_mul A1 c1 (abs_nonneg _) (by norm_num)) (by positivity) (by linarith)
      _ = d := by ring
  · rw [abs_mul, abs_mul]
    calc _ ≤ f * (1 * 2) := mul_le_mul hc (mul_le_mul A1 B2 (abs_nonneg _) (by norm_num)) (by positivity) (by linarith)
      _ = 2 * f := by ring

theorem inv_pi : |1 / Real.pi - 318309886184 / 10 ^ 12| ≤ 1 / 10 ^ 12 := by
  have p1 := Real.pi_gt_d20
  have p2 := Real.pi_lt_d20
  have p0 := Real.pi_pos
  rw [abs_le]
  constructor
  · have : (318309886183 / 10 ^ 12 : ℝ) ≤ 1 / Real.pi := by
      rw [le_div_iff₀ p0]
      norm_num at p2 ⊢
      linarith
    linarith
  · have : 1 / Real.pi ≤ (318309886185 / 10 ^ 12 : ℝ) := by
      rw [div_le_iff₀ p0]
      norm_num at p1 ⊢
      linarith
    linarith

theorem cosTab_abs (i : Nat) (hi : i < 48) : |(cosTab i : ℝ)| ≤ 10 ^ 12 := by
  have : ∀ i < 48, |cosTab i| ≤ 10 ^ 12 := by decide
  exact_mod_cast this i hi

theorem kernel_near {factor j : Nat} (hf : factor = 2 ∨ factor = 4) (hj : j < 48) :
    |kernel factor j - kernelZ factor j / 10 ^ 9| ≤ 2 / 10 ^ 9 := by
  have p0 := Real.pi_pos
  have hF : (0 : ℝ) < factor := by rcases hf with rfl | rfl <;> norm_num
  unfold kernel kernelZ
  by_cases h24 : j = 24
  · subst h24
    have e : 2 * Real.pi * ((24 : Nat) : ℝ) / 48 = Real.pi := by push_cast; ring
    rw [e]
    norm_num
  · rw [if_neg h24]
    have hm : (j : ℤ) - 24 ≠ 0 := by omega
    have hmR : ((j : ℝ) - 24) ≠ 0 := by
      have : (((j : ℤ) - 24 : ℤ) : ℝ) ≠ 0 := by exact_mod_cast hm
      simpa using this
    have hm1 : 1 ≤ |(j : ℝ) - 24| := by
      have : 1 ≤ |(j : ℤ) - 24| := Int.one_le_abs hm
      exact_mod_cast this
    have hx : Real.pi * ((j : ℝ) - 24) / factor ≠ 0 := by positivity
    rw [Real.sinc_of_ne_zero hx]
    simp only [Nat.mod_eq_of_lt hj]
    generalize hi : ((24 / factor : Nat) * ((j : ℤ) - 24) - 12) = i
    have hs : Real.sin (Real.pi * ((j : ℝ) - 24) / factor) = Real.cos (Real.pi * i / 24) := by
      rw [← Real.cos_sub_pi_div_two, ← hi]
      congr 1
      rcases hf with rfl | rfl
      · push_cast; ring
      · push_cast; ring
    rw [hs]
    have hS := cos_int i
    have hW := cos_tab j hj
    rw [show Real.pi * (j : ℝ) / 24 = 2 * Real.pi * j / 48 by ring] at hW
    have hCS := cosTab_abs (i % 48).toNat (by omega)
    have hCW := cosTab_abs j hj
    generalize cosTab (i % 48).toNat = cs at *
    generalize cosTab j = cw at *
    have hW' : |(1 - Real.cos (2 * Real.pi * j / 48)) / 2 - (10 ^ 12 - (cw : ℝ)) / (2 * 10 ^ 12)| ≤ 1 / 10 ^ 12 := by
      rw [show (1 - Real.cos (2 * Real.pi * j / 48)) / 2 - (10 ^ 12 - (cw : ℝ)) / (2 * 10 ^ 12) =
        -(Real.cos (2 * Real.pi * j / 48) - cw / 10 ^ 12) / 2 by ring, abs_div, abs_neg]
      rw [abs_of_pos (by norm_num : (0 : ℝ) < 2)]
      linarith
    have h3 := three_near hW' hS inv_pi (Real.abs_cos_le_one _)
      (by rw [abs_div, abs_of_pos (by norm_num : (0 : ℝ) < 2 * 10 ^ 12), div_le_one (by norm_num)]
          refine (abs_sub _ _).trans ?_
          rw [abs_of_pos (by norm_num : (0 : ℝ) < 10 ^ 12)]
          linarith)
      (by rw [abs_of_pos (by positivity), div_le_one p0]; linarith [Real.pi_gt_three])
      (by rw [abs_div, abs_of_pos (by norm_num : (0 : ℝ) < 10 ^ 12), div_le_iff₀ (by norm_num)]; linarith)
    have hd := ediv_near ((10 ^ 12 - cw) * cs * 318309886184 * (factor : ℤ)) (2 * ((j : ℤ) - 24) * 10 ^ 27)
      (by positivity)
    have e1 : (1 - Real.cos (2 * Real.pi * j / 48)) / 2 * (Real.cos (Real.pi * i / 24) / (Real.pi * ((j : ℝ) - 24) / factor)) =
        (1 - Real.cos (2 * Real.pi * j / 48)) / 2 * Real.cos (Real.pi * i / 24) * (1 / Real.pi) * (factor / ((j : ℝ) - 24)) := by
      field_simp
    have e2 : (((10 ^ 12 - cw) * cs * 318309886184 * (factor : ℤ) : ℤ) : ℝ) / ((2 * ((j : ℤ) - 24) * 10 ^ 27 : ℤ) : ℝ) =
        10 ^ 9 * ((10 ^ 12 - (cw : ℝ)) / (2 * 10 ^ 12) * (cs / 10 ^ 12) * (318309886184 / 10 ^ 12) * (factor / ((j : ℝ) - 24))) := by
      push_cast
      field_simp
      ring
    rw [e2] at hd
    rw [e1]
    generalize (1 - Real.cos (2 * Real.pi * j / 48)) / 2 * Real.cos (Real.pi * i / 24) * (1 / Real.pi) = X at *
    generalize (10 ^ 12 - (cw : ℝ)) / (2 * 10 ^ 12) * (cs / 10 ^ 12) * (318309886184 / 10 ^ 12) = Y at *
    have hq : |(factor : ℝ) / ((j : ℝ) - 24)| ≤ 4 := by
      rw [abs_div, div_le_iff₀ (by linarith), abs_of_pos hF]
      have : (factor : ℝ) ≤ 4 := by rcases hf with rfl | rfl <;> norm_num
      linarith
    generalize (factor : ℝ) / ((j : ℝ) - 24) = r at *
    generalize (10 ^ 12 - cw) * cs * 318309886184 * (factor : ℤ) / (2 * ((j : ℤ) - 24) * 10 ^ 27) = z at *
    have h4 : |X * r - Y * r| ≤ 2 / 10 ^ 11 := by
      rw [← sub_mul, abs_mul]
      calc _ ≤ (1 / 10 ^ 12 + 2 / 10 ^ 12 + 2 * (1 / 10 ^ 12)) * 4 :=
            mul_le_mul h3 hq (abs_nonneg _) (by norm_num)
        _ = _ := by norm_num
    have h5 := abs_sub_le (X * r) (Y * r) ((z : ℝ) / 10 ^ 9)
    have h6 : |Y * r - (z : ℝ) / 10 ^ 9| ≤ 1 / 10 ^ 9 := by
      rw [abs_sub_comm, show (z : ℝ) / 10 ^ 9 - Y * r = (z - 10 ^ 9 * (Y * r)) / 10 ^ 9 by field_simp, abs_div,
        abs_of_pos (by norm_num : (0 : ℝ) < 10 ^ 9)]
      exact div_le_div_of_nonneg_right hd (by norm_num)
    refine h5.trans ?_
    norm_num at h4 h6 ⊢
    linarith

/-! ## Integer polynomials -/

/-- Value of a polynomial, constant term first. -/
noncomputable def peval : List ℤ → ℝ → ℝ
  | [], _ => 0
  | a :: p, x => a + x * peval p x

def padd : List ℤ → List ℤ → List ℤ
  | [], q => q
  | p, [] => p
  | a :: p, b :: q => (a + b) :: padd p q

theorem peval_padd (p q : List ℤ) (x : ℝ) : peval (padd p q) x = peval p x + peval q x := by
  induction p generalizing q with
  | nil => simp [padd, peval]
  | cons a p ih =>
    cases q with
    | nil => simp [padd, peval]
    | cons b q => simp only [padd, peval, ih]; push_cast; ring

def pscale (c : ℤ) (p : List ℤ) : List ℤ := p.map (c * ·)

theorem peval_pscale (c : ℤ) (p : List ℤ) (x : ℝ) : peval (pscale c p) x = c * peval p x := by
  induction p with
  | nil => simp [pscale, peval]
  | cons a p ih =>
    simp only [pscale, List.map_cons, peval] at ih ⊢
    rw [ih]; push_cast; ring

/-- The recurrence of the Chebyshev polynomials. -/
def cheb (a b : List ℤ) : Nat → List ℤ × List ℤ
  | 0 => (a, b)
  | n + 1 => let p := cheb a b n; (p.2, padd (0 :: pscale 2 p.2) (pscale (-1) p.1))

theorem cheb_cos (θ : ℝ) (n : Nat) : peval (cheb [1] [0, 1] n).1 (Real.cos θ) = Real.cos (n * θ) ∧
    peval (cheb [1] [0, 1] n).2 (Real.cos θ) = Real.cos ((n + 1) * θ) := by
  induction n with
  | zero => simp [cheb, peval]
  | succ n ih =>
    simp only [cheb]
    refine ⟨by rw [ih.2]; push_cast; rfl, ?_⟩
    rw [peval_padd, peval_pscale, ih.1, peval, peval_pscale, ih.2]
    push_cast
    have h := Real.cos_add_cos (((n : ℝ) + 1 + 1) * θ) (n * θ)
    rw [show (((n : ℝ) + 1 + 1) * θ + n * θ) / 2 = (n + 1) * θ by ring,
      show (((n : ℝ) + 1 + 1) * θ - n * θ) / 2 = θ by ring] at h
    linarith

theorem cheb_sin (θ : ℝ) (n : Nat) : peval (cheb [] [1] n).1 (Real.cos θ) * Real.sin θ = Real.sin (n * θ) ∧
    peval (cheb [] [1] n).2 (Real.cos θ) * Real.sin θ = Real.sin ((n + 1) * θ) := by
  induction n with
  | zero => simp [cheb, peval]
  | succ n ih =>
    simp only [cheb]
    refine ⟨by rw [ih.2]; push_cast; rfl, ?_⟩
    rw [peval_padd, peval_pscale, peval, peval_pscale]
    push_cast
    have h : Real.sin (((n : ℝ) + 1 + 1) * θ) + Real.sin (n * θ) = 2 * Real.sin ((n + 1) * θ) * Real.cos θ := by
      rw [show ((n : ℝ) + 1 + 1) * θ = (n + 1) * θ + θ by ring, show (n : ℝ) * θ = (n + 1) * θ - θ by ring,
        Real.sin_add, Real.sin_sub]
      ring
    have : (0 + Real.cos θ * (2 * peval (cheb [] [1] n).2 (Real.cos θ)) + -1 * peval (cheb [] [1] n).1 (Real.cos θ)) *
        Real.sin θ = 2 * (peval (cheb [] [1] n).2 (Real.cos θ) * Real.sin θ) * Real.cos θ -
          peval (cheb [] [1] n).1 (Real.cos θ) * Real.sin θ := by ring
    rw [this, ih.1, ih.2]
    linarith

/-- `b ^ length * p ((a + u) / b)` as a polynomial in `u`. -/
def pshift (a b : ℤ) : List ℤ → List ℤ
  | [] => []
  | c :: p =>
    let q := pshift a b p
    padd [c * b ^ (p.length + 1)] (padd (pscale a q) (0 :: q))

theorem peval_pshift (a b : ℤ) (p : List ℤ) {x u : ℝ} (h : (b : ℝ) * x = a + u) :
    peval (pshift a b p) u = (b : ℝ) ^ p.length * peval p x := by
  induction p with
  | nil => simp [pshift, peval]
  | cons c p ih =>
    simp only [pshift, peval_padd, peval_pscale, peval, ih, List.length_cons]
    push_cast
    have : (b : ℝ) ^ (p.length + 1) * (x * peval p x) = (b * x) * ((b : ℝ) ^ p.length * peval p x) := by ring
    rw [mul_add, this, h]
    ring

/-- Sum of the magnitudes of the coefficients. -/
def pnorm (p : List ℤ) : ℤ := p.foldr (fun a s => |a| + s) 0

theorem peval_pnorm (p : List ℤ) {u : ℝ} (hu : |u| ≤ 1) : |peval p u| ≤ pnorm p := by
  induction p with
  | nil => simp [peval, pnorm]
  | cons a p ih =>
    simp only [peval, pnorm, List.foldr_cons] at ih ⊢
    push_cast
    refine (abs_add_le _ _).trans (add_le_add le_rfl ?_)
    rw [abs_mul]
    calc _ ≤ 1 * |peval p u| := mul_le_mul_of_nonneg_right hu (abs_nonneg _)
      _ ≤ _ := by rw [one_mul]; exact ih

/-- Bound of a polynomial on `[1 - 2 n / b, 1]`, cell by cell. -/
def pcheck (p : List ℤ) (b : ℤ) (n : Nat) (bound : ℤ) : Bool :=
  (List.range n).all fun i => decide (pnorm (pshift (b - 1 - 2 * i) b p) ≤ bound * b ^ p.length)

theorem pcheck_bound {p : List ℤ} {b : ℤ} {n : Nat} {bound : ℤ} (hb : 0 < b) (h : pcheck p b n bound = true) {x : ℝ}
    (h1 : x ≤ 1) (h2 : (b : ℝ) - 2 * n < b * x) : |peval p x| ≤ bound := by
  have hbR : (0 : ℝ) < b := by exact_mod_cast hb
  have hy : 0 ≤ (b - b * x) / 2 := by
    have : b * x ≤ b * 1 := mul_le_mul_of_nonneg_left h1 hbR.le
    linarith
  set i := ⌊((b : ℝ) - b * x) / 2⌋₊ with hi
  have l1 : (i : ℝ) ≤ (b - b * x) / 2 := Nat.floor_le hy
  have l2 : ((b : ℝ) - b * x) / 2 < i + 1 := Nat.lt_floor_add_one _
  have hin : i < n := by
    rw [hi, Nat.floor_lt hy]
    linarith
  simp only [pcheck, List.all_eq_true, List.mem_range, decide_eq_true_eq] at h
  have hc := h i hin
  have hs := peval_pshift (b - 1 - 2 * i) b p (x := x) (u := b * x - (b - 1 - 2 * i)) (by push_cast; ring)
  have hn := peval_pnorm (pshift (b - 1 - 2 * i) b p) (u := b * x - (b - 1 - 2 * i)) (by
    rw [abs_le]; constructor <;> linarith)
  rw [hs, abs_mul, abs_of_pos (pow_pos hbR _)] at hn
  have hcR : ((pnorm (pshift (b - 1 - 2 * i) b p) : ℤ) : ℝ) ≤ bound * (b : ℝ) ^ p.length := by exact_mod_cast hc
  have := hn.trans hcR
  rw [mul_comm] at this
  exact le_of_mul_le_mul_right this (pow_pos hbR _)

/-! ## Response to a sinusoid -/

def psum (f : Nat → List ℤ) (p : List ℤ) : Nat → List ℤ
  | 0 => p
  | n + 1 => padd (psum f p n) (f n)

theorem peval_psum (f : Nat → List ℤ) (p : List ℤ) (n : Nat) (x : ℝ) :
    peval (psum f p n) x = peval p x + ∑ i ∈ Finset.range n, peval (f i) x := by
  induction n with
  | zero => simp [psum]
  | succ n ih => rw [psum, peval_padd, ih, Finset.sum_range_succ, add_assoc]

/-- `∑ h_j cos ((j - 24) θ) - 1` over the taps of phase `k`, as a polynomial in `cos θ`. -/
def respCos (factor k : Nat) : List ℤ :=
  psum (fun t => pscale (kernelZ factor (t * factor + k)) (cheb [1] [0, 1] (((t * factor + k : Nat) : ℤ) - 24).natAbs).1)
    [-10 ^ 9] (48 / factor)

/-- `∑ h_j sin ((j - 24) θ)`, divided by `sin θ`. -/
def respSin (factor k : Nat) : List ℤ :=
  psum (fun t => pscale ((((t * factor + k : Nat) : ℤ) - 24).sign * kernelZ factor (t * factor + k))
    (cheb [] [1] (((t * factor + k : Nat) : ℤ) - 24).natAbs).1) [] (48 / factor)

/-- Bounds of the two parts, times `10^9`. -/
def boundCos (factor k : Nat) : ℤ := if factor = 2 then 490000 else if k % 2 = 1 then 1970000 else 3860000
def boundSin (factor k : Nat) : ℤ := if factor = 2 then 1000 else if k % 2 = 1 then 4800000 else 1000

theorem check4 : ∀ k < 4, pcheck (respCos 4 k) 512 20 (boundCos 4 k) = true ∧
    pcheck (respSin 4 k) 512 20 (boundSin 4 k) = true := by
  decide +kernel

theorem check2 : ∀ k < 2, pcheck (respCos 2 k) 256 38 (boundCos 2 k) = true ∧
    pcheck (respSin 2 k) 256 38 (boundSin 2 k) = true := by
  decide +kernel

theorem respCos_eval (factor k : Nat) (θ : ℝ) : peval (respCos factor k) (Real.cos θ) =
    ∑ t ∈ Finset.range (48 / factor), kernelZ factor (t * factor + k) *
      Real.cos ((((t * factor + k : Nat) : ℝ) - 24) * θ) - 10 ^ 9 := by
  rw [respCos, peval_psum, add_comm, sub_eq_add_neg]
  congr 1
  · refine Finset.sum_congr rfl fun t _ => ?_
    rw [peval_pscale, (cheb_cos θ _).1]
    congr 1
    generalize t * factor + k = j
    rw [Nat.cast_natAbs, Int.cast_abs]
    push_cast
    rcases abs_choice ((j : ℝ) - 24) with h | h <;> rw [h]
    rw [neg_mul, Real.cos_neg]
  · norm_num [peval]

theorem respSin_eval (factor k : Nat) (θ : ℝ) : peval (respSin factor k) (Real.cos θ) * Real.sin θ =
    ∑ t ∈ Finset.range (48 / factor), kernelZ factor (t * factor + k) *
      Real.sin ((((t * factor + k : Nat) : ℝ) - 24) * θ) := by
  rw [respSin, peval_psum, show peval [] (Real.cos θ) = 0 from rfl, zero_add, Finset.sum_mul]
  refine Finset.sum_congr rfl fun t _ => ?_
  rw [peval_pscale, mul_assoc, (cheb_sin θ _).1]
  generalize t * factor + k = j
  generalize kernelZ factor j = z
  rcases lt_trichotomy ((j : ℤ) - 24) 0 with h | h | h
  · rw [Int.sign_eq_neg_one_of_neg h, Nat.cast_natAbs, abs_of_neg h]
    push_cast
    rw [show -((j : ℝ) - 24) * θ = -(((j : ℝ) - 24) * θ) by ring, Real.sin_neg]
    ring
  · have : (j : ℝ) - 24 = 0 := by
      have : (((j : ℤ) - 24 : ℤ) : ℝ) = 0 := by rw [h]; norm_num
      simpa using this
    rw [h, this]
    simp
  · rw [Int.sign_eq_one_of_pos h, Nat.cast_natAbs, abs_of_pos h]
    push_cast
    ring

/-- Replacing the rational coefficients by the true ones. -/
theorem kernel_sum {factor : Nat} (hf : factor = 2 ∨ factor = 4) {k : Nat} (hk : k < factor) (f : Nat → ℝ)
    (h1 : ∀ t, |f t| ≤ 1) :
    |∑ t ∈ Finset.range (48 / factor), kernel factor (t * factor + k) * f t -
      (∑ t ∈ Finset.range (48 / factor), kernelZ factor (t * factor + k) * f t) / 10 ^ 9| ≤ 5 / 10 ^ 8 := by
  rw [Finset.sum_div, ← Finset.sum_sub_distrib]
  refine (Finset.abs_sum_le_sum_abs _ _).trans ?_
  have hn : 48 / factor ≤ 24 := by rcases hf with rfl | rfl <;> norm_num
  have hnR : (((48 / factor : Nat)) : ℝ) ≤ 24 := by exact_mod_cast hn
  calc _ ≤ ∑ t ∈ Finset.range (48 / factor), (2 / 10 ^ 9 : ℝ) := Finset.sum_le_sum fun t ht => by
        have ht := Finset.mem_range.1 ht
        have hj : t * factor + k < 48 := by
          rcases hf with rfl | rfl <;> omega
        rw [mul_div_right_comm, ← sub_mul, abs_mul]
        calc _ ≤ 2 / 10 ^ 9 * 1 := mul_le_mul (kernel_near hf hj) (h1 t) (abs_nonneg _) (by norm_num)
          _ = _ := mul_one _
    _ = (48 / factor : Nat) * (2 / 10 ^ 9) := by simp
    _ ≤ 24 * (2 / 10 ^ 9) := mul_le_mul_of_nonneg_right hnR (by norm_num)
    _ ≤ _ := by norm_num

/-- Error of the interpolation filter for sinusoids of up to a quarter of the sample rate. -/
noncomputable def Spec.ripple (factor : Nat) : ℝ := if factor = 2 then 1 / 2000 else 1 / 250

theorem response_combine {factor : Nat} (hf : factor = 2 ∨ factor = 4) {k : Nat} (hk : k < factor) {θ : ℝ}
    (hs0 : 0 ≤ Real.sin θ) {B C s : ℝ} (hB : |peval (respCos factor k) (Real.cos θ)| ≤ B)
    (hC : |peval (respSin factor k) (Real.cos θ)| ≤ C) (hs : Real.sin θ ≤ s)
    (h : (B + C * s) / 10 ^ 9 + 1 / 10 ^ 7 ≤ ripple factor) :
    |∑ t ∈ Finset.range (48 / factor), kernel factor (t * factor + k) * Real.cos ((((t * factor + k : Nat) : ℝ) - 24) * θ) - 1| +
    |∑ t ∈ Finset.range (48 / factor), kernel factor (t * factor + k) * Real.sin ((((t * factor + k : Nat) : ℝ) - 24) * θ)| ≤
      ripple factor := by
  have c1 := kernel_sum hf hk (fun t => Real.cos ((((t * factor + k : Nat) : ℝ) - 24) * θ)) fun t => Real.abs_cos_le_one _
  have c2 := kernel_sum hf hk (fun t => Real.sin ((((t * factor + k : Nat) : ℝ) - 24) * θ)) fun t => Real.abs_sin_le_one _
  have hS : |peval (respSin factor k) (Real.cos θ) * Real.sin θ| ≤ C * s := by
    rw [abs_mul, abs_of_nonneg hs0]
    exact mul_le_mul hC hs hs0 ((abs_nonneg _).trans hC)
  rw [respCos_eval factor k θ] at hB
  rw [respSin_eval factor k θ] at hS
  generalize ∑ t ∈ Finset.range (48 / factor), kernel factor (t * factor + k) * Real.cos ((((t * factor + k : Nat) : ℝ) - 24) * θ) = X at *
  generalize ∑ t ∈ Finset.range (48 / factor), kernel factor (t * factor + k) * Real.sin ((((t * factor + k : Nat) : ℝ) - 24) * θ) = Y at *
  generalize ∑ t ∈ Finset.range (48 / factor), (kernelZ factor (t * factor + k) : ℝ) * Real.cos ((((t * factor + k : Nat) : ℝ) - 24) * θ) = X' at *
  generalize ∑ t ∈ Finset.range (48 / factor), (kernelZ factor (t * factor + k) : ℝ) * Real.sin ((((t * factor + k : Nat) : ℝ) - 24) * θ) = Y' at *
  have g1 : |X - 1| ≤ B / 10 ^ 9 + 5 / 10 ^ 8 := by
    have := abs_add_le (X - X' / 10 ^ 9) ((X' - 10 ^ 9) / 10 ^ 9)
    rw [show X - X' / 10 ^ 9 + (X' - 10 ^ 9) / 10 ^ 9 = X - 1 by ring, abs_div, abs_of_pos (by norm_num : (0 : ℝ) < 10 ^ 9)] at this
    have := div_le_div_of_nonneg_right hB (by norm_num : (0 : ℝ) ≤ 10 ^ 9)
    linarith
  have g2 : |Y| ≤ C * s / 10 ^ 9 + 5 / 10 ^ 8 := by
    have := abs_add_le (Y - Y' / 10 ^ 9) (Y' / 10 ^ 9)
    rw [sub_add_cancel, abs_div, abs_of_pos (by norm_num : (0 : ℝ) < 10 ^ 9)] at this
    have := div_le_div_of_nonneg_right hS (by norm_num : (0 : ℝ) ≤ 10 ^ 9)
    linarith
  have : (B + C * s) / 10 ^ 9 = B / 10 ^ 9 + C * s / 10 ^ 9 := add_div ..
  norm_num at g1 g2 h ⊢
  linarith

theorem response_parts {factor : Nat} (hf : factor = 2 ∨ factor = 4) {k : Nat} (hk : k < factor) {θ : ℝ} (h0 : 0 ≤ θ)
    (h1 : θ ≤ Real.pi / (2 * factor)) :
    |∑ t ∈ Finset.range (48 / factor), kernel factor (t * factor + k) * Real.cos ((((t * factor + k : Nat) : ℝ) - 24) * θ) - 1| +
    |∑ t ∈ Finset.range (48 / factor), kernel factor (t * factor + k) * Real.sin ((((t * factor + k : Nat) : ℝ) - 24) * θ)| ≤
      ripple factor := by
  have p0 := Real.pi_pos
  have hs0 : 0 ≤ Real.sin θ := Real.sin_nonneg_of_nonneg_of_le_pi h0 (h1.trans (div_le_self p0.le (by
    rcases hf with rfl | rfl <;> norm_num)))
  have hle : ∀ q : ℝ, q ≤ Real.pi / 2 → θ ≤ q → Real.cos q ≤ Real.cos θ ∧ Real.sin θ ≤ Real.sin q := fun q hq hθ =>
    ⟨Real.cos_le_cos_of_nonneg_of_le_pi h0 (by linarith) hθ,
      Real.sin_le_sin_of_le_of_le_pi_div_two (by linarith) hq hθ⟩
  have hx1 := Real.cos_le_one θ
  rcases hf with rfl | rfl
  · obtain ⟨l1, l2⟩ := hle (Real.pi * (6 : Nat) / 24) (by push_cast; linarith) (h1.trans (by push_cast; linarith))
    have n1 := abs_le.1 (cos_tab 6 (by norm_num))
    rw [show cosTab 6 = 707106781187 by decide] at n1
    refine response_combine (.inl rfl) hk hs0 (s := 1) (pcheck_bound (by norm_num) (check2 k hk).1 hx1 ?_)
      (pcheck_bound (by norm_num) (check2 k hk).2 hx1 ?_) (Real.sin_le_one θ) ?_
    · norm_num at n1 ⊢; linarith [n1.1]
    · norm_num at n1 ⊢; linarith [n1.1]
    · norm_num [boundCos, boundSin, ripple]
  · obtain ⟨l1, l2⟩ := hle (Real.pi * (3 : Nat) / 24) (by push_cast; linarith) (h1.trans (by push_cast; linarith))
    have n1 := abs_le.1 (cos_tab 3 (by norm_num))
    have n2 := abs_le.1 (cos_tab 9 (by norm_num))
    rw [show cosTab 3 = 923879532511 by decide] at n1
    rw [show cosTab 9 = 382683432365 by decide] at n2
    have e : Real.sin (Real.pi * (3 : Nat) / 24) = Real.cos (Real.pi * (9 : Nat) / 24) := by
      rw [← Real.cos_pi_div_two_sub]; congr 1; push_cast; ring
    rw [e] at l2
    have hk2 : k % 2 = 1 ∨ k % 2 = 0 := by omega
    refine response_combine (.inr rfl) hk hs0 (s := 3827 / 10000) (pcheck_bound (by norm_num) (check4 k hk).1 hx1 ?_)
      (pcheck_bound (by norm_num) (check4 k hk).2 hx1 ?_) ?_ ?_
    · norm_num at n1 l1 ⊢; linarith [n1.1]
    · norm_num at n1 l1 ⊢; linarith [n1.1]
    · norm_num at n2 l2 ⊢; linarith [n2.2]
    · rcases hk2 with h | h <;> norm_num [boundCos, boundSin, ripple, h]

/-- The interpolation filter reproduces a sinusoid of up to a quarter of the sample rate between the samples: phase `k`
after sample `n` is its value at time `n - 24 / factor + k / factor`. -/
theorem response {factor : Nat} (hf : factor = 2 ∨ factor = 4) {k : Nat} (hk : k < factor) {a ω : ℝ} (h0 : 0 ≤ ω)
    (h1 : ω ≤ Real.pi / 2) (φ s : ℝ) :
    |∑ t ∈ Finset.range (48 / factor), kernel factor (t * factor + k) * sinusoid a ω φ (s - t) -
      sinusoid a ω φ (s - (24 - k) / factor)| ≤ ripple factor * |a| := by
  have hF : (0 : ℝ) < factor := by rcases hf with rfl | rfl <;> norm_num
  have h := response_parts hf hk (θ := ω / factor) (by positivity) (by
    rw [← div_div]; exact div_le_div_of_nonneg_right h1 hF.le)
  have e : ∀ t : ℕ, sinusoid a ω φ (s - t) =
      a * Real.cos (ω * (s - (24 - k) / factor) + φ) * Real.cos ((((t * factor + k : Nat) : ℝ) - 24) * (ω / factor)) +
      a * Real.sin (ω * (s - (24 - k) / factor) + φ) * Real.sin ((((t * factor + k : Nat) : ℝ) - 24) * (ω / factor)) := by
    intro t
    unfold sinusoid
    rw [mul_assoc, mul_assoc, ← mul_add, ← Real.cos_sub]
    congr 2
    push_cast
    field_simp
    ring
  simp only [e, mul_add, Finset.sum_add_distrib]
  have e1 : ∀ (C : ℝ) (f : Nat → ℝ), ∑ t ∈ Finset.range (48 / factor), kernel factor (t * factor + k) * (C * f t) =
      C * ∑ t ∈ Finset.range (48 / factor), kernel factor (t * factor + k) * f t := by
    intro C f
    rw [Finset.mul_sum]
    exact Finset.sum_congr rfl fun t _ => by ring
  rw [e1, e1]
  unfold sinusoid
  generalize ∑ t ∈ Finset.range (48 / factor), kernel factor (t * factor + k) * Real.cos ((((t * factor + k : Nat) : ℝ) - 24) * (ω / factor)) = X at *
  generalize ∑ t ∈ Finset.range (48 / factor), kernel factor (t * factor + k) * Real.sin ((((t * factor + k : Nat) : ℝ) - 24) * (ω / factor)) = Y at *
  have hc := Real.abs_cos_le_one (ω * (s - (24 - k) / factor) + φ)
  have hs := Real.abs_sin_le_one (ω * (s - (24 - k) / factor) + φ)
  generalize Real.cos (ω * (s - (24 - k) / factor) + φ) = c at *
  generalize Real.sin (ω * (s - (24 - k) / factor) + φ) = d at *
  rw [show a * c * X + a * d * Y - a * c = a * (c * (X - 1) + d * Y) by ring, abs_mul, mul_comm]
  refine mul_le_mul_of_nonneg_right (le_trans ?_ h) (abs_nonneg a)
  refine (abs_add_le _ _).trans (add_le_add ?_ ?_)
  · rw [abs_mul]
    calc _ ≤ 1 * |X - 1| := mul_le_mul_of_nonneg_right hc (abs_nonneg _)
      _ = _ := one_mul _
  · rw [abs_mul]
    calc _ ≤ 1 * |Y| := mul_le_mul_of_nonneg_right hs (abs_nonneg _)
      _ = _ := one_mul _

end Verif
