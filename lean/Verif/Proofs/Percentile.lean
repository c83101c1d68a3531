import Verif.Proofs.Float
import Verif.Proofs.Query
/-!
# The percentile index never exceeds the last index
-/

namespace Verif

theorem Fmt.b64_mb : 1 ≤ Fmt.b64.mb := by decide
theorem Fmt.b32_mb : 1 ≤ Fmt.b32.mb := by decide

/-- `2^1074`, kept folded. -/
def U64 : Nat := 2 ^ Fmt.b64.u

theorem U64_eq : 2 ^ Fmt.b64.u = U64 := rfl
theorem U64_pos : 0 < U64 := Nat.two_pow_pos _
theorem U64_big : 1000 ≤ U64 :=
  Nat.le_trans (by decide : 1000 ≤ 2 ^ 10) (Nat.pow_le_pow_right (by omega) (by decide))

theorem Fl.toUint_le {φ : Fmt} (max : Nat) (x : Fl φ) : Fl.toUint max x ≤ max := by
  cases x with
  | nan => exact Nat.zero_le _
  | num s k h =>
    unfold Fl.toUint
    simp only
    split
    · exact Nat.zero_le _
    · split
      · exact Nat.le_refl _
      · exact Nat.min_le_left _ _

/-- The two percentile literals, as magnitudes. -/
theorem lit_95 : ∃ k h, Fl.lit Fmt.b64 95 100 = .num false k h ∧ k ≠ Fmt.b64.infK ∧
    1000 * Fmt.b64.mag k ≤ 951 * U64 :=
  ⟨4606732058837280358, by decide +kernel, by decide +kernel, by decide +kernel, by decide +kernel⟩

theorem lit_10 : ∃ k h, Fl.lit Fmt.b64 1 10 = .num false k h ∧ k ≠ Fmt.b64.infK ∧
    1000 * Fmt.b64.mag k ≤ 951 * U64 :=
  ⟨4591870180066957722, by decide +kernel, by decide +kernel, by decide +kernel, by decide +kernel⟩

theorem lit_half : ∃ k h, Fl.lit Fmt.b64 5 10 = .num false k h ∧ k ≠ Fmt.b64.infK ∧
    2 * Fmt.b64.mag k = U64 :=
  ⟨4602678819172646912, by decide +kernel, by decide +kernel, by decide +kernel, by decide +kernel⟩

theorem mag_inf_b64 : U64 * 2 ^ 100 < Fmt.b64.mag Fmt.b64.infK := by decide +kernel

attribute [irreducible] U64

theorem rnd_b64_bound {a b : Nat} (hb : 0 < b) :
    Fmt.b64.mag (Fmt.b64.rnd a b) * (2 * 2 ^ 52 - 1) * b ≤ (2 * a + b) * 2 ^ 52 :=
  Fmt.b64.rnd_abs_upper Fmt.b64_mb hb (a := a)

/-- Conversion of a non-negative integer. -/
theorem ofInt_nat (n : Nat) : ∃ k h, Fl.ofInt Fmt.b64 (n : Int) = .num false k h ∧
    Fmt.b64.mag k * (2 * 2 ^ 52 - 1) ≤ (2 * (n * U64) + 1) * 2 ^ 52 := by
  have b1 := rnd_b64_bound (a := n * U64) (b := 1) Nat.one_pos
  rw [Nat.mul_one] at b1
  refine ⟨Fmt.b64.rnd (n * U64) 1, Nat.min_le_left _ _, ?_, b1⟩
  unfold Fl.ofInt Fl.ofMag
  have : decide ((n : Int) < 0) = false := by simp
  simp only [this, Int.natAbs_natCast, U64_eq]

/-- Product of finite non-negative numbers. -/
theorem mul_nonneg_bound {k l : Nat} {hk : k ≤ Fmt.b64.infK} {hl : l ≤ Fmt.b64.infK}
    (fk : k ≠ Fmt.b64.infK) (fl : l ≠ Fmt.b64.infK) :
    ∃ m h, Fl.mul (.num false k hk : F64) (.num false l hl) = .num false m h ∧
      Fmt.b64.mag m * (2 * 2 ^ 52 - 1) * U64 ≤ (2 * (Fmt.b64.mag k * Fmt.b64.mag l) + U64) * 2 ^ 52 := by
  refine ⟨Fmt.b64.rnd (Fmt.b64.mag k * Fmt.b64.mag l) U64, Nat.min_le_left _ _, ?_, rnd_b64_bound U64_pos⟩
  simp only [Fl.mul, if_neg fk, if_neg fl, Fl.ofMag, Bool.xor_self, U64_eq]

/-- Sum of finite non-negative numbers. -/
theorem add_nonneg_bound {k l : Nat} {hk : k ≤ Fmt.b64.infK} {hl : l ≤ Fmt.b64.infK}
    (fk : k ≠ Fmt.b64.infK) (fl : l ≠ Fmt.b64.infK) :
    ∃ m h, Fl.add (.num false k hk : F64) (.num false l hl) = .num false m h ∧
      Fmt.b64.mag m * (2 * 2 ^ 52 - 1) ≤ (2 * (Fmt.b64.mag k + Fmt.b64.mag l) + 1) * 2 ^ 52 := by
  have h0 : ((Fmt.b64.mag k : Int) + (Fmt.b64.mag l : Int)) = ((Fmt.b64.mag k + Fmt.b64.mag l : Nat) : Int) := by simp
  simp only [Fl.add, if_neg fk, if_neg fl, Fl.smag, Bool.false_eq_true, if_false, h0, Fl.ofSMag, Fl.ofMag]
  by_cases hs : Fmt.b64.mag k + Fmt.b64.mag l = 0
  · refine ⟨0, Nat.zero_le _, ?_, ?_⟩
    · rw [if_pos (by omega)]; rfl
    · rw [Fmt.mag_zero, Nat.zero_mul]; exact Nat.zero_le _
  · have b := rnd_b64_bound (a := Fmt.b64.mag k + Fmt.b64.mag l) (b := 1) Nat.one_pos
    rw [Nat.mul_one] at b
    refine ⟨Fmt.b64.rnd (Fmt.b64.mag k + Fmt.b64.mag l) 1, Nat.min_le_left _ _, ?_, b⟩
    rw [if_neg (by omega)]
    have : decide (((Fmt.b64.mag k + Fmt.b64.mag l : Nat) : Int) < 0) = false := by
      rw [decide_eq_false_iff_not]; omega
    simp only [this, Int.natAbs_natCast]

theorem fin_of_mag_lt {k : Nat} (h : Fmt.b64.mag k < Fmt.b64.mag Fmt.b64.infK) : k ≠ Fmt.b64.infK := by
  rintro rfl; exact Nat.lt_irrefl _ h

/-- The arithmetic of the percentile bound: three roundings. -/
theorem percentile_arith {n U x1 x y c half z : Nat} (hU : 1000 ≤ U)
    (b1 : x1 * (2 * 2 ^ 52 - 1) ≤ (2 * (n * U) + 1) * 2 ^ 52) (hx : 1000 * c ≤ 951 * U)
    (b2 : x * (2 * 2 ^ 52 - 1) * U ≤ (2 * (x1 * c) + U) * 2 ^ 52) (hh : 2 * half = U)
    (hy : y = x + half) (b3 : z * (2 * 2 ^ 52 - 1) ≤ (2 * y + 1) * 2 ^ 52) :
    1000000 * x1 ≤ 1000001 * (n * U) + 1000000 ∧ 1000000 * x ≤ 952000 * (n * U) + 2000000 ∧
      z < n * U + U := by
  have m1 : 1000000 * x1 ≤ 1000001 * (n * U) + 1000000 := by
    generalize n * U = w at *
    omega
  have m12 : x1 * (1000 * c) ≤ x1 * (951 * U) := Nat.mul_le_mul_left _ hx
  have m2 : 1000000 * x ≤ 952000 * (n * U) + 2000000 := by
    have h1 : 1000 * (x * (2 * 2 ^ 52 - 1)) * U ≤ (2 * (951 * x1) + 1000) * 2 ^ 52 * U := by nlinarith
    have h2 := Nat.le_of_mul_le_mul_right h1 (by omega)
    generalize n * U = w at *
    omega
  refine ⟨m1, m2, ?_⟩
  generalize n * U = w at *
  omega

/-- Percentile index with factor at most 0.951. -/
theorem percentile_core {max n : Nat} (hmax : max ≤ 2 ^ 64) {c : F64} {k : Nat} {h : k ≤ Fmt.b64.infK}
    (hc : c = .num false k h) (hk : k ≠ Fmt.b64.infK) (hk2 : 1000 * Fmt.b64.mag k ≤ 951 * U64) :
    Fl.toUint max (Fl.add (Fl.mul (Fl.ofInt Fmt.b64 n) c) (Fl.lit Fmt.b64 5 10)) ≤ n := by
  rcases Nat.lt_or_ge n max with hn | hn
  swap
  · exact Nat.le_trans (Fl.toUint_le _ _) hn
  obtain ⟨kh, hh, eh, hhi, hh2⟩ := lit_half
  obtain ⟨k1, h1, e1, b1⟩ := ofInt_nat n
  have hbig := U64_big
  have hinf := mag_inf_b64
  have hn2 : n < 2 ^ 64 := by omega
  have hnU : n * U64 ≤ 2 ^ 64 * U64 := Nat.mul_le_mul_right _ hn2.le
  have f1 : k1 ≠ Fmt.b64.infK := by
    apply fin_of_mag_lt
    generalize Fmt.b64.mag k1 = x1 at *
    generalize Fmt.b64.mag Fmt.b64.infK = y at *
    generalize n * U64 = w at *
    generalize U64 = U at *
    omega
  obtain ⟨k2, h2, e2, b2⟩ := mul_nonneg_bound (hk := h1) (hl := h) f1 hk
  have f2 : k2 ≠ Fmt.b64.infK := by
    apply fin_of_mag_lt
    have m := percentile_arith hbig b1 hk2 b2 hh2 rfl (z := 0) (by rw [Nat.zero_mul]; exact Nat.zero_le _)
    generalize Fmt.b64.mag k2 = x1 at *
    generalize Fmt.b64.mag Fmt.b64.infK = y at *
    generalize n * U64 = w at *
    generalize U64 = U at *
    omega
  obtain ⟨k3, h3, e3, b3⟩ := add_nonneg_bound (hk := h2) (hl := hh) f2 hhi
  have m := (percentile_arith hbig b1 hk2 b2 hh2 rfl b3).2.2
  rw [hc, eh, e1, e2, e3]
  have f3 : k3 ≠ Fmt.b64.infK := by
    apply fin_of_mag_lt
    generalize Fmt.b64.mag k3 = x1 at *
    generalize Fmt.b64.mag Fmt.b64.infK = y at *
    generalize n * U64 = w at *
    generalize U64 = U at *
    omega
  simp only [Fl.toUint, Bool.false_eq_true, if_false, if_neg f3, U64_eq]
  refine Nat.le_trans (Nat.min_le_right _ _) ?_
  refine Nat.le_of_lt_succ ((Nat.div_lt_iff_lt_mul U64_pos).2 ?_)
  rw [Nat.succ_mul]; exact m

theorem percentile_le {E : Env F64 S} (hE : E.f64 = Fl.arith Fmt.b64) {max : Nat} (hmax : max ≤ 2 ^ 64)
    (n : Nat) : percentile E max n 1 10 ≤ n ∧ percentile E max n 95 100 ≤ n := by
  unfold percentile
  rw [hE]
  obtain ⟨k, h, e, hk, hk2⟩ := lit_10
  obtain ⟨k', h', e', hk', hk2'⟩ := lit_95
  exact ⟨percentile_core hmax e hk hk2, percentile_core hmax e' hk' hk2'⟩

end Verif
