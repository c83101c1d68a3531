import Verif.Proofs.Percentile
import Verif.Proofs.FloatOps
/-!
# The percentile index is the nearest rank

`((n as f64) * p + 0.5) as usize` is the integer part of `n p + 1/2` for `p = 0.1` and `p = 0.95`, although
neither constant is a binary fraction.
-/

namespace Verif

/-- Neighbouring magnitudes are not too close. -/
theorem Fmt.gap_ge (φ : Fmt) (k : Nat) : φ.mag (k + 1) ≤ (φ.mag (k + 1) - φ.mag k) * (2 * 2 ^ φ.mb) := by
  by_cases hs : k + 1 ≤ 2 * 2 ^ φ.mb
  · rw [φ.mag_small hs, φ.mag_small (by omega : k ≤ 2 * 2 ^ φ.mb)]
    rw [show k + 1 - k = 1 by omega, Nat.one_mul]
    exact hs
  · have hp := Nat.two_pow_pos φ.mb
    have hd := Nat.div_add_mod k (2 ^ φ.mb)
    have hm := Nat.mod_lt k hp
    have h2 : 2 ≤ k / 2 ^ φ.mb := by
      rw [Nat.le_div_iff_mul_le hp]; omega
    obtain ⟨sh, hsh⟩ : ∃ sh, k / 2 ^ φ.mb = sh + 1 := ⟨k / 2 ^ φ.mb - 1, by omega⟩
    have e1 : k = (sh + 1) * 2 ^ φ.mb + k % 2 ^ φ.mb := by
      rw [← hsh, Nat.mul_comm]; exact hd.symm
    generalize k % 2 ^ φ.mb = r at *
    rw [e1, Nat.add_assoc, φ.mag_binade sh r (by omega), φ.mag_binade sh (r + 1) (by omega), ← Nat.sub_mul,
      show 2 ^ φ.mb + (r + 1) - (2 ^ φ.mb + r) = 1 by omega, Nat.one_mul,
      Nat.mul_comm]
    exact Nat.mul_le_mul_left _ (by omega)

/-- `2^1069`, a thirty-second of one. -/
def V64 : Nat := 2 ^ 1069

set_option exponentiation.threshold 2000 in
theorem U64_V64 : U64 = 32 * V64 := by
  unfold U64 V64
  rw [show Fmt.b64.u = 5 + 1069 from rfl, Nat.pow_add]

set_option exponentiation.threshold 2000 in
theorem V64_pos : 0 < V64 := Nat.two_pow_pos _

/-- Multiples of 1/32 are representable. -/
theorem mag_V64 {j : Nat} (hj : j ≤ 2 ^ 53) : ∃ k < Fmt.b64.infK, Fmt.b64.mag k = j * V64 :=
  Fl.exists_mag Fmt.b64 j 1069 hj (by decide +kernel) (by decide +kernel)

theorem lit_10_tight : ∃ k h, Fl.lit Fmt.b64 1 10 = .num false k h ∧ k ≠ Fmt.b64.infK ∧
    U64 ≤ 10 * Fmt.b64.mag k ∧ 10 * Fmt.b64.mag k * 2 ^ 50 ≤ U64 * (2 ^ 50 + 1) := by
  unfold U64
  exact ⟨4591870180066957722, by decide +kernel, by decide +kernel, by decide +kernel, by decide +kernel,
    by decide +kernel⟩

theorem lit_95_tight : ∃ k h, Fl.lit Fmt.b64 95 100 = .num false k h ∧ k ≠ Fmt.b64.infK ∧
    20 * Fmt.b64.mag k ≤ 19 * U64 ∧ 19 * U64 * (2 * 2 ^ 53 - 1) < 20 * Fmt.b64.mag k * (2 * 2 ^ 53) := by
  unfold U64
  exact ⟨4606732058837280358, by decide +kernel, by decide +kernel, by decide +kernel, by decide +kernel,
    by decide +kernel⟩

attribute [irreducible] V64

theorem ofInt_exact {n : Nat} (hn : n < 2 ^ 46) : ∃ k h, Fl.ofInt Fmt.b64 (n : Int) = .num false k h ∧
    k ≠ Fmt.b64.infK ∧ Fmt.b64.mag k = n * U64 := by
  obtain ⟨m1, f1⟩ := Fl.mag_rnd_int Fmt.ok64 (n := n) (by
    have : Fmt.b64.mb = 52 := rfl
    rw [this]; omega)
  exact ⟨_, _, Fl.ofInt_pos n, f1.ne, m1.trans (by rw [U64_eq])⟩

theorem mul_exact {k l : Nat} {hk : k ≤ Fmt.b64.infK} {hl : l ≤ Fmt.b64.infK} (h1 : k ≠ Fmt.b64.infK)
    (h2 : l ≠ Fmt.b64.infK) : ∃ h, Fl.mul (.num false k hk : F64) (.num false l hl) =
      .num false (Fmt.b64.rnd (Fmt.b64.mag k * Fmt.b64.mag l) U64) h := by
  rw [← U64_eq]
  exact ⟨_, Fl.mul_pos h1 h2⟩

/-- If the product lies between two representable values around the rank, the index is the rank. -/
theorem index_of_product {max n T : Nat} (hT : T < 2 ^ 46) (hn : n < 2 ^ 46) (hmax : T ≤ max) {c : F64} {k : Nat}
    {h : k ≤ Fmt.b64.infK} (hc : c = .num false k h) (hk : k ≠ Fmt.b64.infK)
    (hlo : T = 0 ∨ ∃ ky, Fmt.b64.mag ky = (32 * T - 16) * V64 ∧
      ky ≤ Fmt.b64.rnd (n * U64 * Fmt.b64.mag k) U64)
    (hhi : n * Fmt.b64.mag k ≤ (32 * T + 15) * V64) :
    Fl.toUint max (Fl.add (Fl.mul (Fl.ofInt Fmt.b64 n) c) (Fl.lit Fmt.b64 5 10)) = T := by
  obtain ⟨kh, hh, eh, hhi', hh2⟩ := lit_half
  obtain ⟨k1, h1, e1, f1, m1⟩ := ofInt_exact hn
  have hV := V64_pos
  have hUV := U64_V64
  obtain ⟨k15, i15, m15⟩ := mag_V64 (j := 32 * T + 15) (by omega)
  obtain ⟨k31, i31, m31⟩ := mag_V64 (j := 32 * T + 31) (by omega)
  obtain ⟨k0, i0, m0⟩ := mag_V64 (j := 32 * T) (by omega)
  have hp : Fmt.b64.rnd (n * U64 * Fmt.b64.mag k) U64 ≤ k15 := by
    apply Fmt.rnd_le _ Fmt.b64_mb U64_pos i15.le
    rw [m15, Nat.mul_right_comm]
    exact Nat.mul_le_mul_right _ hhi
  obtain ⟨h2, e2⟩ := mul_exact (hk := h1) (hl := h) f1 hk
  rw [hc, eh, e1, e2]
  rw [m1] at h2
  have e3 : ∀ h', (Fl.num false (Fmt.b64.rnd (Fmt.b64.mag k1 * Fmt.b64.mag k) U64) h' : F64) =
    .num false (Fmt.b64.rnd (n * U64 * Fmt.b64.mag k) U64) h2 := by
    rw [m1]; intro h'; rfl
  rw [e3]
  generalize Fmt.b64.rnd (n * U64 * Fmt.b64.mag k) U64 = p at *
  have fp : p ≠ Fmt.b64.infK := by omega
  have mp := Fmt.b64.mag_le hp
  rw [m15] at mp
  rw [Fl.add_pos Fmt.b64_mb]
  have hup : Fmt.b64.rnd (Fmt.b64.mag p + Fmt.b64.mag kh) 1 ≤ k31 := by
    apply Fmt.rnd_le _ Fmt.b64_mb Nat.one_pos i31.le
    rw [m31, Nat.mul_one]
    have : (32 * T + 31) * V64 = (32 * T + 15) * V64 + 16 * V64 := by rw [← Nat.add_mul]
    omega
  have hdn : k0 ≤ Fmt.b64.rnd (Fmt.b64.mag p + Fmt.b64.mag kh) 1 := by
    apply Fmt.le_rnd _ Fmt.b64_mb Nat.one_pos i0.le
    rw [m0, Nat.mul_one]
    rcases hlo with rfl | ⟨ky, my, hy⟩
    · omega
    · have m2 := Fmt.b64.mag_le hy
      rw [my] at m2
      by_cases hT0 : T = 0
      · subst hT0; omega
      · have : 32 * T * V64 = (32 * T - 16) * V64 + 16 * V64 := by
          rw [← Nat.add_mul]; congr 1; omega
        omega
  obtain ⟨r, h', er, hup, hdn⟩ : ∃ r h', (Fl.num false (Fmt.b64.rnd (Fmt.b64.mag p + Fmt.b64.mag kh) 1)
      (Fmt.b64.rnd_le_infK ..) : F64) = .num false r h' ∧ r ≤ k31 ∧ k0 ≤ r := ⟨_, _, rfl, hup, hdn⟩
  rw [er]
  have fr : r ≠ Fmt.b64.infK := by omega
  have h1 := Fmt.b64.mag_le hup
  have h2 := Fmt.b64.mag_le hdn
  rw [m31] at h1
  rw [m0] at h2
  simp only [Fl.toUint, Bool.false_eq_true, if_false, if_neg fr, U64_eq]
  have : Fmt.b64.mag r / U64 = T := by
    rw [hUV]
    apply Nat.div_eq_of_lt_le
    · rw [show T * (32 * V64) = 32 * T * V64 by rw [← Nat.mul_assoc, Nat.mul_comm T]]; exact h2
    · refine Nat.lt_of_le_of_lt h1 ?_
      rw [show (T + 1) * (32 * V64) = (32 * T + 32) * V64 by
        rw [← Nat.mul_assoc]; congr 1; omega]
      exact Nat.mul_lt_mul_of_pos_right (by omega) hV
  rw [this]
  exact Nat.min_eq_right hmax

/-! Arithmetic of the bounds, on plain naturals. -/

theorem arith_low {n L V T : Nat} (b : 32 * V ≤ 10 * L) (h : 10 * (32 * T - 16) ≤ n * 32) :
    (32 * T - 16) * V ≤ n * L := by
  have h1 : 10 * ((32 * T - 16) * V) ≤ 10 * (n * L) := calc
    10 * ((32 * T - 16) * V) = 10 * (32 * T - 16) * V := (Nat.mul_assoc ..).symm
    _ ≤ n * 32 * V := Nat.mul_le_mul_right _ h
    _ = n * (32 * V) := Nat.mul_assoc ..
    _ ≤ n * (10 * L) := Nat.mul_le_mul_left _ b
    _ = 10 * (n * L) := by ring
  omega

theorem arith_high {n L V T A : Nat} (hA : 0 < A) (b : 10 * L * A ≤ 32 * V * (A + 1))
    (h : n * (32 * (A + 1)) ≤ 10 * (32 * T + 15) * A) : n * L ≤ (32 * T + 15) * V := by
  have h1 : (n * L) * (10 * A) ≤ ((32 * T + 15) * V) * (10 * A) := calc
    (n * L) * (10 * A) = n * (10 * L * A) := by ring
    _ ≤ n * (32 * V * (A + 1)) := Nat.mul_le_mul_left _ b
    _ = n * (32 * (A + 1)) * V := by ring
    _ ≤ 10 * (32 * T + 15) * A * V := Nat.mul_le_mul_right _ h
    _ = _ := by ring
  exact Nat.le_of_mul_le_mul_right h1 (by omega)

theorem arith_high' {n L V T : Nat} (b : 20 * L ≤ 19 * (32 * V)) (h : n * (19 * 32) ≤ 20 * (32 * T + 15)) :
    n * L ≤ (32 * T + 15) * V := by
  have h1 : (n * L) * 20 ≤ ((32 * T + 15) * V) * 20 := calc
    (n * L) * 20 = n * (20 * L) := by ring
    _ ≤ n * (19 * (32 * V)) := Nat.mul_le_mul_left _ b
    _ = n * (19 * 32) * V := by ring
    _ ≤ 20 * (32 * T + 15) * V := Nat.mul_le_mul_right _ h
    _ = _ := by ring
  omega

/-- With `A = 2^53`: the product is above the middle of the gap below the target. -/
theorem arith_mid {n L V x y A : Nat} (hn : 0 < n) (hA : 0 < A) (b : 19 * (32 * V) * (2 * A - 1) < 20 * L * (2 * A))
    (hg : y ≤ (y - x) * A) (hxy : x ≤ y) (h : 20 * y ≤ 19 * n * 32 * V) : x + y < 2 * (n * L) := by
  have h1 : (20 * y) * (2 * A - 1) < 20 * (n * L) * (2 * A) := calc
    (20 * y) * (2 * A - 1) ≤ 19 * n * 32 * V * (2 * A - 1) := Nat.mul_le_mul_right _ h
    _ = n * (19 * (32 * V) * (2 * A - 1)) := by ring
    _ < n * (20 * L * (2 * A)) := Nat.mul_lt_mul_of_pos_left b hn
    _ = _ := by ring
  by_contra hc
  have h3 : 2 * (n * L) * A ≤ (x + y) * A := Nat.mul_le_mul_right _ (by omega)
  rw [Nat.sub_mul] at hg
  have h4 : x * A ≤ y * A := Nat.mul_le_mul_right _ hxy
  have h5 : (20 * y) * (2 * A - 1) = 40 * (y * A) - 20 * y := by
    rw [Nat.mul_sub, Nat.mul_one]
    congr 1
    ring
  have h6 : 20 * (n * L) * (2 * A) = 20 * (2 * (n * L) * A) := by ring
  rw [Nat.add_mul] at h3
  have h7 : y ≤ y * A := Nat.le_mul_of_pos_right _ hA
  rw [h5, h6] at h1
  omega

/-- 10th percentile: the integer part of `n/10 + 1/2`. -/
theorem percentile_10 {E : Env F64 S} (hE : E.f64 = Fl.arith Fmt.b64) {max n : Nat} (hn : n < 2 ^ 46)
    (hmax : n ≤ max) : percentile E max n 1 10 = (n + 5) / 10 := by
  obtain ⟨k, h, e, hk, b1, b2⟩ := lit_10_tight
  unfold percentile
  rw [hE]
  rw [U64_V64] at b1 b2
  refine index_of_product (c := Fl.lit Fmt.b64 1 10) (by omega) hn (by omega) e hk ?_ ?_
  · by_cases hT : (n + 5) / 10 = 0
    · exact Or.inl hT
    · right
      obtain ⟨ky, iy, my⟩ := mag_V64 (j := 32 * ((n + 5) / 10) - 16) (by omega)
      refine ⟨ky, my, Fmt.le_rnd _ Fmt.b64_mb U64_pos iy.le ?_⟩
      rw [my, Nat.mul_right_comm n]
      exact Nat.mul_le_mul_right _ (arith_low b1 (by omega))
  · refine arith_high (A := 2 ^ 50) (Nat.two_pow_pos 50) b2 ?_
    clear b1 b2 e
    norm_num
    omega

/-- 95th percentile: the integer part of `19 n / 20 + 1/2`. -/
theorem percentile_95 {E : Env F64 S} (hE : E.f64 = Fl.arith Fmt.b64) {max n : Nat} (hn : n < 2 ^ 46)
    (hmax : n ≤ max) : percentile E max n 95 100 = (19 * n + 10) / 20 := by
  obtain ⟨k, h, e, hk, b1, b2⟩ := lit_95_tight
  rw [U64_V64] at b1 b2
  unfold percentile
  rw [hE]
  refine index_of_product (c := Fl.lit Fmt.b64 95 100) (by omega) hn (by omega) e hk ?_ ?_
  · by_cases hT : (19 * n + 10) / 20 = 0
    · exact Or.inl hT
    · right
      obtain ⟨ky, iy, my⟩ := mag_V64 (j := 32 * ((19 * n + 10) / 20) - 16) (by omega)
      refine ⟨ky, my, ?_⟩
      cases ky with
      | zero => exact Nat.zero_le _
      | succ ky =>
        rw [Nat.succ_le_iff, Fmt.rnd_gt_iff _ Fmt.b64_mb U64_pos (by omega)]
        have hg := Fmt.b64.gap_ge ky
        have hmono := Fmt.b64.mag_lt_succ ky
        rw [show 2 * 2 ^ Fmt.b64.mb = 2 ^ 53 from rfl] at hg
        have h20 : 20 * Fmt.b64.mag (ky + 1) ≤ 19 * n * 32 * V64 := by
          rw [my, ← Nat.mul_assoc]
          exact Nat.mul_le_mul_right _ (by omega)
        have hn0 : 0 < n := by clear b1 b2; omega
        have key := arith_mid (A := 2 ^ 53) hn0 (Nat.two_pow_pos 53) b2 hg hmono.le h20
        have e1 : 2 * (n * U64 * Fmt.b64.mag k) = 2 * (n * Fmt.b64.mag k) * U64 := by ring
        rw [e1]
        have := Nat.mul_lt_mul_of_pos_right key U64_pos
        split
        · exact this
        · exact this.le
  · exact arith_high' b1 (by omega)

end Verif
