import Verif.Proofs.Events
/-! # Sample conversions -/

set_option linter.unusedSimpArgs false

namespace Verif
open Fl Spec

/-! ## Scaling by powers of two -/

/-- Normal magnitudes scale by powers of two. -/
theorem Fmt.mag_shift (φ : Fmt) {k : Nat} (h : 2 ^ φ.mb ≤ k) (j : Nat) :
    φ.mag (k + j * 2 ^ φ.mb) = φ.mag k * 2 ^ j := by
  have hB : 0 < 2 ^ φ.mb := Nat.two_pow_pos _
  obtain ⟨sh, r, hr, rfl⟩ : ∃ sh r, r ≤ 2 ^ φ.mb ∧ k = (sh + 1) * 2 ^ φ.mb + r := by
    refine ⟨k / 2 ^ φ.mb - 1, k % 2 ^ φ.mb, Nat.le_of_lt (Nat.mod_lt _ hB), ?_⟩
    have h1 : 1 ≤ k / 2 ^ φ.mb := (Nat.le_div_iff_mul_le hB).2 (by omega)
    rw [Nat.sub_add_cancel h1, Nat.mul_comm]
    exact (Nat.div_add_mod _ _).symm
  have e : (sh + 1) * 2 ^ φ.mb + r + j * 2 ^ φ.mb = (sh + j + 1) * 2 ^ φ.mb + r := by
    rw [show sh + j + 1 = (sh + 1) + j by omega, Nat.add_mul (sh + 1) j]; omega
  rw [e, φ.mag_binade _ _ hr, φ.mag_binade _ _ hr, Nat.pow_add, Nat.mul_assoc]

/-- So does rounding, in the normal range. -/
theorem Fmt.rnd_shift (φ : Fmt) (hmb : 1 ≤ φ.mb) {a b : Nat} (hb : 0 < b) (h : 2 ^ φ.mb * b ≤ a) (j : Nat)
    (hi : φ.rnd a b + j * 2 ^ φ.mb < φ.infK) : φ.rnd (a * 2 ^ j) b = φ.rnd a b + j * 2 ^ φ.mb := by
  have hB : 0 < 2 ^ φ.mb := Nat.two_pow_pos _
  have hJ : 0 < 2 ^ j := Nat.two_pow_pos _
  have hI : 2 ^ φ.mb ≤ φ.infK := Nat.le_mul_of_pos_left _ (Nat.succ_pos _)
  have hr : 2 ^ φ.mb ≤ φ.rnd a b := φ.le_rnd hmb hb hI (by rw [φ.mag_small (by omega)]; exact h)
  have par : ∀ k, (k + j * 2 ^ φ.mb) % 2 = k % 2 := by
    intro k
    obtain ⟨p, hp⟩ : ∃ p, 2 ^ φ.mb = 2 * p := ⟨2 ^ (φ.mb - 1), by rw [← Nat.pow_succ']; congr 1; omega⟩
    rw [hp, show k + j * (2 * p) = k + 2 * (j * p) by ring]
    omega
  have key : ∀ k, 2 ^ φ.mb ≤ k → k + j * 2 ^ φ.mb < φ.infK →
      (k + j * 2 ^ φ.mb < φ.rnd (a * 2 ^ j) b ↔ k < φ.rnd a b) := by
    intro k hk hlt
    rw [φ.rnd_gt_iff hmb hb hlt, φ.rnd_gt_iff hmb hb (by omega), par,
      show k + j * 2 ^ φ.mb + 1 = (k + 1) + j * 2 ^ φ.mb by omega, φ.mag_shift hk, φ.mag_shift (by omega)]
    have e1 : (φ.mag k * 2 ^ j + φ.mag (k + 1) * 2 ^ j) * b = (φ.mag k + φ.mag (k + 1)) * b * 2 ^ j := by ring
    have e2 : 2 * (a * 2 ^ j) = 2 * a * 2 ^ j := by ring
    rw [e1, e2]
    split
    · exact Nat.mul_lt_mul_right hJ
    · exact Nat.mul_le_mul_right_iff hJ
  apply Nat.le_antisymm
  · have := (key (φ.rnd a b) hr hi).not.2 (Nat.lt_irrefl _)
    omega
  · rcases Nat.lt_or_ge (2 ^ φ.mb) (φ.rnd a b) with h1 | h1
    · have := (key (φ.rnd a b - 1) (by omega) (by omega)).2 (by omega)
      omega
    · have h2 : φ.rnd a b = 2 ^ φ.mb := by omega
      rw [h2]
      apply φ.le_rnd hmb hb (by omega)
      rw [φ.mag_shift (Nat.le_refl _), φ.mag_small (by omega)]
      calc 2 ^ φ.mb * 2 ^ j * b = 2 ^ φ.mb * b * 2 ^ j := by ring
        _ ≤ a * 2 ^ j := Nat.mul_le_mul_right _ h

/-! ## Integers -/

variable {φ : Fmt}

/-- Quotient of an integer and a positive integer, both exact. -/
theorem ofInt_div (ok : φ.Ok) {i : Int} {d : Nat} (hi : i.natAbs ≤ 2 * 2 ^ φ.mb) (hd0 : 0 < d)
    (hd : d ≤ 2 * 2 ^ φ.mb) :
    Fl.div (Fl.ofInt φ i) (Fl.lit φ (d : Int) 1) =
      .num (decide (i < 0)) (φ.rnd (i.natAbs * 2 ^ φ.u) d) (φ.rnd_le_infK ..) := by
  obtain ⟨h1, h2⟩ := mag_rnd_int ok hi
  obtain ⟨h3, h4⟩ := mag_rnd_int ok hd
  have h5 : φ.rnd (d * 2 ^ φ.u) 1 ≠ 0 := by
    intro h; rw [h, φ.mag_zero] at h3
    have := Nat.mul_pos hd0 (Nat.two_pow_pos φ.u); omega
  rw [lit_pos]
  unfold Fl.ofInt Fl.ofMag Fl.div
  simp only [if_neg (Nat.ne_of_lt h2), if_neg (Nat.ne_of_lt h4), if_neg h5, Fl.ofMag]
  refine ext_num (by simp) ?_
  rw [h1, h3]
  apply φ.rnd_congr ok.mb (Nat.mul_pos hd0 (Nat.two_pow_pos _)) hd0
  ring

theorem Fl.ftz_eq {s : Bool} {k : Nat} {hk : k ≤ φ.infK} (h : k = 0 ∨ 2 ^ φ.mb ≤ k) :
    Fl.ftz (.num s k hk : Fl φ) = .num s k hk := by
  simp only [Fl.ftz]
  split
  · have h0 : k = 0 := by omega
    subst h0; rfl
  · rfl

theorem int_normal {n d : Nat} (hd0 : 0 < d) (hd : d ≤ 2147483648) :
    Fmt.b64.rnd (n * 2 ^ Fmt.b64.u) d = 0 ∨ 2 ^ Fmt.b64.mb ≤ Fmt.b64.rnd (n * 2 ^ Fmt.b64.u) d := by
  by_cases h0 : n = 0
  · left; rw [h0, Nat.zero_mul, Fmt.rnd_zero _ Fmt.ok64.mb hd0]
  · right
    apply Fmt.le_rnd _ Fmt.ok64.mb hd0
    · have : Fmt.b64.infK = 2047 * 2 ^ Fmt.b64.mb := rfl
      rw [this]; omega
    · rw [Fmt.mag_small _ (by omega)]
      obtain ⟨r, hu⟩ : ∃ r, Fmt.b64.u = Fmt.b64.mb + 31 + r := ⟨991, rfl⟩
      rw [hu, Nat.pow_add, Nat.pow_add]
      have h2 : 1 ≤ 2 ^ r := Nat.two_pow_pos _
      calc 2 ^ Fmt.b64.mb * d ≤ 2 ^ Fmt.b64.mb * 2 ^ 31 := Nat.mul_le_mul_left _ (by omega)
        _ = 1 * (2 ^ Fmt.b64.mb * 2 ^ 31 * 1) := by rw [Nat.one_mul, Nat.mul_one]
        _ ≤ n * (2 ^ Fmt.b64.mb * 2 ^ 31 * 2 ^ r) := Nat.mul_le_mul (by omega) (Nat.mul_le_mul_left _ h2)

/-- The `f64` conversion of an integer sample. -/
theorem flush_int_div (t : Target) {i : Int} {d : Nat} (hi : i.natAbs ≤ d) (hd0 : 0 < d) (hd : d ≤ 2147483648) :
    (if t.sse2 then Fl.arithFtz Fmt.b64 else Fl.arith Fmt.b64).div (Fl.ofInt Fmt.b64 i) (Fl.lit Fmt.b64 (d : Int) 1) =
      Fl.div (Fl.ofInt Fmt.b64 i) (Fl.lit Fmt.b64 (d : Int) 1) := by
  have hmb := amp_mb
  cases t.sse2 with
  | false => rfl
  | true =>
    show Fl.ftz (Fl.div _ _) = _
    rw [ofInt_div Fmt.ok64 (by omega) hd0 (by omega)]
    exact Fl.ftz_eq (int_normal hd0 hd)

/-- The level. -/
theorem level_int_div (t : Target) {i : Int} {d : Nat} (hi : i.natAbs ≤ d) (hd0 : 0 < d) (hd : d ≤ 2147483648) :
    levelD t (Fl.div (Fl.ofInt Fmt.b64 i) (Fl.lit Fmt.b64 (d : Int) 1)) = Fl.lit Fmt.b64 (i.natAbs : Int) d := by
  have hmb := amp_mb
  unfold levelD
  rw [ofInt_div Fmt.ok64 (by omega) hd0 (by omega), Fl.ftz_eq (int_normal hd0 hd), ite_self, lit_pos]
  rfl

/-- The `f32` conversion: rounding and scaling commute. -/
theorem cast_int_div {i : Int} {j : Nat} (hi : i.natAbs ≤ 2 ^ j) (hj : j ≤ 31) :
    Fl.cast Fmt.b32 (Fl.div (Fl.ofInt Fmt.b64 i) (Fl.lit Fmt.b64 ((2 ^ j : Nat) : Int) 1)) =
      Fl.div (Fl.ofInt Fmt.b32 i) (Fl.lit Fmt.b32 ((2 ^ j : Nat) : Int) 1) := by
  have hmb : 2 ^ Fmt.b64.mb = 4503599627370496 := by norm_num [Fmt.b64]
  have hmb' : 2 ^ Fmt.b32.mb = 8388608 := by norm_num [Fmt.b32]
  have hinf : Fmt.b32.infK = 255 * 2 ^ Fmt.b32.mb := rfl
  have hj2 : 2 ^ j ≤ 2147483648 := by
    calc 2 ^ j ≤ 2 ^ 31 := Nat.pow_le_pow_right (by omega) hj
      _ = 2147483648 := by norm_num
  have hj0 : 0 < 2 ^ j := Nat.two_pow_pos j
  -- left side
  obtain ⟨k1, hk1, hm1⟩ : ∃ k, k < Fmt.b64.infK ∧ Fmt.b64.mag k * 2 ^ j = i.natAbs * 2 ^ Fmt.b64.u := by
    obtain ⟨d, hu⟩ : ∃ d, Fmt.b64.u = j + (Fmt.b64.mb + d) := ⟨1022 - j, by show 1074 = j + (52 + (1022 - j)); omega⟩
    obtain ⟨k, h1, h2⟩ := exists_mag Fmt.b64 i.natAbs (Fmt.b64.mb + d) (by omega) (by omega)
      (by have : Fmt.b64.emax = 2046 := rfl; have : Fmt.b64.u = 1074 := rfl; omega)
    refine ⟨k, h1, ?_⟩
    rw [h2, hu, Nat.pow_add 2 j, Nat.mul_assoc, Nat.mul_comm (2 ^ (Fmt.b64.mb + d))]
  have hr1 : Fmt.b64.rnd (i.natAbs * 2 ^ Fmt.b64.u) (2 ^ j) = k1 := by
    rw [← hm1]; exact Fmt.b64.rnd_mag Fmt.ok64.mb (Nat.le_of_lt hk1) hj0
  obtain ⟨w, hw⟩ : ∃ w, Fmt.b32.u = j + w := ⟨149 - j, by show 149 = j + (149 - j); omega⟩
  have hL : Fl.cast Fmt.b32 (Fl.div (Fl.ofInt Fmt.b64 i) (Fl.lit Fmt.b64 ((2 ^ j : Nat) : Int) 1)) =
      .num (decide (i < 0)) (Fmt.b32.rnd (i.natAbs * 2 ^ w) 1) (Fmt.b32.rnd_le_infK ..) := by
    rw [ofInt_div Fmt.ok64 (by omega) hj0 (by omega)]
    unfold Fl.cast
    simp only [hr1, if_neg (Nat.ne_of_lt hk1), Fl.ofMag]
    refine ext_num rfl ?_
    apply Fmt.rnd_congr _ Fmt.ok32.mb (Nat.two_pow_pos _) Nat.one_pos
    rw [hw, Nat.pow_add, Nat.mul_one, ← Nat.mul_assoc, hm1]
    generalize 2 ^ Fmt.b64.u = x
    ring
  rw [hL]
  -- right side
  obtain ⟨h3, h4⟩ : Fmt.b32.mag (Fmt.b32.rnd (2 ^ j * 2 ^ Fmt.b32.u) 1) = 2 ^ j * 2 ^ Fmt.b32.u ∧
      Fmt.b32.rnd (2 ^ j * 2 ^ Fmt.b32.u) 1 < Fmt.b32.infK := by
    obtain ⟨k, h1, h2⟩ := exists_mag Fmt.b32 1 (j + Fmt.b32.u) (by omega)
      (by have : Fmt.b32.u = 149 := rfl; have : Fmt.b32.mb = 23 := rfl; omega)
      (by have : Fmt.b32.emax = 254 := rfl; have : Fmt.b32.u = 149 := rfl; omega)
    rw [Nat.one_mul, Nat.pow_add] at h2
    have : Fmt.b32.rnd (2 ^ j * 2 ^ Fmt.b32.u) 1 = k := by
      have := Fmt.b32.rnd_mag Fmt.ok32.mb (Nat.le_of_lt h1) (d := 1) Nat.one_pos
      rwa [Nat.mul_one, h2] at this
    rw [this]; exact ⟨h2, h1⟩
  have h5 : Fmt.b32.rnd (2 ^ j * 2 ^ Fmt.b32.u) 1 ≠ 0 := by
    intro h; rw [h, Fmt.mag_zero] at h3
    have := Nat.mul_pos hj0 (Nat.two_pow_pos Fmt.b32.u); omega
  have hle : Fmt.b32.rnd (i.natAbs * 2 ^ w) 1 ≤ 127 * 2 ^ Fmt.b32.mb := by
    apply Fmt.rnd_le _ Fmt.ok32.mb Nat.one_pos (by omega)
    have e : Fmt.b32.mag (127 * 2 ^ Fmt.b32.mb) = 2 ^ Fmt.b32.u := by
      have := Fmt.b32.mag_binade 126 0 (Nat.zero_le _)
      rw [Nat.add_zero] at this
      rw [this, Nat.add_zero, ← Nat.pow_add]
      rfl
    rw [e, hw, Nat.pow_add, Nat.mul_one]
    exact Nat.mul_le_mul_right _ hi
  have hk : Fmt.b32.rnd (i.natAbs * 2 ^ Fmt.b32.u) 1 < Fmt.b32.infK ∧
      Fmt.b32.mag (Fmt.b32.rnd (i.natAbs * 2 ^ Fmt.b32.u) 1) =
        Fmt.b32.mag (Fmt.b32.rnd (i.natAbs * 2 ^ w) 1) * 2 ^ j := by
    by_cases h0 : i.natAbs = 0
    · rw [h0, Nat.zero_mul, Nat.zero_mul, Fmt.rnd_zero _ Fmt.ok32.mb Nat.one_pos, Fmt.mag_zero]
      exact ⟨infK_pos _, by omega⟩
    · have h1 : 2 ^ Fmt.b32.mb * 1 ≤ i.natAbs * 2 ^ w := by
        rw [Nat.mul_one]
        calc 2 ^ Fmt.b32.mb ≤ 2 ^ w := Nat.pow_le_pow_right (by omega) (by
              have : Fmt.b32.u = 149 := rfl
              show 23 ≤ w
              omega)
          _ ≤ i.natAbs * 2 ^ w := Nat.le_mul_of_pos_left _ (by omega)
      have h2 := Fmt.b32.rnd_shift Fmt.ok32.mb Nat.one_pos h1 j (by
        rw [hinf]
        have : j * 2 ^ Fmt.b32.mb ≤ 31 * 2 ^ Fmt.b32.mb := Nat.mul_le_mul_right _ hj
        omega)
      have h6 : i.natAbs * 2 ^ Fmt.b32.u = i.natAbs * 2 ^ w * 2 ^ j := by
        rw [hw, Nat.pow_add, Nat.mul_assoc, Nat.mul_comm (2 ^ j)]
      rw [h6, h2]
      refine ⟨?_, ?_⟩
      · have : j * 2 ^ Fmt.b32.mb ≤ 31 * 2 ^ Fmt.b32.mb := Nat.mul_le_mul_right _ hj
        omega
      · apply Fmt.mag_shift
        apply Fmt.le_rnd _ Fmt.ok32.mb Nat.one_pos (by omega)
        rw [Fmt.mag_small _ (by omega)]; exact h1
  rw [lit_pos]
  unfold Fl.ofInt Fl.ofMag Fl.div
  simp only [if_neg (Nat.ne_of_lt hk.1), if_neg (Nat.ne_of_lt h4), if_neg h5, Fl.ofMag]
  refine ext_num (by simp) ?_
  rw [hk.2, h3, Nat.mul_assoc]
  exact (Fmt.rnd_mag _ Fmt.ok32.mb (Fmt.rnd_le_infK ..) (Nat.mul_pos hj0 (Nat.two_pow_pos _))).symm

/-! ## Widening -/

theorem widen_key {s : Bool} {k : Nat} (hk : k ≤ Fmt.b32.infK) :
    Fl.cast Fmt.b64 (.num s k hk : F32) = .num s (wkey k) (wkey_le k) := by
  unfold wkey Fl.cast
  by_cases h : k = Fmt.b32.infK
  · simp only [if_pos h, Fl.inf]
    refine ext_num rfl ?_
    rw [if_neg (by omega)]
  · simp only [if_neg h, Fl.ofMag]
    refine ext_num rfl ?_
    rw [if_pos (by omega)]

/-- Widening and narrowing gives the sample back. -/
theorem cast_cast (x : F32) : Fl.cast Fmt.b32 (Fl.cast Fmt.b64 x) = x := by
  cases x with
  | nan => rfl
  | num s k hk =>
    rw [widen_key]
    unfold Fl.cast
    by_cases h : k = Fmt.b32.infK
    · simp only [if_pos ((wkey_inf hk).2 h), Fl.inf]
      exact ext_num rfl h.symm
    · have hlt : k < Fmt.b32.infK := by omega
      obtain ⟨h1, h2⟩ := mag_wkey hlt
      simp only [if_neg (Nat.ne_of_lt h1), Fl.ofMag]
      refine ext_num rfl ?_
      rw [h2]
      exact Fmt.rnd_mag _ Fmt.ok32.mb hk (Nat.two_pow_pos _)

/-- The level of a widened sample. -/
theorem level_widen (t : Target) (x : F32) : levelD t (Fl.cast Fmt.b64 x) = levelF x := by
  unfold levelD levelF
  congr 1
  cases hs : t.sse2 with
  | false => rfl
  | true =>
    simp only [if_true]
    cases x with
    | nan => rfl
    | num s k hk =>
      rw [widen_key]
      apply Fl.ftz_eq
      by_contra hc
      have h1 := fkey_wkey ⟨true, t.fused, t.usizeMax⟩ k
      unfold fkey at h1
      simp only [true_and] at h1
      split at h1
      · omega
      · rename_i h2; omega

end Verif
