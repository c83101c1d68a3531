import Verif.Model.Env
import Verif.Proofs.Float
/-! # Algebraic facts about the floating-point operations -/

namespace Verif

/-- Side conditions on a format met by binary32 and binary64. -/
structure Fmt.Ok (φ : Fmt) : Prop where
  mb : 1 ≤ φ.mb
  u : φ.mb ≤ φ.u
  e : φ.u + 2 ≤ φ.emax

theorem Fmt.ok64 : Fmt.b64.Ok := ⟨by decide, by decide, by decide⟩
theorem Fmt.ok32 : Fmt.b32.Ok := ⟨by decide, by decide, by decide⟩

namespace Fl
variable {φ : Fmt}

theorem ext_num {s t : Bool} {k l : Nat} {hk : k ≤ φ.infK} {hl : l ≤ φ.infK} (h1 : s = t) (h2 : k = l) :
    (.num s k hk : Fl φ) = .num t l hl := by subst h1; subst h2; rfl

theorem ofMag_congr {s t : Bool} {a b c d : Nat} (h1 : s = t) (h2 : φ.rnd a b = φ.rnd c d) :
    ofMag φ s a b = ofMag φ t c d := ext_num h1 h2

@[simp] theorem nan_add (x : Fl φ) : add .nan x = .nan := by cases x <;> rfl
@[simp] theorem add_nan (x : Fl φ) : add x .nan = .nan := by cases x <;> rfl
@[simp] theorem nan_mul (x : Fl φ) : mul .nan x = .nan := by cases x <;> rfl
@[simp] theorem mul_nan (x : Fl φ) : mul x .nan = .nan := by cases x <;> rfl
@[simp] theorem nan_div (x : Fl φ) : div .nan x = .nan := by cases x <;> rfl
@[simp] theorem div_nan (x : Fl φ) : div x .nan = .nan := by cases x <;> rfl
@[simp] theorem nan_sub (x : Fl φ) : sub .nan x = .nan := by cases x <;> rfl
@[simp] theorem sub_nan (x : Fl φ) : sub x .nan = .nan := by cases x <;> rfl
@[simp] theorem nan_lt (x : Fl φ) : lt .nan x = false := by cases x <;> rfl
@[simp] theorem lt_nan (x : Fl φ) : lt x .nan = false := by cases x <;> rfl
@[simp] theorem nan_le (x : Fl φ) : le .nan x = false := by cases x <;> rfl
@[simp] theorem le_nan (x : Fl φ) : le x .nan = false := by cases x <;> rfl

theorem isNan_iff {x : Fl φ} : x.isNan = true ↔ x = .nan := by cases x <;> simp [isNan]

theorem num_of_not_nan {x : Fl φ} (h : x.isNan = false) : ∃ s k hk, x = .num s k hk := by
  cases x with
  | nan => cases h
  | num s k hk => exact ⟨s, k, hk, rfl⟩

/-- Addition is commutative. -/
theorem add_comm (x y : Fl φ) : add x y = add y x := by
  cases x with
  | nan => simp
  | num s k hk =>
    cases y with
    | nan => simp
    | num t l hl =>
      simp only [add]
      by_cases h1 : k = φ.infK <;> by_cases h2 : l = φ.infK <;> simp only [h1, h2, if_true, if_false]
      · cases s <;> cases t <;> rfl
      · rw [Bool.and_comm, Int.add_comm]

/-- Multiplication is commutative. -/
theorem mul_comm (x y : Fl φ) : mul x y = mul y x := by
  cases x with
  | nan => simp
  | num s k hk =>
    cases y with
    | nan => simp
    | num t l hl =>
      simp only [mul]
      have hx : (s ^^ t) = (t ^^ s) := Bool.xor_comm ..
      by_cases h1 : k = φ.infK <;> by_cases h2 : l = φ.infK <;> simp only [h1, h2, if_true, if_false, hx]
      rw [Nat.mul_comm]

/-- The product of two negated numbers. -/
theorem neg_mul_neg (x y : Fl φ) : mul (neg x) (neg y) = mul x y := by
  cases x with
  | nan => simp [neg]
  | num s k hk =>
    cases y with
    | nan => simp [neg]
    | num t l hl => simp only [neg, mul]; cases s <;> cases t <;> rfl

theorem mul_neg (x y : Fl φ) : mul x (neg y) = neg (mul x y) := by
  cases x with
  | nan => simp [neg]
  | num s k hk =>
    cases y with
    | nan => simp [neg]
    | num t l hl =>
      have hx : (s ^^ !t) = !(s ^^ t) := by cases s <;> cases t <;> rfl
      rw [neg, mul, mul, hx]
      rw [apply_ite neg, apply_ite neg, apply_ite neg, apply_ite neg]; rfl

theorem neg_mul (x y : Fl φ) : mul (neg x) y = neg (mul x y) := by
  rw [mul_comm, mul_neg, mul_comm]

@[simp] theorem neg_neg (x : Fl φ) : neg (neg x) = x := by
  cases x <;> simp [neg]

theorem infK_pos (φ : Fmt) : 0 < φ.infK := Nat.mul_pos (Nat.succ_pos _) (Nat.two_pow_pos _)

theorem mag_pos_iff {k : Nat} : 0 < φ.mag k ↔ 0 < k := by
  have := φ.mag_lt_iff (k := 0) (l := k)
  rwa [φ.mag_zero] at this

/-- Adding non-negative numbers, infinities included, is rounding the exact sum. -/
theorem add_pos (h : 1 ≤ φ.mb) {k l : Nat} (hk : k ≤ φ.infK) (hl : l ≤ φ.infK) :
    add (.num false k hk : Fl φ) (.num false l hl) =
      .num false (φ.rnd (φ.mag k + φ.mag l) 1) (φ.rnd_le_infK ..) := by
  have hinf : ∀ n, φ.mag φ.infK ≤ n → φ.rnd n 1 = φ.infK := fun n hn =>
    Nat.le_antisymm (φ.rnd_le_infK ..) (φ.le_rnd h Nat.one_pos (Nat.le_refl _) (by omega))
  simp only [add, Bool.and_self]
  split
  · next h1 =>
    split
    · exact ext_num rfl (hinf _ (by rw [h1]; omega)).symm
    · exact ext_num rfl (hinf _ (by rw [h1]; omega)).symm
  · split
    · next h2 => exact ext_num rfl (hinf _ (by rw [h2]; omega)).symm
    · unfold ofSMag
      simp only [smag, Bool.false_eq_true, if_false]
      split
      · next h3 =>
        refine ext_num rfl ?_
        rw [show φ.mag k + φ.mag l = 0 by omega, φ.rnd_zero h Nat.one_pos]
      · refine ext_num ?_ ?_
        · rw [decide_eq_false_iff_not]; omega
        · congr 1

theorem pos_add_zero (h : 1 ≤ φ.mb) {k : Nat} (hk : k ≤ φ.infK) :
    add (.num false k hk : Fl φ) (zero false) = .num false k hk := by
  unfold zero
  rw [add_pos h]
  refine ext_num rfl ?_
  rw [φ.mag_zero, Nat.add_zero]
  have := φ.rnd_mag h hk (d := 1) Nat.one_pos
  rwa [Nat.mul_one] at this

theorem zero_add_pos (h : 1 ≤ φ.mb) {k : Nat} (hk : k ≤ φ.infK) :
    add (zero false : Fl φ) (.num false k hk) = .num false k hk := by
  rw [add_comm, pos_add_zero h]

/-- A square is non-negative or NaN. -/
theorem mul_self (x : Fl φ) : mul x x = .nan ∧ x = .nan ∨ ∃ k hk, mul x x = .num false k hk ∧ x.isNan = false := by
  cases x with
  | nan => exact .inl ⟨rfl, rfl⟩
  | num s k hk =>
    right
    simp only [mul, Bool.xor_self, isNan, and_true]
    split
    · next h1 =>
      rw [if_neg (by have := infK_pos φ; omega)]
      exact ⟨φ.infK, Nat.le_refl _, rfl⟩
    · exact ⟨φ.rnd (φ.mag k * φ.mag k) (2 ^ φ.u), φ.rnd_le_infK .., rfl⟩

/-- Finite non-negative numbers multiply by rounding the exact product. -/
theorem mul_pos {k l : Nat} {hk : k ≤ φ.infK} {hl : l ≤ φ.infK} (h1 : k ≠ φ.infK) (h2 : l ≠ φ.infK) :
    mul (.num false k hk : Fl φ) (.num false l hl) =
      .num false (φ.rnd (φ.mag k * φ.mag l) (2 ^ φ.u)) (φ.rnd_le_infK ..) := by
  simp only [mul, if_neg h1, if_neg h2]; rfl

theorem div_pos {k l : Nat} {hk : k ≤ φ.infK} {hl : l ≤ φ.infK} (h1 : k ≠ φ.infK) (h2 : l ≠ φ.infK)
    (h3 : l ≠ 0) : div (.num false k hk : Fl φ) (.num false l hl) =
      .num false (φ.rnd (φ.mag k * 2 ^ φ.u) (φ.mag l)) (φ.rnd_le_infK ..) := by
  simp only [div, if_neg h1, if_neg h2, if_neg h3]; rfl

theorem lt_num {s t : Bool} {k l : Nat} {hk : k ≤ φ.infK} {hl : l ≤ φ.infK} :
    lt (.num s k hk : Fl φ) (.num t l hl) = decide (skey s k < skey t l) := rfl
theorem le_num {s t : Bool} {k l : Nat} {hk : k ≤ φ.infK} {hl : l ≤ φ.infK} :
    le (.num s k hk : Fl φ) (.num t l hl) = decide (skey s k ≤ skey t l) := rfl

@[simp] theorem skey_false (k : Nat) : skey false k = k := rfl
@[simp] theorem skey_true (k : Nat) : skey true k = -(k : Int) := rfl

theorem lt_pos {k l : Nat} {hk : k ≤ φ.infK} {hl : l ≤ φ.infK} :
    lt (.num false k hk : Fl φ) (.num false l hl) = decide (k < l) := by
  simp [lt_num]
theorem le_pos {k l : Nat} {hk : k ≤ φ.infK} {hl : l ≤ φ.infK} :
    le (.num false k hk : Fl φ) (.num false l hl) = decide (k ≤ l) := by
  simp [le_num]

/-! ### Order -/

theorem lt_irrefl (x : Fl φ) : lt x x = false := by cases x <;> simp [lt]
theorem lt_trans {x y z : Fl φ} (h1 : lt x y = true) (h2 : lt y z = true) : lt x z = true := by
  cases x <;> cases y <;> cases z <;> simp_all [lt]
  omega
theorem le_trans {x y z : Fl φ} (h1 : le x y = true) (h2 : le y z = true) : le x z = true := by
  cases x <;> cases y <;> cases z <;> simp_all [le]
  omega
theorem lt_of_le_of_lt {x y z : Fl φ} (h1 : le x y = true) (h2 : lt y z = true) : lt x z = true := by
  cases x <;> cases y <;> cases z <;> simp_all [le, lt]
  omega
theorem lt_of_lt_of_le {x y z : Fl φ} (h1 : lt x y = true) (h2 : le y z = true) : lt x z = true := by
  cases x <;> cases y <;> cases z <;> simp_all [le, lt]
  omega
theorem le_of_lt {x y : Fl φ} (h : lt x y = true) : le x y = true := by
  cases x <;> cases y <;> simp_all [le, lt]
  omega
theorem le_refl {x : Fl φ} (h : x.isNan = false) : le x x = true := by cases x <;> simp_all [le, isNan]
/-- On numbers the order is total. -/
theorem not_lt {x y : Fl φ} (hx : x.isNan = false) (hy : y.isNan = false) : lt x y = false ↔ le y x = true := by
  cases x <;> cases y <;> simp_all [le, lt, isNan]
theorem le_antisymm_pos {k l : Nat} {hk : k ≤ φ.infK} {hl : l ≤ φ.infK}
    (h1 : le (.num false k hk : Fl φ) (.num false l hl) = true)
    (h2 : le (.num false l hl : Fl φ) (.num false k hk) = true) :
    (.num false k hk : Fl φ) = .num false l hl := by
  simp only [le_pos, decide_eq_true_eq] at h1 h2
  exact ext_num rfl (by omega)

/-! ### Integers -/

/-- Every integer multiple of `2^-u` with at most `mb + 1` significant bits is representable. -/
theorem exists_mag (φ : Fmt) (m e : Nat) (hm : m ≤ 2 * 2 ^ φ.mb) (he : φ.mb ≤ e) (hi : e + 2 ≤ φ.emax) :
    ∃ k, k < φ.infK ∧ φ.mag k = m * 2 ^ e := by
  have main : ∀ m, m < 2 * 2 ^ φ.mb → 0 < m → ∃ k, k < (e + 2) * 2 ^ φ.mb ∧ φ.mag k = m * 2 ^ e := by
    intro m hm h0
    have hne : m ≠ 0 := by omega
    have hlog : m.log2 ≤ φ.mb := by
      have := Nat.log2_lt hne (k := φ.mb + 1)
      have : m.log2 < φ.mb + 1 := this.2 (by rw [Nat.pow_succ]; omega)
      omega
    have h1 := Nat.log2_self_le hne
    have h2 := Nat.lt_log2_self (n := m)
    generalize m.log2 = j at *
    -- m * 2^(mb - j) lies in [2^mb, 2^(mb+1))
    have hp : 2 ^ (φ.mb - j) * 2 ^ j = 2 ^ φ.mb := by rw [← Nat.pow_add]; congr 1; omega
    have h3 : 2 ^ φ.mb ≤ m * 2 ^ (φ.mb - j) := by
      rw [← hp, Nat.mul_comm]; exact Nat.mul_le_mul_right _ h1
    have h4 : m * 2 ^ (φ.mb - j) < 2 * 2 ^ φ.mb := by
      rw [← hp]
      have : m * 2 ^ (φ.mb - j) < 2 ^ (j + 1) * 2 ^ (φ.mb - j) :=
        Nat.mul_lt_mul_of_pos_right h2 (Nat.two_pow_pos _)
      rw [Nat.pow_succ] at this
      have e1 : 2 ^ j * 2 * 2 ^ (φ.mb - j) = 2 * (2 ^ (φ.mb - j) * 2 ^ j) := by ring
      omega
    refine ⟨(e - (φ.mb - j) + 1) * 2 ^ φ.mb + (m * 2 ^ (φ.mb - j) - 2 ^ φ.mb), ?_, ?_⟩
    · have : (e - (φ.mb - j) + 1 + 1) * 2 ^ φ.mb ≤ (e + 2) * 2 ^ φ.mb := Nat.mul_le_mul_right _ (by omega)
      rw [Nat.succ_mul] at this
      omega
    · rw [φ.mag_binade _ _ (by omega), Nat.add_sub_cancel' h3, Nat.mul_assoc, ← Nat.pow_add]
      congr 2; omega
  have hinf : (e + 2 + 1) * 2 ^ φ.mb ≤ φ.infK := Nat.mul_le_mul_right _ (by omega)
  rw [Nat.succ_mul] at hinf
  rcases Nat.lt_or_ge m (2 * 2 ^ φ.mb) with h | h
  · rcases Nat.eq_zero_or_pos m with h0 | h0
    · exact ⟨0, infK_pos φ, by rw [φ.mag_zero, h0, Nat.zero_mul]⟩
    · obtain ⟨k, h1, h2⟩ := main m h h0
      exact ⟨k, by omega, h2⟩
  · have : m = 2 * 2 ^ φ.mb := by omega
    refine ⟨(e + 1 + 1) * 2 ^ φ.mb + 0, by
      have := Nat.two_pow_pos φ.mb
      rw [show e + 1 + 1 = e + 2 from rfl]; omega, ?_⟩
    rw [φ.mag_binade _ _ (Nat.zero_le _), this, Nat.pow_succ]; ring

/-- Integers of at most `mb + 1` bits convert exactly. -/
theorem mag_rnd_int (ok : φ.Ok) {n : Nat} (hn : n ≤ 2 * 2 ^ φ.mb) :
    φ.mag (φ.rnd (n * 2 ^ φ.u) 1) = n * 2 ^ φ.u ∧ φ.rnd (n * 2 ^ φ.u) 1 < φ.infK := by
  obtain ⟨k, h1, h2⟩ := exists_mag φ n φ.u hn ok.u ok.e
  have : φ.rnd (n * 2 ^ φ.u) 1 = k := by
    have := φ.rnd_mag ok.mb (Nat.le_of_lt h1) (d := 1) Nat.one_pos
    rwa [Nat.mul_one, h2] at this
  rw [this]; exact ⟨h2, h1⟩

theorem ofInt_pos (n : Nat) : ofInt φ (n : Int) = .num false (φ.rnd (n * 2 ^ φ.u) 1) (φ.rnd_le_infK ..) := by
  unfold ofInt ofMag
  refine ext_num ?_ rfl
  simp

theorem ofInt_zero (h : 1 ≤ φ.mb) : ofInt φ 0 = zero false := by
  have := ofInt_pos (φ := φ) 0
  rw [show ((0 : Nat) : Int) = 0 from rfl] at this
  rw [this, zero]
  refine ext_num rfl ?_
  rw [Nat.zero_mul, φ.rnd_zero h Nat.one_pos]

theorem lit_pos (n d : Nat) : lit φ (n : Int) d = .num false (φ.rnd (n * 2 ^ φ.u) d) (φ.rnd_le_infK ..) := by
  unfold lit ofMag
  refine ext_num ?_ rfl
  simp

/-- Doubling. -/
theorem mul_two (ok : φ.Ok) {k : Nat} (hk : k ≤ φ.infK) :
    mul (.num false k hk : Fl φ) (lit φ 2 1) = add (.num false k hk) (.num false k hk) := by
  obtain ⟨h1, h2⟩ := mag_rnd_int ok (n := 2) (by have := Nat.two_pow_pos φ.mb; omega)
  have hl := lit_pos (φ := φ) 2 1
  rw [show ((2 : Nat) : Int) = 2 from rfl] at hl
  rw [hl, add_pos ok.mb]
  have h0 : φ.rnd (2 * 2 ^ φ.u) 1 ≠ 0 := by
    intro h; rw [h, φ.mag_zero] at h1
    have := Nat.two_pow_pos φ.u; omega
  by_cases hinf : k = φ.infK
  · simp only [mul, if_pos hinf, if_neg h0]
    refine ext_num rfl ?_
    exact (Nat.le_antisymm (φ.rnd_le_infK ..) (φ.le_rnd ok.mb Nat.one_pos (Nat.le_refl _) (by rw [hinf]; omega))).symm
  · rw [mul_pos hinf (Nat.ne_of_lt h2)]
    refine ext_num rfl ?_
    rw [h1]
    exact φ.rnd_congr ok.mb (Nat.two_pow_pos _) Nat.one_pos (by ring)

theorem zero_div_zero : div (zero false : Fl φ) (zero false) = .nan := by
  have := infK_pos φ
  simp only [zero, div]
  rw [if_neg (by omega), if_neg (by omega)]; simp

end Fl

/-! ### Projections of the IEEE environment -/

section
variable (φ : Fmt)
@[simp] theorem arith_zero : (Fl.arith φ).zero = Fl.zero false := rfl
@[simp] theorem arith_inf : (Fl.arith φ).inf = Fl.inf false := rfl
@[simp] theorem arith_nan : (Fl.arith φ).nan = .nan := rfl
@[simp] theorem arith_add : (Fl.arith φ).add = Fl.add := rfl
@[simp] theorem arith_sub : (Fl.arith φ).sub = Fl.sub := rfl
@[simp] theorem arith_mul : (Fl.arith φ).mul = Fl.mul := rfl
@[simp] theorem arith_div : (Fl.arith φ).div = Fl.div := rfl
@[simp] theorem arith_neg : (Fl.arith φ).neg = Fl.neg := rfl
@[simp] theorem arith_abs : (Fl.arith φ).abs = Fl.abs := rfl
@[simp] theorem arith_lt : (Fl.arith φ).lt = Fl.lt := rfl
@[simp] theorem arith_le : (Fl.arith φ).le = Fl.le := rfl
@[simp] theorem arith_isNan : (Fl.arith φ).isNan = Fl.isNan := rfl
@[simp] theorem arith_ofInt : (Fl.arith φ).ofInt = Fl.ofInt φ := rfl
@[simp] theorem arith_toUint : (Fl.arith φ).toUint = Fl.toUint := rfl
@[simp] theorem arith_lit : (Fl.arith φ).lit = Fl.lit φ := rfl
end

@[simp] theorem ieee_f64 (m : Libm F64) (bs : BSearch) (t : Target) :
    (ieeeEnv m bs t).f64 = Fl.arith Fmt.b64 := rfl
@[simp] theorem ieee_libm (m : Libm F64) (bs : BSearch) (t : Target) : (ieeeEnv m bs t).libm = m := rfl
@[simp] theorem ieee_usizeMax (m : Libm F64) (bs : BSearch) (t : Target) :
    (ieeeEnv m bs t).usizeMax = t.usizeMax := rfl

end Verif
