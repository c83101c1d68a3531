import Verif.Model.Filter
import Verif.Proofs.FloatOps
/-!
# Peaks as magnitude patterns

A running maximum of absolute values, started at zero, is always a non-negative number; it is
described here by its magnitude pattern, on which the maximum is that of the natural numbers.
-/

namespace Verif

theorem Fmt.mb64 : Fmt.b64.mb = 52 := rfl
theorem Fmt.mb32 : Fmt.b32.mb = 23 := rfl

namespace Fl
variable {φ : Fmt}

/-- The non-negative number with pattern `k` (capped at infinity). -/
def pk (φ : Fmt) (k : Nat) : Fl φ := .num false (min k φ.infK) (Nat.min_le_right _ _)

/-- The magnitude pattern of a number, 0 for NaN. -/
def mkey : Fl φ → Nat
  | .nan => 0
  | .num _ k _ => k

theorem mkey_le (x : Fl φ) : mkey x ≤ φ.infK := by
  cases x with
  | nan => exact Nat.zero_le _
  | num s k h => exact h

theorem pk_eq {k : Nat} (h : k ≤ φ.infK) : pk φ k = .num false k h := ext_num rfl (Nat.min_eq_left h)
@[simp] theorem mkey_pk (k : Nat) : mkey (pk φ k) = min k φ.infK := rfl
@[simp] theorem mkey_abs (x : Fl φ) : mkey (abs x) = mkey x := by cases x <;> rfl
@[simp] theorem mkey_neg (x : Fl φ) : mkey (neg x) = mkey x := by cases x <;> rfl
@[simp] theorem isNan_pk (k : Nat) : isNan (pk φ k) = false := rfl
theorem pk_min (k : Nat) : pk φ (min k φ.infK) = pk φ k := ext_num rfl (by omega)
theorem zero_eq_pk : (zero false : Fl φ) = pk φ 0 := ext_num rfl (by omega)
theorem pk_inj {a b : Nat} (ha : a ≤ φ.infK) (hb : b ≤ φ.infK) (h : pk φ a = pk φ b) : a = b := by
  have := congrArg mkey h
  simp only [mkey_pk] at this; omega

theorem maxBy_pk (a b : Nat) : maxBy lt (pk φ a) (pk φ b) = pk φ (max a b) := by
  unfold maxBy pk
  rw [lt_pos]
  by_cases h : min a φ.infK < min b φ.infK
  · rw [if_pos (by simpa using h)]; exact ext_num rfl (by omega)
  · rw [if_neg (by simpa using h)]; exact ext_num rfl (by omega)

/-- Taking an absolute value into a running maximum: NaN is ignored. -/
theorem maxBy_abs (a : Nat) (x : Fl φ) : maxBy lt (pk φ a) (abs x) = pk φ (max a (mkey x)) := by
  cases x with
  | nan => simp only [abs, mkey, maxBy, lt_nan]; exact ext_num rfl (by omega)
  | num s k h =>
    have : abs (.num s k h) = pk φ k := (pk_eq h).symm
    rw [this, maxBy_pk]; rfl

theorem le_pk {a b : Nat} (h : a ≤ b) : le (pk φ a) (pk φ b) = true := by
  unfold pk; rw [le_pos]; simp only [decide_eq_true_eq]; omega

theorem le_of_le_pk {a b : Nat} (ha : a ≤ φ.infK) (h : le (pk φ a) (pk φ b) = true) : a ≤ b := by
  unfold pk at h; rw [le_pos] at h; simp only [decide_eq_true_eq] at h; omega

/-- The pattern after a flush to zero. -/
def fkey (t : Target) (φ : Fmt) (k : Nat) : Nat := if t.sse2 = true ∧ k < 2 ^ φ.mb then 0 else k

theorem fkey_zero (t : Target) : fkey t φ 0 = 0 := by unfold fkey; split <;> rfl
theorem fkey_le (t : Target) (k : Nat) : fkey t φ k ≤ k := by unfold fkey; split <;> omega
theorem fkey_mono (t : Target) {k l : Nat} (h : k ≤ l) : fkey t φ k ≤ fkey t φ l := by
  unfold fkey; split
  · exact Nat.zero_le _
  · split
    · have : t.sse2 = true := by rename_i h; exact h.1
      simp_all; omega
    · exact h
theorem fkey_idem (t : Target) (k : Nat) : fkey t φ (fkey t φ k) = fkey t φ k := by
  unfold fkey; split
  · split <;> rfl
  · rfl

/-- The flush performed inside `with_ftz` on this target. -/
def flush (t : Target) (x : Fl φ) : Fl φ := if t.sse2 then ftz x else x

theorem mkey_flush (t : Target) (x : Fl φ) : mkey (flush t x) = fkey t φ (mkey x) := by
  unfold flush fkey
  cases x with
  | nan => split <;> simp [ftz, mkey]
  | num s k h =>
    by_cases h1 : t.sse2 <;> by_cases h2 : k < 2 ^ φ.mb <;> simp [h1, h2, ftz, mkey, zero]

theorem flush_pk (t : Target) (k : Nat) (h : k ≤ φ.infK) : flush t (pk φ k) = pk φ (fkey t φ k) := by
  rw [pk_eq h]
  unfold flush fkey
  by_cases h1 : t.sse2 <;> by_cases h2 : k < 2 ^ φ.mb <;> simp [h1, h2, ftz, zero_eq_pk, pk_eq h]

end Fl

section
variable (m : Libm F64) (bs : BSearch) (t : Target)
@[simp] theorem ieee_p_lt : (ieeeEnv m bs t).f64p.lt = Fl.lt := by rcases t with ⟨_ | _, _, _⟩ <;> rfl
@[simp] theorem ieee_p_abs : (ieeeEnv m bs t).f64p.abs = Fl.abs := by rcases t with ⟨_ | _, _, _⟩ <;> rfl
@[simp] theorem ieee_p_zero : (ieeeEnv m bs t).f64p.zero = Fl.zero false := by
  rcases t with ⟨_ | _, _, _⟩ <;> rfl
@[simp] theorem ieee_p_lit : (ieeeEnv m bs t).f64p.lit = Fl.lit Fmt.b64 := by
  rcases t with ⟨_ | _, _, _⟩ <;> rfl
@[simp] theorem ieee_p_ofInt : (ieeeEnv m bs t).f64p.ofInt = Fl.ofInt Fmt.b64 := by
  rcases t with ⟨_ | _, _, _⟩ <;> rfl
@[simp] theorem ieee_p_neg : (ieeeEnv m bs t).f64p.neg = Fl.neg := by rcases t with ⟨_ | _, _, _⟩ <;> rfl
theorem ieee_p_div (x y : F64) : (ieeeEnv m bs t).f64p.div x y = Fl.flush t (Fl.div x y) := by
  rcases t with ⟨_ | _, _, _⟩ <;> rfl
theorem ieee_p_mul (x y : F64) : (ieeeEnv m bs t).f64p.mul x y = Fl.flush t (Fl.mul x y) := by
  rcases t with ⟨_ | _, _, _⟩ <;> rfl
theorem ieee_p_add (x y : F64) : (ieeeEnv m bs t).f64p.add x y = Fl.flush t (Fl.add x y) := by
  rcases t with ⟨_ | _, _, _⟩ <;> rfl
theorem ieee_p_sub (x y : F64) : (ieeeEnv m bs t).f64p.sub x y = Fl.flush t (Fl.sub x y) := by
  rcases t with ⟨_ | _, _, _⟩ <;> rfl
@[simp] theorem ieee_q_lt : (ieeeEnv m bs t).f32p.lt = Fl.lt := by rcases t with ⟨_ | _, _, _⟩ <;> rfl
@[simp] theorem ieee_q_abs : (ieeeEnv m bs t).f32p.abs = Fl.abs := by rcases t with ⟨_ | _, _, _⟩ <;> rfl
@[simp] theorem ieee_q_zero : (ieeeEnv m bs t).f32p.zero = Fl.zero false := by
  rcases t with ⟨_ | _, _, _⟩ <;> rfl
@[simp] theorem ieee_q_lit : (ieeeEnv m bs t).f32p.lit = Fl.lit Fmt.b32 := by
  rcases t with ⟨_ | _, _, _⟩ <;> rfl
@[simp] theorem ieee_q_ofInt : (ieeeEnv m bs t).f32p.ofInt = Fl.ofInt Fmt.b32 := by
  rcases t with ⟨_ | _, _, _⟩ <;> rfl
theorem ieee_q_div (x y : F32) : (ieeeEnv m bs t).f32p.div x y = Fl.flush t (Fl.div x y) := by
  rcases t with ⟨_ | _, _, _⟩ <;> rfl
theorem ieee_q_mul (x y : F32) : (ieeeEnv m bs t).f32p.mul x y = Fl.flush t (Fl.mul x y) := by
  rcases t with ⟨_ | _, _, _⟩ <;> rfl
theorem ieee_widen : (ieeeEnv m bs t).widen = Fl.cast Fmt.b64 := rfl
theorem ieee_narrow : (ieeeEnv m bs t).narrow = Fl.cast Fmt.b32 := rfl
theorem ieee_narrowP (x : F64) : (ieeeEnv m bs t).narrowP x = Fl.flush t (Fl.cast Fmt.b32 x) := by
  rcases t with ⟨_ | _, _, _⟩ <;> rfl
/-- A multiply-add step always ends with a flushed result. -/
theorem ieee_scaleAdd (a x c : F32) : ∃ y, (ieeeEnv m bs t).scaleAdd a x c = Fl.flush t y := by
  rcases t with ⟨_ | _, _ | _, _⟩ <;> exact ⟨_, rfl⟩
@[simp] theorem ieee_noFtz : (ieeeEnv m bs t).noFtz = !t.sse2 := rfl
end

namespace Fl
variable {φ : Fmt}

/-! ## Division by the full-scale amplitude -/

/-- Pattern of `(pattern k) / (pattern l)` computed inside `with_ftz`. -/
def divKey (t : Target) (l k : Nat) : Nat :=
  fkey t Fmt.b64 (if k < Fmt.b64.infK then Fmt.b64.rnd (Fmt.b64.mag k * 2 ^ Fmt.b64.u) (Fmt.b64.mag l)
    else Fmt.b64.infK)

theorem divKey_le (t : Target) (l k : Nat) : divKey t l k ≤ Fmt.b64.infK := by
  unfold divKey
  refine Nat.le_trans (fkey_le _ _) ?_
  split
  · exact Fmt.rnd_le_infK ..
  · exact Nat.le_refl _

theorem divKey_mono (t : Target) {l : Nat} (hl : 0 < l) {j k : Nat} (h : j ≤ k) :
    divKey t l j ≤ divKey t l k := by
  unfold divKey
  apply fkey_mono
  split
  · split
    · apply Fmt.rnd_mono _ Fmt.ok64.mb (mag_pos_iff.2 hl) (mag_pos_iff.2 hl)
      exact Nat.mul_le_mul_right _ (Nat.mul_le_mul_right _ (Fmt.mag_le _ h))
    · exact Fmt.rnd_le_infK ..
  · rw [if_neg (by omega)]

theorem divKey_zero (t : Target) {l : Nat} (hl : 0 < l) : divKey t l 0 = 0 := by
  unfold divKey
  rw [if_pos (infK_pos _), Fmt.mag_zero, Nat.zero_mul, Fmt.rnd_zero _ Fmt.ok64.mb (mag_pos_iff.2 hl), fkey_zero]

theorem divKey_max (t : Target) {l : Nat} (hl : 0 < l) (j k : Nat) :
    divKey t l (max j k) = max (divKey t l j) (divKey t l k) := by
  rcases Nat.le_total j k with h | h
  · rw [Nat.max_eq_right h, Nat.max_eq_right (divKey_mono t hl h)]
  · rw [Nat.max_eq_left h, Nat.max_eq_left (divKey_mono t hl h)]

theorem div_pk (m : Libm F64) (bs : BSearch) (t : Target) {l : Nat} (hl : 0 < l) (hi : l < Fmt.b64.infK)
    {k : Nat} (hk : k ≤ Fmt.b64.infK) :
    (ieeeEnv m bs t).f64p.div (pk _ k) (pk _ l) = pk _ (divKey t l k) := by
  rw [ieee_p_div]
  unfold divKey
  by_cases h : k < Fmt.b64.infK
  · rw [if_pos h, pk_eq hk, pk_eq (Nat.le_of_lt hi), div_pos (by omega) (by omega) (by omega),
      ← pk_eq, flush_pk _ _ (Fmt.rnd_le_infK ..)]
  · have hk' : k = Fmt.b64.infK := by omega
    subst hk'
    rw [if_neg h, ← flush_pk _ _ (Nat.le_refl _), pk_eq (Nat.le_refl _), pk_eq (Nat.le_of_lt hi)]
    congr 1
    simp only [div]
    rw [if_pos trivial, if_neg (by omega)]
    rfl

/-! ## Widening an `f32` pattern to `f64` -/

/-- Every finite magnitude is a short mantissa times a power of two. -/
theorem mag_form {φ : Fmt} (ho : φ.Ok) {k : Nat} (hk : k < φ.infK) :
    ∃ mt e, mt < 2 * 2 ^ φ.mb ∧ e < φ.emax ∧ φ.mag k = mt * 2 ^ e := by
  have hB : 0 < 2 ^ φ.mb := Nat.two_pow_pos _
  have hm := Nat.mod_lt k hB
  unfold Fmt.mag
  split
  · exact ⟨k % 2 ^ φ.mb, 0, by omega, by have := ho.e; omega, by simp⟩
  · refine ⟨2 ^ φ.mb + k % 2 ^ φ.mb, k / 2 ^ φ.mb - 1, by omega, ?_, rfl⟩
    have : k / 2 ^ φ.mb < φ.emax + 1 := Nat.div_lt_of_lt_mul (by rw [Nat.mul_comm]; exact hk)
    rename_i h0
    revert this h0
    generalize k / 2 ^ φ.mb = j
    intro h1 h0
    omega

/-- The pattern of an `f32` pattern converted to `f64`. -/
def wkey (q : Nat) : Nat :=
  if q < Fmt.b32.infK then Fmt.b64.rnd (Fmt.b32.mag q * 2 ^ Fmt.b64.u) (2 ^ Fmt.b32.u) else Fmt.b64.infK

theorem wkey_le (q : Nat) : wkey q ≤ Fmt.b64.infK := by
  unfold wkey; split
  · exact Fmt.rnd_le_infK ..
  · exact Nat.le_refl _

theorem wkey_mono {p q : Nat} (h : p ≤ q) : wkey p ≤ wkey q := by
  unfold wkey
  split
  · split
    · apply Fmt.rnd_mono _ Fmt.ok64.mb (Nat.two_pow_pos _) (Nat.two_pow_pos _)
      exact Nat.mul_le_mul_right _ (Nat.mul_le_mul_right _ (Fmt.mag_le _ h))
    · exact Fmt.rnd_le_infK ..
  · rw [if_neg (by omega)]

theorem wkey_max (p q : Nat) : wkey (max p q) = max (wkey p) (wkey q) := by
  rcases Nat.le_total p q with h | h
  · rw [Nat.max_eq_right h, Nat.max_eq_right (wkey_mono h)]
  · rw [Nat.max_eq_left h, Nat.max_eq_left (wkey_mono h)]

theorem wkey_zero : wkey 0 = 0 := by
  unfold wkey
  rw [if_pos (infK_pos _), Fmt.mag_zero, Nat.zero_mul, Fmt.rnd_zero _ Fmt.ok64.mb (Nat.two_pow_pos _)]

theorem cast_num {φ ψ : Fmt} (s : Bool) {k : Nat} (hk : k ≤ φ.infK) :
    mkey (cast ψ (.num s k hk : Fl φ)) =
      if k < φ.infK then ψ.rnd (φ.mag k * 2 ^ ψ.u) (2 ^ φ.u) else ψ.infK := by
  simp only [cast]
  by_cases h : k = φ.infK
  · rw [if_pos h, if_neg (by omega)]; rfl
  · rw [if_neg h, if_pos (by omega)]; rfl

theorem cast_pk {q : Nat} (hq : q ≤ Fmt.b32.infK) : cast Fmt.b64 (pk Fmt.b32 q) = pk Fmt.b64 (wkey q) := by
  rw [pk_eq hq, pk_eq (wkey_le q)]
  unfold wkey cast
  by_cases h : q = Fmt.b32.infK
  · simp only [if_pos h]; exact ext_num rfl (by rw [if_neg (by omega)])
  · simp only [if_neg h]; exact ext_num rfl (by rw [if_pos (by omega)])

theorem abs_eq_pk {x : Fl φ} (h : x ≠ .nan) : abs x = pk φ (mkey x) := by
  cases x with
  | nan => exact absurd rfl h
  | num s k hk => exact (pk_eq hk).symm

/-- Widening is exact. -/
theorem mag_wkey {q : Nat} (hq : q < Fmt.b32.infK) :
    wkey q < Fmt.b64.infK ∧ Fmt.b64.mag (wkey q) * 2 ^ Fmt.b32.u = Fmt.b32.mag q * 2 ^ Fmt.b64.u := by
  obtain ⟨mt, e, h1, h2, h3⟩ := mag_form Fmt.ok32 hq
  have hmb : 2 * 2 ^ Fmt.b32.mb ≤ 2 * 2 ^ Fmt.b64.mb :=
    Nat.mul_le_mul_left 2 (Nat.pow_le_pow_right (by omega) (by decide))
  have he : Fmt.b32.emax = 254 := rfl
  have hE : Fmt.b64.emax = 2046 := rfl
  have hM : Fmt.b64.mb = 52 := rfl
  obtain ⟨d, hu, hd1, hd2⟩ : ∃ d, Fmt.b64.u = d + Fmt.b32.u ∧ 52 ≤ d ∧ d ≤ 1000 :=
    ⟨925, rfl, by decide, by decide⟩
  obtain ⟨k, hk, hk2⟩ := exists_mag Fmt.b64 mt (e + d) (by omega) (by omega) (by omega)
  have hp : 2 ^ Fmt.b64.u = 2 ^ d * 2 ^ Fmt.b32.u := by rw [hu, Nat.pow_add]
  have key : Fmt.b64.mag k * 2 ^ Fmt.b32.u = Fmt.b32.mag q * 2 ^ Fmt.b64.u := by
    rw [hk2, h3, hp, Nat.pow_add]
    generalize 2 ^ Fmt.b32.u = x
    generalize 2 ^ d = y
    generalize 2 ^ e = z
    ac_rfl
  have hw : wkey q = k := by
    unfold wkey
    rw [if_pos hq, ← key, Fmt.rnd_mag _ Fmt.ok64.mb (Nat.le_of_lt hk) (Nat.two_pow_pos _)]
  rw [hw]; exact ⟨hk, key⟩

theorem wkey_inf {q : Nat} (hq : q ≤ Fmt.b32.infK) : wkey q = Fmt.b64.infK ↔ q = Fmt.b32.infK := by
  constructor
  · intro h
    by_contra hc
    have := (mag_wkey (q := q) (by omega)).1
    omega
  · intro h; unfold wkey; rw [if_neg (by omega)]

/-- Widening and narrowing again gives back the pattern. -/
theorem cast_cast {q : Nat} (hq : q ≤ Fmt.b32.infK) :
    cast Fmt.b32 (pk Fmt.b64 (wkey q)) = pk Fmt.b32 q := by
  rw [pk_eq (wkey_le q), pk_eq hq]
  by_cases h : q = Fmt.b32.infK
  · have hw := (wkey_inf hq).2 h
    simp only [cast, if_pos hw]
    exact ext_num rfl h.symm
  · have hlt : q < Fmt.b32.infK := by omega
    obtain ⟨h1, h2⟩ := mag_wkey hlt
    simp only [cast, if_neg (Nat.ne_of_lt h1)]
    exact ext_num rfl (by rw [h2, Fmt.rnd_mag _ Fmt.ok32.mb hq (Nat.two_pow_pos _)])

theorem narrowP_wkey (m : Libm F64) (bs : BSearch) (t : Target) {q : Nat} (hq : q ≤ Fmt.b32.infK) :
    (ieeeEnv m bs t).narrowP (pk _ (wkey q)) = pk _ (fkey t Fmt.b32 q) := by
  rw [ieee_narrowP, cast_cast hq, flush_pk _ _ hq]

end Fl
end Verif
