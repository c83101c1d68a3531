import Verif.Spec.Real
import Verif.Proofs.FloatOps
import Mathlib.Tactic.Linarith
import Mathlib.Tactic.Ring
import Mathlib.Tactic.FieldSimp
import Mathlib.Tactic.Positivity
/-!
# Rounding errors as real inequalities

The result of an operation differs from the exact result by at most half a unit in the last place: the
relative error is at most `eps`, and results in the subnormal range have an absolute error of at most `eta`.
-/

set_option linter.unusedSimpArgs false

namespace Verif
namespace Fl
variable {φ : Fmt}

/-- Half a unit in the last place of 1. -/
noncomputable def eps (φ : Fmt) : ℝ := 1 / (2 * 2 ^ φ.mb)

/-- Half the smallest subnormal. -/
noncomputable def eta (φ : Fmt) : ℝ := 1 / (2 * 2 ^ φ.u)

theorem eps_pos (φ : Fmt) : 0 < eps φ := by unfold eps; positivity
theorem eta_pos (φ : Fmt) : 0 < eta φ := by unfold eta; positivity

theorem eps_le (hmb : 1 ≤ φ.mb) : eps φ ≤ 1 / 4 := by
  unfold eps
  have : (2 : ℝ) ^ 1 ≤ 2 ^ φ.mb := pow_le_pow_right₀ (by norm_num) hmb
  apply one_div_le_one_div_of_le <;> linarith

theorem rnd_real (hmb : 1 ≤ φ.mb) {a b : Nat} (hb : 0 < b) (h : φ.rnd a b ≠ φ.infK) :
    |(φ.mag (φ.rnd a b) : ℝ) - (a : ℝ) / b| ≤ eps φ * φ.mag (φ.rnd a b) + 1 / 2 := by
  have hlt : φ.rnd a b < φ.infK := lt_of_le_of_ne (φ.rnd_le_infK a b) h
  have h1 := φ.rnd_abs_upper hmb (a := a) hb
  have h2 := φ.rnd_abs_lower hmb hb hlt
  generalize φ.mag (φ.rnd a b) = m at *
  have hp : 1 ≤ 2 ^ φ.mb := Nat.one_le_two_pow
  have hbR : (0 : ℝ) < b := by exact_mod_cast hb
  have hpR : (0 : ℝ) < 2 ^ φ.mb := by positivity
  have h1' : (m : ℝ) * (2 * 2 ^ φ.mb - 1) * b ≤ (2 * a + b) * 2 ^ φ.mb := by
    have : ((m * (2 * 2 ^ φ.mb - 1) * b : Nat) : ℝ) ≤ ((2 * a + b) * 2 ^ φ.mb : Nat) := by exact_mod_cast h1
    rw [Nat.cast_mul, Nat.cast_mul, Nat.cast_sub (by omega)] at this
    push_cast at this
    exact this
  have h2' : 2 * (a : ℝ) * 2 ^ φ.mb ≤ (m * (2 * 2 ^ φ.mb + 1) + 2 ^ φ.mb) * b := by exact_mod_cast h2
  have e : eps φ * (2 * 2 ^ φ.mb) = 1 := by unfold eps; field_simp
  rw [abs_le]
  have hk : (0 : ℝ) < 2 * 2 ^ φ.mb * b := by positivity
  have hd : (a : ℝ) / b * b = a := by field_simp
  constructor
  · by_contra hc
    push Not at hc
    have := mul_lt_mul_of_pos_right hc hk
    nlinarith
  · by_contra hc
    push Not at hc
    have := mul_lt_mul_of_pos_right hc hk
    nlinarith

theorem value_ofMag (s : Bool) (n d : Nat) :
    (ofMag φ s n d).value = (if s then -1 else 1) * ((φ.mag (φ.rnd n d) : ℝ) / 2 ^ φ.u) := rfl

theorem finite_ofMag {s : Bool} {n d : Nat} : (ofMag φ s n d).Finite ↔ φ.rnd n d ≠ φ.infK := by
  constructor
  · rintro ⟨s', k, h, he, hk⟩
    unfold ofMag at he
    injection he with _ h2
    rw [h2]; exact hk
  · intro h
    exact ⟨s, _, _, rfl, h⟩

/-- Rounding a signed exact value. -/
theorem ofMag_err (hmb : 1 ≤ φ.mb) {s : Bool} {n d : Nat} (hd : 0 < d) (h : (ofMag φ s n d).Finite) {x : ℝ}
    (hx : x = (if s then -1 else 1) * ((n : ℝ) / d / 2 ^ φ.u)) :
    |(ofMag φ s n d).value - x| ≤ eps φ * |(ofMag φ s n d).value| + eta φ := by
  have hr := rnd_real hmb hd (finite_ofMag.1 h)
  rw [value_ofMag, hx]
  have hs : |(if s then (-1 : ℝ) else 1)| = 1 := by split <;> simp
  have hp : (0 : ℝ) < 2 ^ φ.u := by positivity
  rw [← mul_sub, abs_mul, hs, one_mul, abs_mul, hs, one_mul, ← sub_div, abs_div, abs_of_pos hp, abs_div, abs_of_pos hp,
    abs_of_nonneg (a := (φ.mag (φ.rnd n d) : ℝ)) (Nat.cast_nonneg _), div_le_iff₀ hp]
  unfold eta
  calc _ ≤ _ := hr
    _ = _ := by field_simp

theorem value_zero (s : Bool) : (zero s : Fl φ).value = 0 := by
  unfold zero value
  have : φ.mag 0 = 0 := by simp [Fmt.mag]
  simp [this]

theorem value_num (s : Bool) (k : Nat) (h : k ≤ φ.infK) :
    (.num s k h : Fl φ).value = (smag φ s k : ℝ) / 2 ^ φ.u := by
  unfold value smag
  cases s <;> simp [neg_div]

theorem ofSMag_err (hmb : 1 ≤ φ.mb) {z : Bool} {i : Int} (h : (ofSMag φ z i).Finite) :
    |(ofSMag φ z i).value - (i : ℝ) / 2 ^ φ.u| ≤ eps φ * |(ofSMag φ z i).value| + eta φ := by
  unfold ofSMag at *
  split
  · rename_i h0
    rw [value_zero, h0]
    simp
    exact (eta_pos φ).le
  · rename_i h0
    rw [if_neg h0] at h
    refine ofMag_err hmb (by norm_num) h ?_
    have hp : ((i.natAbs : Nat) : ℝ) = |(i : ℝ)| := by
      rw [← Int.cast_natCast, Int.natCast_natAbs, Int.cast_abs]
    rw [hp]
    by_cases hi : i < 0
    · have : (i : ℝ) < 0 := by exact_mod_cast hi
      simp [hi, abs_of_neg this, neg_div]
    · have : (0 : ℝ) ≤ i := by exact_mod_cast _root_.not_lt.1 hi
      simp [hi, abs_of_nonneg this]

/-- **Addition.** -/
theorem add_err (hmb : 1 ≤ φ.mb) {x y : Fl φ} (hx : x.Finite) (hy : y.Finite) (h : (add x y).Finite) :
    |(add x y).value - (x.value + y.value)| ≤ eps φ * |(add x y).value| + eta φ := by
  obtain ⟨s, k, hk, rfl, k0⟩ := hx
  obtain ⟨t, l, hl, rfl, l0⟩ := hy
  have e : add (.num s k hk : Fl φ) (.num t l hl) = ofSMag φ (s && t) (smag φ s k + smag φ t l) := by
    show (if k = φ.infK then _ else if l = φ.infK then _ else _) = _
    rw [if_neg k0, if_neg l0]
  rw [e] at h ⊢
  have := ofSMag_err hmb h
  rw [value_num, value_num, ← add_div]
  push_cast at this
  exact this

theorem Finite.neg {x : Fl φ} (h : x.Finite) : (neg x).Finite := by
  obtain ⟨s, k, hk, rfl, k0⟩ := h
  exact ⟨!s, k, hk, rfl, k0⟩

theorem value_neg (x : Fl φ) : (Fl.neg x).value = -x.value := by
  cases x with
  | nan => simp [Fl.neg, value]
  | num s k h => cases s <;> simp [Fl.neg, value]

/-- **Subtraction.** -/
theorem sub_err (hmb : 1 ≤ φ.mb) {x y : Fl φ} (hx : x.Finite) (hy : y.Finite) (h : (sub x y).Finite) :
    |(sub x y).value - (x.value - y.value)| ≤ eps φ * |(sub x y).value| + eta φ := by
  have := add_err hmb hx hy.neg h
  rw [value_neg, ← sub_eq_add_neg] at this
  exact this

theorem sign_mul (s t : Bool) (a b : ℝ) :
    ((if s then -1 else 1) * a) * ((if t then -1 else 1) * b) = (if (s ^^ t) then -1 else 1) * (a * b) := by
  cases s <;> cases t <;> simp

/-- **Multiplication.** -/
theorem mul_err (hmb : 1 ≤ φ.mb) {x y : Fl φ} (hx : x.Finite) (hy : y.Finite) (h : (mul x y).Finite) :
    |(mul x y).value - x.value * y.value| ≤ eps φ * |(mul x y).value| + eta φ := by
  obtain ⟨s, k, hk, rfl, k0⟩ := hx
  obtain ⟨t, l, hl, rfl, l0⟩ := hy
  have e : mul (.num s k hk : Fl φ) (.num t l hl) = ofMag φ (s ^^ t) (φ.mag k * φ.mag l) (2 ^ φ.u) := by
    show (if k = φ.infK then _ else if l = φ.infK then _ else _) = _
    rw [if_neg k0, if_neg l0]
  rw [e] at h ⊢
  refine ofMag_err hmb (by positivity) h ?_
  unfold value
  rw [sign_mul]
  push_cast
  congr 1
  field_simp

/-- **Division.** -/
theorem div_err (hmb : 1 ≤ φ.mb) {x y : Fl φ} (hx : x.Finite) (hy : y.Finite) (y0 : y.value ≠ 0)
    (h : (div x y).Finite) :
    |(div x y).value - x.value / y.value| ≤ eps φ * |(div x y).value| + eta φ := by
  obtain ⟨s, k, hk, rfl, k0⟩ := hx
  obtain ⟨t, l, hl, rfl, l0⟩ := hy
  have l1 : l ≠ 0 := by
    intro h0
    subst h0
    exact y0 (value_zero t)
  have e : div (.num s k hk : Fl φ) (.num t l hl) = ofMag φ (s ^^ t) (φ.mag k * 2 ^ φ.u) (φ.mag l) := by
    show (if k = φ.infK then _ else if l = φ.infK then _ else if l = 0 then _ else _) = _
    rw [if_neg k0, if_neg l0, if_neg l1]
  rw [e] at h ⊢
  have hl : 0 < φ.mag l := mag_pos_iff.2 (by omega)
  refine ofMag_err hmb hl h ?_
  have hlR : (0 : ℝ) < φ.mag l := by exact_mod_cast hl
  unfold value
  cases s <;> cases t <;> simp <;> field_simp

/-- **Literals.** -/
theorem lit_err (hmb : 1 ≤ φ.mb) {n : Int} {d : Nat} (hd : 0 < d) (h : (lit φ n d).Finite) :
    |(lit φ n d).value - (n : ℝ) / d| ≤ eps φ * |(lit φ n d).value| + eta φ := by
  refine ofMag_err hmb hd h ?_
  have hp : ((n.natAbs : Nat) : ℝ) = |(n : ℝ)| := by
    rw [← Int.cast_natCast, Int.natCast_natAbs, Int.cast_abs]
  push_cast
  rw [hp]
  have hdR : (0 : ℝ) < d := by exact_mod_cast hd
  by_cases hi : n < 0
  · have : (n : ℝ) < 0 := by exact_mod_cast hi
    simp only [hi, decide_true, if_true, abs_of_neg this]
    field_simp
  · have : (0 : ℝ) ≤ n := by exact_mod_cast _root_.not_lt.1 hi
    simp only [hi, decide_false, Bool.false_eq_true, if_false, abs_of_nonneg this]
    field_simp

/-- Small integers are exact. -/
theorem value_ofInt (ok : φ.Ok) {n : Nat} (hn : n ≤ 2 * 2 ^ φ.mb) :
    (ofInt φ (n : Int)).value = n ∧ (ofInt φ (n : Int)).Finite := by
  obtain ⟨h1, h2⟩ := mag_rnd_int ok hn
  rw [ofInt_pos]
  refine ⟨?_, ⟨false, _, _, rfl, h2.ne⟩⟩
  rw [value_num]
  simp only [smag, Bool.false_eq_true, if_false, h1]
  push_cast
  field_simp

theorem value_nonneg {x : Fl φ} (h : x.value ≠ 0 → ∃ k hk, x = .num false k hk) : 0 ≤ x.value := by
  by_cases h0 : x.value = 0
  · rw [h0]
  · obtain ⟨k, hk, rfl⟩ := h h0
    unfold value
    simp
    positivity

/-! ## No overflow -/

/-- A bound below which nothing overflows (`2^1023` for `f64`). -/
noncomputable def top (φ : Fmt) : ℝ := 2 * 2 ^ φ.mb * 2 ^ (φ.emax - 2) / 2 ^ φ.u

theorem ofMag_finite (ok : φ.Ok) {s : Bool} {n d : Nat} (hd : 0 < d)
    (h : (n : ℝ) / d / 2 ^ φ.u ≤ top φ) : (ofMag φ s n d).Finite := by
  rw [finite_ofMag]
  have o1 := ok.u
  have o2 := ok.e
  obtain ⟨k, h1, h2⟩ := exists_mag φ (2 * 2 ^ φ.mb) (φ.emax - 2) (Nat.le_refl _) (by omega) (by omega)
  have hdR : (0 : ℝ) < d := by exact_mod_cast hd
  have h3 := φ.rnd_le ok.mb hd h1.le (a := n) (by
    rw [h2]
    unfold top at h
    rw [div_le_div_iff_of_pos_right (by positivity), div_le_iff₀ hdR] at h
    exact_mod_cast h)
  omega

theorem mul_finite (ok : φ.Ok) {x y : Fl φ} (hx : x.Finite) (hy : y.Finite)
    (h : |x.value * y.value| ≤ top φ) : (mul x y).Finite := by
  obtain ⟨s, k, hk, rfl, k0⟩ := hx
  obtain ⟨t, l, hl, rfl, l0⟩ := hy
  have e : mul (.num s k hk : Fl φ) (.num t l hl) = ofMag φ (s ^^ t) (φ.mag k * φ.mag l) (2 ^ φ.u) := by
    show (if k = φ.infK then _ else if l = φ.infK then _ else _) = _
    rw [if_neg k0, if_neg l0]
  rw [e]
  refine ofMag_finite ok (by positivity) (_root_.le_trans (le_of_eq ?_) h)
  unfold value
  rw [sign_mul, abs_mul]
  have : |(if (s ^^ t) = true then (-1 : ℝ) else 1)| = 1 := by split <;> simp
  rw [this, one_mul, abs_of_nonneg (by positivity)]
  push_cast
  field_simp

theorem div_finite (ok : φ.Ok) {x y : Fl φ} (hx : x.Finite) (hy : y.Finite) (y0 : y.value ≠ 0)
    (h : |x.value / y.value| ≤ top φ) : (div x y).Finite := by
  obtain ⟨s, k, hk, rfl, k0⟩ := hx
  obtain ⟨t, l, hl, rfl, l0⟩ := hy
  have l1 : l ≠ 0 := by
    intro h0
    subst h0
    exact y0 (value_zero t)
  have e : div (.num s k hk : Fl φ) (.num t l hl) = ofMag φ (s ^^ t) (φ.mag k * 2 ^ φ.u) (φ.mag l) := by
    show (if k = φ.infK then _ else if l = φ.infK then _ else if l = 0 then _ else _) = _
    rw [if_neg k0, if_neg l0, if_neg l1]
  rw [e]
  have hl : 0 < φ.mag l := mag_pos_iff.2 (by omega)
  refine ofMag_finite ok hl (_root_.le_trans (le_of_eq ?_) h)
  have hlR : (0 : ℝ) < φ.mag l := by exact_mod_cast hl
  unfold value
  rw [abs_div, abs_mul, abs_mul]
  have : ∀ b : Bool, |(if b = true then (-1 : ℝ) else 1)| = 1 := by intro b; cases b <;> simp
  rw [this, this, one_mul, one_mul, abs_of_nonneg (by positivity), abs_of_nonneg (by positivity)]
  push_cast
  field_simp

theorem add_finite (ok : φ.Ok) {x y : Fl φ} (hx : x.Finite) (hy : y.Finite)
    (h : |x.value + y.value| ≤ top φ) : (add x y).Finite := by
  obtain ⟨s, k, hk, rfl, k0⟩ := hx
  obtain ⟨t, l, hl, rfl, l0⟩ := hy
  have e : add (.num s k hk : Fl φ) (.num t l hl) = ofSMag φ (s && t) (smag φ s k + smag φ t l) := by
    show (if k = φ.infK then _ else if l = φ.infK then _ else _) = _
    rw [if_neg k0, if_neg l0]
  rw [e]
  unfold ofSMag
  split
  · refine ⟨_, 0, _, rfl, ?_⟩
    unfold Fmt.infK
    positivity
  · refine ofMag_finite ok (by norm_num) (_root_.le_trans (le_of_eq ?_) h)
    rw [value_num, value_num, ← add_div, abs_div, abs_of_nonneg (a := (2 : ℝ) ^ φ.u) (by positivity)]
    have hp : (((smag φ s k + smag φ t l).natAbs : Nat) : ℝ) = |((smag φ s k + smag φ t l : Int) : ℝ)| := by
      rw [← Int.cast_natCast, Int.natCast_natAbs, Int.cast_abs]
    rw [hp]
    push_cast
    rw [div_one]

theorem sub_finite (ok : φ.Ok) {x y : Fl φ} (hx : x.Finite) (hy : y.Finite)
    (h : |x.value - y.value| ≤ top φ) : (sub x y).Finite :=
  add_finite ok hx hy.neg (by rw [value_neg, ← sub_eq_add_neg]; exact h)

theorem lit_finite_int (ok : φ.Ok) {n : Int} {d : Nat} (hd : 0 < d) (h : |(n : ℝ)| ≤ d * top φ) :
    (lit φ n d).Finite := by
  have hdR : (0 : ℝ) < d := by exact_mod_cast hd
  refine ofMag_finite ok hd ?_
  have hp : ((n.natAbs : Nat) : ℝ) = |(n : ℝ)| := by
    rw [← Int.cast_natCast, Int.natCast_natAbs, Int.cast_abs]
  push_cast
  rw [hp, div_div, div_le_iff₀ (by positivity)]
  have h2 : (0 : ℝ) < 2 ^ φ.u := by positivity
  nlinarith

theorem lit_finite (ok : φ.Ok) {n d : Nat} (hd : 0 < d) (h : (n : ℝ) ≤ d * top φ) : (lit φ n d).Finite :=
  lit_finite_int ok hd (by rw [Int.cast_natCast, abs_of_nonneg (by positivity)]; exact h)

end Fl
end Verif
