import Verif.Proofs.FloatErr
/-!
# Accumulating rounding errors

`Near φ n h x X`: up to an absolute error `h`, the ratio of `x` and `X` is at most the product of `n` rounding
errors, in either direction.
-/

namespace Verif
namespace Fl
variable {φ : Fmt}

/-- The largest factor by which one rounding changes a number. -/
noncomputable def grow (φ : Fmt) : ℝ := 1 / (1 - eps φ)

theorem one_le_grow (hmb : 1 ≤ φ.mb) : 1 ≤ grow φ := by
  have := eps_le hmb
  have := eps_pos φ
  unfold grow
  rw [le_div_iff₀ (by linarith)]
  linarith

theorem grow_mul (hmb : 1 ≤ φ.mb) : grow φ * (1 - eps φ) = 1 := by
  have := eps_le hmb
  unfold grow
  field_simp
  rw [div_self]
  linarith

/-- See the head of the file. -/
def Near (φ : Fmt) (n : Nat) (h x X : ℝ) : Prop := x ≤ grow φ ^ n * (X + h) ∧ X ≤ grow φ ^ n * (x + h)

theorem Near.refl (x : ℝ) : Near φ 0 0 x x := by unfold Near; simp

theorem Near.mono (hmb : 1 ≤ φ.mb) {n m : Nat} {h k x X : ℝ} (hn : n ≤ m) (hh : h ≤ k) (h0 : 0 ≤ h) (hx : 0 ≤ x)
    (hX : 0 ≤ X) (H : Near φ n h x X) : Near φ m k x X := by
  have g := one_le_grow hmb
  have e : grow φ ^ n ≤ grow φ ^ m := pow_le_pow_right₀ g hn
  have p : 0 ≤ grow φ ^ n := by positivity
  constructor
  · calc x ≤ grow φ ^ n * (X + h) := H.1
      _ ≤ grow φ ^ m * (X + k) := mul_le_mul e (by linarith) (by linarith) (by positivity)
  · calc X ≤ grow φ ^ n * (x + h) := H.2
      _ ≤ grow φ ^ m * (x + k) := mul_le_mul e (by linarith) (by linarith) (by positivity)

theorem Near.trans (hmb : 1 ≤ φ.mb) {n m : Nat} {h k x X Y : ℝ} (h0 : 0 ≤ h) (k0 : 0 ≤ k) (H : Near φ n h x X)
    (K : Near φ m k X Y) : Near φ (n + m) (h + k) x Y := by
  have g := one_le_grow hmb
  have gn : 1 ≤ grow φ ^ n := one_le_pow₀ g
  have gm : 1 ≤ grow φ ^ m := one_le_pow₀ g
  rw [Near, pow_add]
  constructor
  · calc x ≤ grow φ ^ n * (X + h) := H.1
      _ ≤ grow φ ^ n * (grow φ ^ m * (Y + k) + grow φ ^ m * h) := by
        apply mul_le_mul_of_nonneg_left _ (by linarith)
        have := K.1
        have := mul_le_mul_of_nonneg_right gm h0
        linarith
      _ = _ := by ring
  · calc Y ≤ grow φ ^ m * (X + k) := K.2
      _ ≤ grow φ ^ m * (grow φ ^ n * (x + h) + grow φ ^ n * k) := by
        apply mul_le_mul_of_nonneg_left _ (by linarith)
        have := H.2
        have := mul_le_mul_of_nonneg_right gn k0
        linarith
      _ = _ := by ring

theorem Near.add {n : Nat} {h k x y X Y : ℝ} (H : Near φ n h x X) (K : Near φ n k y Y) :
    Near φ n (h + k) (x + y) (X + Y) := by
  constructor
  · have h1 := H.1
    have h2 := K.1
    calc x + y ≤ _ + _ := add_le_add h1 h2
      _ = _ := by ring
  · have h1 := H.2
    have h2 := K.2
    calc X + Y ≤ _ + _ := add_le_add h1 h2
      _ = _ := by ring

theorem Near.scale {n : Nat} {h x X c : ℝ} (hc : 0 ≤ c) (H : Near φ n h x X) : Near φ n (c * h) (c * x) (c * X) := by
  constructor
  · calc c * x ≤ c * _ := mul_le_mul_of_nonneg_left H.1 hc
      _ = _ := by ring
  · calc c * X ≤ c * _ := mul_le_mul_of_nonneg_left H.2 hc
      _ = _ := by ring

theorem Near.mul (hmb : 1 ≤ φ.mb) {n m : Nat} {h x X y Y b : ℝ} (hx : 0 ≤ x) (hX : 0 ≤ X) (h0 : 0 ≤ h) (hy : 0 ≤ y)
    (hY : 0 ≤ Y) (yb : y ≤ b) (Yb : Y ≤ b) (H : Near φ n h x X) (K : Near φ m 0 y Y) :
    Near φ (n + m) (h * b) (x * y) (X * Y) := by
  have g := one_le_grow hmb
  have gn : 0 ≤ grow φ ^ n := by positivity
  have gm : 0 ≤ grow φ ^ m := by positivity
  have k1 := K.1
  have k2 := K.2
  rw [add_zero] at k1 k2
  rw [Near, pow_add]
  constructor
  · calc x * y ≤ (grow φ ^ n * (X + h)) * (grow φ ^ m * Y) := mul_le_mul H.1 k1 hy (by positivity)
      _ = grow φ ^ n * grow φ ^ m * (X * Y + h * Y) := by ring
      _ ≤ _ := by
        apply mul_le_mul_of_nonneg_left _ (by positivity)
        have := mul_le_mul_of_nonneg_left Yb h0
        linarith
  · calc X * Y ≤ (grow φ ^ n * (x + h)) * (grow φ ^ m * y) := mul_le_mul H.2 k2 hY (by positivity)
      _ = grow φ ^ n * grow φ ^ m * (x * y + h * y) := by ring
      _ ≤ _ := by
        apply mul_le_mul_of_nonneg_left _ (by positivity)
        have := mul_le_mul_of_nonneg_left yb h0
        linarith

/-- One rounding. -/
theorem Near.round (hmb : 1 ≤ φ.mb) {x X : ℝ} (hx : 0 ≤ x) (h : |x - X| ≤ eps φ * |x| + eta φ) :
    Near φ 1 (eta φ) x X := by
  rw [abs_of_nonneg hx, abs_le] at h
  have g := one_le_grow hmb
  have gm := grow_mul hmb
  have e0 := eps_pos φ
  have n0 := eta_pos φ
  rw [Near, pow_one]
  constructor
  · calc x = grow φ * (1 - eps φ) * x := by rw [gm, one_mul]
      _ = grow φ * (x - eps φ * x) := by ring
      _ ≤ _ := by
        apply mul_le_mul_of_nonneg_left _ (by linarith)
        linarith
  · have h1 : 1 + eps φ ≤ grow φ := by
      have := eps_le hmb
      unfold grow
      rw [le_div_iff₀ (by linarith)]
      nlinarith
    calc X ≤ (1 + eps φ) * x + eta φ := by linarith
      _ ≤ grow φ * x + grow φ * eta φ := by
        have := mul_le_mul_of_nonneg_right h1 hx
        have := mul_le_mul_of_nonneg_right g n0.le
        linarith
      _ = _ := by ring

/-- Many roundings, to first order. -/
theorem grow_pow_le (hmb : 1 ≤ φ.mb) {n : Nat} (hn : n * eps φ ≤ 1 / 2) : grow φ ^ n ≤ 1 + 2 * n * eps φ := by
  have e0 := eps_pos φ
  have e1 := eps_le hmb
  have hb : 1 - n * eps φ ≤ (1 - eps φ) ^ n := by
    have := one_add_mul_le_pow (a := -eps φ) (by linarith) n
    calc 1 - n * eps φ = 1 + n * -eps φ := by ring
      _ ≤ (1 + -eps φ) ^ n := this
      _ = _ := by ring_nf
  unfold grow
  rw [div_pow, one_pow, div_le_iff₀ (by apply pow_pos; linarith)]
  have hn0 : 0 ≤ n * eps φ := by positivity
  calc (1 : ℝ) ≤ (1 + 2 * n * eps φ) * (1 - n * eps φ) := by nlinarith
    _ ≤ _ := mul_le_mul_of_nonneg_left hb (by positivity)

theorem Near.abs_le (hmb : 1 ≤ φ.mb) {n : Nat} {h x X : ℝ} (hn : n * eps φ ≤ 1 / 2) (h0 : 0 ≤ h) (hX : 0 ≤ X)
    (H : Near φ n h x X) : |x - X| ≤ 2 * n * eps φ * X + 2 * h := by
  have g := grow_pow_le hmb hn
  have g1 : 1 ≤ grow φ ^ n := one_le_pow₀ (one_le_grow hmb)
  have e0 := eps_pos φ
  have hn0 : 0 ≤ n * eps φ := by positivity
  have g2 : grow φ ^ n ≤ 2 := by linarith
  rw [_root_.abs_le]
  constructor
  · have h2 := H.2
    have : X ≤ grow φ ^ n * x + 2 * h := by nlinarith
    by_cases hx : x + h < 0
    · have : grow φ ^ n * (x + h) ≤ 0 := mul_nonpos_of_nonneg_of_nonpos (by linarith) hx.le
      nlinarith
    · have hx' : 0 ≤ x + h := _root_.not_lt.1 hx
      -- `X / g ≤ x + h`
      have : X * (1 - 2 * n * eps φ) ≤ x + h := by
        have h3 : (1 - 2 * n * eps φ) * grow φ ^ n ≤ 1 := by
          by_cases hc : 0 ≤ 1 - 2 * n * eps φ
          · calc _ ≤ (1 - 2 * n * eps φ) * (1 + 2 * n * eps φ) := mul_le_mul_of_nonneg_left g hc
              _ ≤ 1 := by nlinarith
          · nlinarith
        by_cases hc : 0 ≤ 1 - 2 * n * eps φ
        · calc X * (1 - 2 * n * eps φ) ≤ (grow φ ^ n * (x + h)) * (1 - 2 * n * eps φ) :=
              mul_le_mul_of_nonneg_right h2 hc
            _ = ((1 - 2 * n * eps φ) * grow φ ^ n) * (x + h) := by ring
            _ ≤ 1 * (x + h) := mul_le_mul_of_nonneg_right h3 hx'
            _ = _ := one_mul _
        · nlinarith
      linarith
  · have h1 := H.1
    have : grow φ ^ n * (X + h) ≤ (1 + 2 * n * eps φ) * X + 2 * h := by nlinarith
    linarith

end Fl
end Verif
