import Verif.Proofs.Accuracy
/-!
# Floating-point numbers near a real number

`App x X e`: the float `x` is finite and within `e` of the real number `X`. One lemma per operation.
-/

set_option linter.unusedSimpArgs false

namespace Verif
open Fl
variable {φ ψ : Fmt}

def Fl.App (x : Fl φ) (X e : ℝ) : Prop := x.Finite ∧ |x.value - X| ≤ e

theorem Fl.App.mono {x : Fl φ} {X e e' : ℝ} (h : App x X e) (he : e ≤ e') : App x X e' := ⟨h.1, h.2.trans he⟩

theorem Fl.App.of {x : Fl φ} (h : x.Finite) : App x x.value 0 := ⟨h, by simp⟩

theorem Fl.App.near {x : Fl φ} {X Y e d : ℝ} (h : App x X e) (hY : |X - Y| ≤ d) : App x Y (e + d) :=
  ⟨h.1, (abs_sub_le _ X _).trans (add_le_add h.2 hY)⟩

theorem Fl.App.abs_le {x : Fl φ} {X e A : ℝ} (h : App x X e) (hX : |X| ≤ A) : |x.value| ≤ A + e := by
  have := abs_add_le (x.value - X) X
  rw [sub_add_cancel] at this
  linarith [h.2]

/-- A rounding error in terms of the exact result. -/
theorem round_exact (hmb : 1 ≤ φ.mb) {r R : ℝ} (h : |r - R| ≤ eps φ * |r| + eta φ) :
    |r - R| ≤ 2 * eps φ * |R| + 2 * eta φ := by
  have e0 := (eps_pos φ).le
  have e1 := eps_le hmb
  have t0 := (eta_pos φ).le
  have h1 := abs_add_le (r - R) R
  rw [sub_add_cancel] at h1
  have h2 : |r| ≤ 4 / 3 * |R| + 4 / 3 * eta φ := by nlinarith [abs_nonneg r, abs_nonneg R]
  have h3 : eps φ * |r| ≤ eps φ * (4 / 3 * |R| + 4 / 3 * eta φ) := mul_le_mul_of_nonneg_left h2 e0
  nlinarith [abs_nonneg r, abs_nonneg R, mul_nonneg e0 (abs_nonneg R), mul_le_mul_of_nonneg_right e1 t0]

theorem Fl.App.rounded (hmb : 1 ≤ φ.mb) {r : Fl φ} {R S e A : ℝ} (hr : r.Finite)
    (h : |r.value - R| ≤ eps φ * |r.value| + eta φ) (hR : |R - S| ≤ e) (hA : |R| ≤ A) :
    App r S (e + 2 * eps φ * A + 2 * eta φ) := by
  refine ⟨hr, ?_⟩
  have h1 := round_exact hmb h
  have h2 := abs_sub_le r.value R S
  have h3 : 2 * eps φ * |R| ≤ 2 * eps φ * A := mul_le_mul_of_nonneg_left hA (by linarith [eps_pos φ])
  linarith

theorem Fl.App.mul (ok : φ.Ok) {x y : Fl φ} {X Y e d A B : ℝ} (hx : App x X e) (hy : App y Y d) (hX : |X| ≤ A)
    (hY : |Y| ≤ B) (ht : (A + e) * (B + d) ≤ top φ) :
    App (Fl.mul x y) (X * Y) (A * d + e * B + e * d + 2 * eps φ * ((A + e) * (B + d)) + 2 * eta φ) := by
  have hx' := hx.abs_le hX
  have hy' := hy.abs_le hY
  have hp : |x.value * y.value| ≤ (A + e) * (B + d) := by
    rw [abs_mul]
    exact mul_le_mul hx' hy' (abs_nonneg _) ((abs_nonneg _).trans hx')
  have hf := mul_finite ok hx.1 hy.1 (hp.trans ht)
  refine App.rounded ok.mb hf (mul_err ok.mb hx.1 hy.1 hf) ?_ hp
  have e0 : x.value * y.value - X * Y = X * (y.value - Y) + (x.value - X) * Y + (x.value - X) * (y.value - Y) := by ring
  rw [e0]
  have he := (abs_nonneg _).trans hx.2
  refine (abs_add_le _ _).trans (add_le_add ((abs_add_le _ _).trans (add_le_add ?_ ?_)) ?_)
  · rw [abs_mul]; exact mul_le_mul hX hy.2 (abs_nonneg _) ((abs_nonneg _).trans hX)
  · rw [abs_mul]; exact mul_le_mul hx.2 hY (abs_nonneg _) he
  · rw [abs_mul]; exact mul_le_mul hx.2 hy.2 (abs_nonneg _) he

theorem Fl.App.add (ok : φ.Ok) {x y : Fl φ} {X Y e d A : ℝ} (hx : App x X e) (hy : App y Y d) (hX : |X + Y| ≤ A)
    (ht : A + e + d ≤ top φ) :
    App (Fl.add x y) (X + Y) (e + d + 2 * eps φ * (A + e + d) + 2 * eta φ) := by
  have h0 : |x.value + y.value - (X + Y)| ≤ e + d := by
    rw [show x.value + y.value - (X + Y) = (x.value - X) + (y.value - Y) by ring]
    exact (abs_add_le _ _).trans (add_le_add hx.2 hy.2)
  have hp : |x.value + y.value| ≤ A + e + d := by
    have := abs_add_le (x.value + y.value - (X + Y)) (X + Y)
    rw [sub_add_cancel] at this
    linarith
  have hf := add_finite ok hx.1 hy.1 (hp.trans ht)
  exact App.rounded ok.mb hf (add_err ok.mb hx.1 hy.1 hf) h0 hp

theorem Fl.App.neg {x : Fl φ} {X e : ℝ} (h : App x X e) : App (Fl.neg x) (-X) e := by
  refine ⟨h.1.neg, ?_⟩
  rw [value_neg, show -x.value - -X = -(x.value - X) by ring, abs_neg]
  exact h.2

theorem Fl.App.sub (ok : φ.Ok) {x y : Fl φ} {X Y e d A : ℝ} (hx : App x X e) (hy : App y Y d) (hX : |X - Y| ≤ A)
    (ht : A + e + d ≤ top φ) :
    App (Fl.sub x y) (X - Y) (e + d + 2 * eps φ * (A + e + d) + 2 * eta φ) := by
  have := hx.add ok hy.neg (A := A) (by rwa [← sub_eq_add_neg]) ht
  rwa [← sub_eq_add_neg] at this

theorem Fl.App.div (ok : φ.Ok) {x y : Fl φ} {X Y e d A L : ℝ} (hx : App x X e) (hy : App y Y d) (hX : |X| ≤ A)
    (hY : L + d ≤ |Y|) (hL : 0 < L) (ht : (A + e) / L ≤ top φ) :
    App (Fl.div x y) (X / Y) (e / L + A * d / (L * L) + 2 * eps φ * ((A + e) / L) + 2 * eta φ) := by
  have hd := (abs_nonneg _).trans hy.2
  have hA := (abs_nonneg _).trans hX
  have hy' : L ≤ |y.value| := by
    have := abs_sub_abs_le_abs_sub Y y.value
    rw [abs_sub_comm] at this
    linarith [hy.2]
  have hY' : L ≤ |Y| := by linarith
  have y0 : y.value ≠ 0 := fun h => by rw [h, abs_zero] at hy'; linarith
  have Y0 : Y ≠ 0 := fun h => by rw [h, abs_zero] at hY'; linarith
  have hp : |x.value / y.value| ≤ (A + e) / L := by
    rw [abs_div]
    exact div_le_div₀ ((abs_nonneg _).trans (hx.abs_le hX)) (hx.abs_le hX) hL hy'
  have hf := div_finite ok hx.1 hy.1 y0 (hp.trans ht)
  refine App.rounded ok.mb hf (div_err ok.mb hx.1 hy.1 y0 hf) ?_ hp
  have e0 : x.value / y.value - X / Y = (x.value - X) / y.value + X * (Y - y.value) / (Y * y.value) := by
    field_simp; ring
  rw [e0]
  refine (abs_add_le _ _).trans (add_le_add ?_ ?_)
  · rw [abs_div]; exact div_le_div₀ ((abs_nonneg _).trans hx.2) hx.2 hL hy'
  · rw [abs_div, abs_mul, abs_mul]
    refine div_le_div₀ (by positivity) (mul_le_mul hX ?_ (abs_nonneg _) hA) (by positivity)
      (mul_le_mul hY' hy' hL.le (abs_nonneg _))
    rw [abs_sub_comm]; exact hy.2

theorem Fl.App.lit (ok : φ.Ok) {n : Int} {d : Nat} (hd : 0 < d) {A : ℝ} (hA : |(n : ℝ) / d| ≤ A) (ht : A ≤ top φ) :
    App (Fl.lit φ n d) ((n : ℝ) / d) (2 * eps φ * A + 2 * eta φ) := by
  have hdR : (0 : ℝ) < d := by exact_mod_cast hd
  have hf : (Fl.lit φ n d).Finite := lit_finite_int ok hd (by
    rw [abs_div, abs_of_pos hdR, div_le_iff₀ hdR] at hA
    rw [_root_.mul_comm]
    exact hA.trans (mul_le_mul_of_nonneg_right ht hdR.le))
  have := App.rounded ok.mb hf (lit_err ok.mb hd hf) (S := (n : ℝ) / d) (e := 0) (by simp) hA
  simpa using this

theorem Fl.App.ofNat (ok : φ.Ok) {n : Nat} (hn : n ≤ 2 * 2 ^ φ.mb) : App (Fl.ofInt φ (n : Int)) n 0 := by
  obtain ⟨h1, h2⟩ := value_ofInt ok hn
  exact ⟨h2, by rw [h1]; simp⟩

/-! ## Conversion, fused multiply-add, flushing -/

theorem cast_finite (ok : ψ.Ok) {x : Fl φ} (hx : x.Finite) (h : |x.value| ≤ top ψ) : (Fl.cast ψ x).Finite := by
  obtain ⟨s, k, hk, rfl, k0⟩ := hx
  have e : Fl.cast ψ (.num s k hk : Fl φ) = ofMag ψ s (φ.mag k * 2 ^ ψ.u) (2 ^ φ.u) := by
    show (if k = φ.infK then _ else _) = _
    rw [if_neg k0]
  rw [e]
  refine ofMag_finite ok (by positivity) (_root_.le_trans (le_of_eq ?_) h)
  unfold value
  rw [abs_mul]
  have : |(if s = true then (-1 : ℝ) else 1)| = 1 := by split <;> simp
  rw [this, one_mul, abs_of_nonneg (by positivity)]
  push_cast
  field_simp

theorem cast_err (hmb : 1 ≤ ψ.mb) {x : Fl φ} (hx : x.Finite) (h : (Fl.cast ψ x).Finite) :
    |(Fl.cast ψ x).value - x.value| ≤ eps ψ * |(Fl.cast ψ x).value| + eta ψ := by
  obtain ⟨s, k, hk, rfl, k0⟩ := hx
  have e : Fl.cast ψ (.num s k hk : Fl φ) = ofMag ψ s (φ.mag k * 2 ^ ψ.u) (2 ^ φ.u) := by
    show (if k = φ.infK then _ else _) = _
    rw [if_neg k0]
  rw [e] at h ⊢
  refine ofMag_err hmb (by positivity) h ?_
  unfold value
  push_cast
  congr 1
  field_simp

theorem Fl.App.cast (ok : ψ.Ok) {x : Fl φ} {X e A : ℝ} (hx : App x X e) (hX : |X| ≤ A) (ht : A + e ≤ top ψ) :
    App (Fl.cast ψ x) X (e + 2 * eps ψ * (A + e) + 2 * eta ψ) := by
  have hf := cast_finite ok hx.1 ((hx.abs_le hX).trans ht)
  exact App.rounded ok.mb hf (cast_err ok.mb hx.1 hf) hx.2 (hx.abs_le hX)

theorem fma_value {x y z : Fl φ} (hx : x.Finite) (hy : y.Finite) (hz : z.Finite) :
    (∃ s, Fl.fma x y z = zero s ∧ x.value * y.value + z.value = 0) ∨
    ∃ s n, Fl.fma x y z = ofMag φ s n (2 ^ φ.u) ∧
      x.value * y.value + z.value = (if s then -1 else 1) * ((n : ℝ) / (2 ^ φ.u : Nat) / 2 ^ φ.u) := by
  obtain ⟨s, k, hk, rfl, k0⟩ := hx
  obtain ⟨t, l, hl, rfl, l0⟩ := hy
  obtain ⟨r, n, hn, rfl, n0⟩ := hz
  have hval : (.num s k hk : Fl φ).value * (.num t l hl : Fl φ).value + (.num r n hn : Fl φ).value =
      (((if (s ^^ t) then -1 else 1) * (φ.mag k * φ.mag l : Nat) + smag φ r n * (2 ^ φ.u : Nat) : Int) : ℝ) /
        (2 ^ φ.u * 2 ^ φ.u) := by
    rw [value_num r]
    unfold value
    rw [sign_mul]
    push_cast
    field_simp
  have e : Fl.fma (.num s k hk : Fl φ) (.num t l hl) (.num r n hn) =
      (let i : Int := (if (s ^^ t) then -1 else 1) * (φ.mag k * φ.mag l : Nat) + smag φ r n * (2 ^ φ.u : Nat)
      if i = 0 then zero ((s ^^ t) && r) else ofMag φ (decide (i < 0)) i.natAbs (2 ^ φ.u)) := by
    show (if k = φ.infK ∨ l = φ.infK then _ else if n = φ.infK then _ else _) = _
    rw [if_neg (by tauto), if_neg n0]
  rw [e, hval]
  generalize ((if (s ^^ t) then -1 else 1) * (φ.mag k * φ.mag l : Nat) + smag φ r n * (2 ^ φ.u : Nat) : Int) = i
  dsimp only
  by_cases h0 : i = 0
  · left
    rw [if_pos h0, h0]
    exact ⟨_, rfl, by simp⟩
  · right
    rw [if_neg h0]
    refine ⟨_, _, rfl, ?_⟩
    have hp : ((i.natAbs : Nat) : ℝ) = |(i : ℝ)| := by
      rw [← Int.cast_natCast, Int.natCast_natAbs, Int.cast_abs]
    rw [hp]
    push_cast
    rw [div_div]
    by_cases hi : i < 0
    · have : (i : ℝ) < 0 := by exact_mod_cast hi
      simp [hi, abs_of_neg this, neg_div]
    · have : (0 : ℝ) ≤ i := by exact_mod_cast _root_.not_lt.1 hi
      simp [hi, abs_of_nonneg this]

theorem fma_finite (ok : φ.Ok) {x y z : Fl φ} (hx : x.Finite) (hy : y.Finite) (hz : z.Finite)
    (h : |x.value * y.value + z.value| ≤ top φ) : (Fl.fma x y z).Finite := by
  rcases fma_value hx hy hz with ⟨s, e, -⟩ | ⟨s, n, e, hv⟩
  · rw [e]
    refine ⟨_, 0, _, rfl, ?_⟩
    unfold Fmt.infK
    positivity
  · rw [e]
    refine ofMag_finite ok (by positivity) (_root_.le_trans (le_of_eq ?_) h)
    rw [hv, abs_mul]
    have : |(if s = true then (-1 : ℝ) else 1)| = 1 := by split <;> simp
    rw [this, one_mul, abs_of_nonneg (by positivity)]

theorem fma_err (hmb : 1 ≤ φ.mb) {x y z : Fl φ} (hx : x.Finite) (hy : y.Finite) (hz : z.Finite)
    (h : (Fl.fma x y z).Finite) :
    |(Fl.fma x y z).value - (x.value * y.value + z.value)| ≤ eps φ * |(Fl.fma x y z).value| + eta φ := by
  rcases fma_value hx hy hz with ⟨s, e, hv⟩ | ⟨s, n, e, hv⟩
  · rw [e, hv, value_zero]
    simp
    exact (eta_pos φ).le
  · rw [e] at h ⊢
    exact ofMag_err hmb (by positivity) h hv

/-- Flushing subnormal numbers. -/
theorem Fl.App.ftz {x : Fl φ} {X e : ℝ} (h : App x X e) :
    App (Fl.ftz x) X (e + 2 * 2 ^ φ.mb / 2 ^ φ.u) := by
  obtain ⟨⟨s, k, hk, rfl, k0⟩, he⟩ := h
  have hn : (0 : ℝ) ≤ 2 * 2 ^ φ.mb / 2 ^ φ.u := by positivity
  by_cases hlt : k < 2 ^ φ.mb
  · have e1 : Fl.ftz (.num s k hk : Fl φ) = zero s := by
      show (if k < 2 ^ φ.mb then _ else _) = _
      rw [if_pos hlt]
    rw [e1]
    refine ⟨⟨_, 0, _, rfl, by unfold Fmt.infK; positivity⟩, ?_⟩
    rw [value_zero]
    have hv : |(.num s k hk : Fl φ).value| ≤ 2 * 2 ^ φ.mb / 2 ^ φ.u := by
      unfold value
      rw [abs_mul]
      have : |(if s = true then (-1 : ℝ) else 1)| = 1 := by split <;> simp
      rw [this, one_mul, abs_of_nonneg (by positivity)]
      refine div_le_div_of_nonneg_right ?_ (by positivity)
      have hm : φ.mag k ≤ 2 * 2 ^ φ.mb := by
        unfold Fmt.mag
        rw [if_pos (Nat.div_eq_of_lt hlt), Nat.mod_eq_of_lt hlt]
        omega
      exact_mod_cast hm
    have := abs_add_le ((.num s k hk : Fl φ).value - X) (-(.num s k hk : Fl φ).value)
    rw [show (.num s k hk : Fl φ).value - X + -(.num s k hk : Fl φ).value = 0 - X by ring, abs_neg] at this
    linarith
  · have e1 : Fl.ftz (.num s k hk : Fl φ) = .num s k hk := by
      show (if k < 2 ^ φ.mb then _ else _) = _
      rw [if_neg hlt]
    rw [e1]
    exact ⟨⟨s, k, hk, rfl, k0⟩, by linarith⟩

theorem Fl.App.flush (t : Target) {x : Fl φ} {X e : ℝ} (h : App x X e) :
    App (Fl.flush t x) X (e + 2 * 2 ^ φ.mb / 2 ^ φ.u) := by
  unfold Fl.flush
  split
  · exact h.ftz
  · have hn : (0 : ℝ) ≤ 2 * 2 ^ φ.mb / 2 ^ φ.u := by positivity
    exact h.mono (by linarith)

/-! ## Single precision -/

theorem top32 : 2 ^ 120 ≤ top Fmt.b32 := by
  have : top Fmt.b32 = 2 ^ 127 := by
    show 2 * 2 ^ 23 * 2 ^ (254 - 2) / 2 ^ 149 = (2 : ℝ) ^ 127
    norm_num
  rw [this]
  exact big_le (by norm_num)

theorem eta32 : eta Fmt.b32 = 1 / 2 ^ 150 := by
  show 1 / (2 * (2 : ℝ) ^ 149) = _
  norm_num

theorem eps32 : eps Fmt.b32 = 1 / 2 ^ 24 := by
  show 1 / (2 * (2 : ℝ) ^ 23) = _
  norm_num

end Verif
