import Verif.Proofs.Approx
/-!
# Rounding errors in units of `2^-52`

`Ulp x X c`: the `f64` number `x` is within `c * 2^-52` of `X`.  One lemma per operation, for moderate numbers.
-/

set_option linter.unusedSimpArgs false

namespace Verif
open Fl

def Fl.Ulp (x : F64) (X c : ℝ) : Prop := App x X (c * (1 / 2 ^ 52))

theorem Fl.Ulp.nonneg {x : F64} {X c : ℝ} (h : Ulp x X c) : 0 ≤ c := by
  have := (abs_nonneg _).trans h.2
  by_contra hc
  push Not at hc
  have : c * (1 / 2 ^ 52) < 0 := mul_neg_of_neg_of_pos hc (by positivity)
  linarith

theorem Fl.Ulp.weaken {x : F64} {X c c' : ℝ} (h : Ulp x X c) (hc : c ≤ c') : Ulp x X c' :=
  App.mono h (mul_le_mul_of_nonneg_right hc (by positivity))

theorem Fl.Ulp.mul {x y : F64} {X Y c d A B r : ℝ} (hx : Ulp x X c) (hy : Ulp y Y d) (hX : |X| ≤ A) (hY : |Y| ≤ B)
    (hr : A * d + c * B + A * B + 1 / 1000 ≤ r) (hc : c ≤ 2 ^ 14 := by norm_num) (hd : d ≤ 2 ^ 14 := by norm_num)
    (hA : A ≤ 2 ^ 12 := by norm_num) (hB : B ≤ 2 ^ 12 := by norm_num) : Ulp (Fl.mul x y) (X * Y) r := by
  have t1 := eta64
  have t2 := top64
  have c0 := hx.nonneg
  have d0 := hy.nonneg
  have A0 := (abs_nonneg _).trans hX
  have B0 := (abs_nonneg _).trans hY
  unfold Ulp at *
  have e1 : c * (1 / 2 ^ 52) ≤ 1 := by norm_num at hc ⊢; linarith
  have e2 : d * (1 / 2 ^ 52) ≤ 1 := by norm_num at hd ⊢; linarith
  have ht : (A + c * (1 / 2 ^ 52)) * (B + d * (1 / 2 ^ 52)) ≤ top Fmt.b64 := by
    have : (A + c * (1 / 2 ^ 52)) * (B + d * (1 / 2 ^ 52)) ≤ (2 ^ 12 + 1) * (2 ^ 12 + 1) :=
      mul_le_mul (by linarith) (by linarith) (by positivity) (by norm_num)
    refine this.trans (_root_.le_trans ?_ t2)
    norm_num
  refine (App.mul Fmt.ok64 hx hy hX hY ht).mono ?_
  rw [eps64]
  have m1 : c * d ≤ 2 ^ 14 * 2 ^ 14 := mul_le_mul hc hd d0 (by norm_num)
  have m2 : A * d ≤ 2 ^ 12 * 2 ^ 14 := mul_le_mul hA hd d0 (by norm_num)
  have m3 : c * B ≤ 2 ^ 14 * 2 ^ 12 := mul_le_mul hc hB B0 (by norm_num)
  have hr' := mul_le_mul_of_nonneg_right hr (by positivity : (0 : ℝ) ≤ 1 / 2 ^ 52)
  have e3 : (A + c * (1 / 2 ^ 52)) * (B + d * (1 / 2 ^ 52)) = A * B + (A * d + c * B) * (1 / 2 ^ 52) +
    c * d * (1 / 2 ^ 104) := by ring
  rw [e3]
  generalize hAd : A * d = Ad at *
  generalize hcB : c * B = cB at *
  generalize hcd : c * d = cd at *
  generalize hAB : A * B = AB at *
  have f1 : A * (d * (1 / 2 ^ 52)) = Ad * (1 / 2 ^ 52) := by rw [← hAd]; ring
  have f2 : c * (1 / 2 ^ 52) * B = cB * (1 / 2 ^ 52) := by rw [← hcB]; ring
  have f3 : c * (1 / 2 ^ 52) * (d * (1 / 2 ^ 52)) = cd * (1 / 2 ^ 104) := by rw [← hcd]; ring
  rw [f1, f2, f3]
  norm_num at *
  linarith

theorem Fl.Ulp.add {x y : F64} {X Y c d A r : ℝ} (hx : Ulp x X c) (hy : Ulp y Y d) (hX : |X + Y| ≤ A)
    (hr : c + d + A + 1 / 1000 ≤ r) (hc : c ≤ 2 ^ 14 := by norm_num) (hd : d ≤ 2 ^ 14 := by norm_num)
    (hA : A ≤ 2 ^ 12 := by norm_num) : Ulp (Fl.add x y) (X + Y) r := by
  have t1 := eta64
  have t2 := top64
  unfold Ulp at *
  refine (App.add Fmt.ok64 hx hy hX (_root_.le_trans ?_ t2)).mono ?_
  · norm_num at *; linarith
  · rw [eps64]
    norm_num at *
    linarith

theorem Fl.Ulp.neg {x : F64} {X c : ℝ} (h : Ulp x X c) : Ulp (Fl.neg x) (-X) c := App.neg h

theorem Fl.Ulp.sub {x y : F64} {X Y c d A r : ℝ} (hx : Ulp x X c) (hy : Ulp y Y d) (hX : |X - Y| ≤ A)
    (hr : c + d + A + 1 / 1000 ≤ r) (hc : c ≤ 2 ^ 14 := by norm_num) (hd : d ≤ 2 ^ 14 := by norm_num)
    (hA : A ≤ 2 ^ 12 := by norm_num) : Ulp (Fl.sub x y) (X - Y) r := by
  have := hx.add hy.neg (A := A) (by rwa [← sub_eq_add_neg]) hr hc hd hA
  rwa [← sub_eq_add_neg] at this

theorem Fl.Ulp.div {x y : F64} {X Y c d A L r : ℝ} (hx : Ulp x X c) (hy : Ulp y Y d) (hX : |X| ≤ A) (hY : L ≤ |Y|)
    (hr : (c + A * d / L + A) / L + 1 / 1000 ≤ r) (hc : c ≤ 2 ^ 14 := by norm_num) (hd : d ≤ 2 ^ 14 := by norm_num)
    (hA : A ≤ 2 ^ 4 := by norm_num) (hL : 1 / 2 ≤ L := by norm_num) : Ulp (Fl.div x y) (X / Y) r := by
  have t1 := eta64
  have t2 := top64
  have c0 := hx.nonneg
  have d0 := hy.nonneg
  have A0 := (abs_nonneg _).trans hX
  unfold Ulp at *
  have e1 : c * (1 / 2 ^ 52) ≤ 1 / 2 ^ 38 := by norm_num at hc ⊢; linarith
  have e2 : d * (1 / 2 ^ 52) ≤ 1 / 2 ^ 38 := by norm_num at hd ⊢; linarith
  have hL' : 1 / 4 ≤ L - d * (1 / 2 ^ 52) := by norm_num at *; linarith
  have hL0 : 0 < L := by linarith
  have hL1 : 0 < L - d * (1 / 2 ^ 52) := by linarith
  refine (App.div Fmt.ok64 hx hy hX (L := L - d * (1 / 2 ^ 52)) (by linarith) hL1 ?_).mono ?_
  · rw [div_le_iff₀ hL1]
    have h1 : (2 ^ 250 : ℝ) * (1 / 4) ≤ top Fmt.b64 * (L - d * (1 / 2 ^ 52)) :=
      mul_le_mul t2 hL' (by norm_num) (by linarith [_root_.le_trans (by norm_num : (0 : ℝ) ≤ 2 ^ 250) t2])
    refine _root_.le_trans ?_ h1
    norm_num at *
    linarith
  · rw [eps64]
    -- `1 / (L - d u) ≤ (1 + 2^-35) / L`
    have hq : 1 / (L - d * (1 / 2 ^ 52)) ≤ (1 + 1 / 2 ^ 36) * (1 / L) := by
      rw [show (1 + 1 / 2 ^ 36) * (1 / L) = (1 + 1 / 2 ^ 36) / L by ring, div_le_div_iff₀ hL1 hL0]
      norm_num at *
      nlinarith
    have q0 : 0 < 1 / L := by positivity
    have q1 : 0 < 1 / (L - d * (1 / 2 ^ 52)) := by positivity
    have q2 : 1 / L ≤ 2 := by rw [div_le_iff₀ hL0]; linarith
    have g1 : c * (1 / 2 ^ 52) / (L - d * (1 / 2 ^ 52)) = c * (1 / 2 ^ 52) * (1 / (L - d * (1 / 2 ^ 52))) := by ring
    have g2 : A * (d * (1 / 2 ^ 52)) / ((L - d * (1 / 2 ^ 52)) * (L - d * (1 / 2 ^ 52))) =
        A * d * (1 / 2 ^ 52) * (1 / (L - d * (1 / 2 ^ 52)) * (1 / (L - d * (1 / 2 ^ 52)))) := by
      field_simp
    have g3 : (A + c * (1 / 2 ^ 52)) / (L - d * (1 / 2 ^ 52)) =
        (A + c * (1 / 2 ^ 52)) * (1 / (L - d * (1 / 2 ^ 52))) := by ring
    have g4 : (c + A * d / L + A) / L = c * (1 / L) + A * d * (1 / L * (1 / L)) + A * (1 / L) := by field_simp
    rw [g1, g2, g3]
    rw [g4] at hr
    generalize 1 / (L - d * (1 / 2 ^ 52)) = p at *
    generalize 1 / L = q at *
    have m1 : A * d ≤ 2 ^ 4 * 2 ^ 14 := mul_le_mul hA hd d0 (by norm_num)
    have Ad0 : 0 ≤ A * d := by positivity
    have p2 : p * p ≤ (1 + 1 / 2 ^ 34) * (q * q) := by
      have : p * p ≤ ((1 + 1 / 2 ^ 36) * q) * ((1 + 1 / 2 ^ 36) * q) := mul_le_mul hq hq q1.le (by positivity)
      refine this.trans ?_
      have : 0 ≤ q * q := by positivity
      norm_num
      nlinarith
    have qq : q * q ≤ 4 := by nlinarith
    have n1 : c * p ≤ c * q + 1 / 2 ^ 20 := by
      have : c * p ≤ c * ((1 + 1 / 2 ^ 36) * q) := mul_le_mul_of_nonneg_left hq c0
      have h2 : c * q ≤ 2 ^ 14 * 2 := mul_le_mul hc q2 q0.le (by norm_num)
      norm_num at *
      nlinarith
    have n2 : A * d * (p * p) ≤ A * d * (q * q) + 1 / 2 ^ 10 / 4 := by
      have : A * d * (p * p) ≤ A * d * ((1 + 1 / 2 ^ 34) * (q * q)) := mul_le_mul_of_nonneg_left p2 Ad0
      have h2 : A * d * (q * q) ≤ 2 ^ 4 * 2 ^ 14 * 4 := mul_le_mul m1 qq (by positivity) (by norm_num)
      have e : A * d * ((1 + 1 / 2 ^ 34) * (q * q)) = (1 + 1 / 2 ^ 34) * (A * d * (q * q)) := by ring
      rw [e] at this
      generalize A * d * (q * q) = W at *
      norm_num at *
      nlinarith
    have n3 : A * p ≤ A * q + 1 / 2 ^ 20 := by
      have : A * p ≤ A * ((1 + 1 / 2 ^ 36) * q) := mul_le_mul_of_nonneg_left hq A0
      have h2 : A * q ≤ 2 ^ 4 * 2 := mul_le_mul hA q2 q0.le (by norm_num)
      norm_num at *
      nlinarith
    have h2 : c * p ≤ 2 ^ 14 * 2 + 1 := by
      have h2 : c * q ≤ 2 ^ 14 * 2 := mul_le_mul hc q2 q0.le (by norm_num)
      norm_num at *
      linarith
    have f1 : c * (1 / 2 ^ 52) * p = c * p * (1 / 2 ^ 52) := by ring
    have f2 : A * d * (1 / 2 ^ 52) * (p * p) = A * d * (p * p) * (1 / 2 ^ 52) := by ring
    have f3 : (A + c * (1 / 2 ^ 52)) * p = A * p + c * p * (1 / 2 ^ 52) := by ring
    rw [f1, f2, f3]
    generalize c * p = cp at *
    generalize A * d * (p * p) = Adp at *
    generalize A * p = Ap at *
    generalize c * q = cq at *
    generalize A * d * (q * q) = Adq at *
    generalize A * q = Aq at *
    norm_num at *
    linarith

theorem Fl.Ulp.nat (n : Nat) (hn : n ≤ 2 ^ 53) : Ulp (Fl.lit Fmt.b64 (n : Int) 1) n 0 := by
  have h := App.ofNat Fmt.ok64 (n := n) (hn.trans (by decide))
  unfold Ulp
  rw [zero_mul]
  exact h

theorem Fl.Ulp.lit {n : Int} {d : Nat} (hd : 0 < d) {A c : ℝ} (hA : |(n : ℝ) / d| ≤ A) (hc : A + 1 / 1000 ≤ c)
    (h12 : A ≤ 2 ^ 12 := by norm_num) : Ulp (Fl.lit Fmt.b64 n d) ((n : ℝ) / d) c := by
  have t1 := eta64
  have t2 := top64
  unfold Ulp
  refine (App.lit Fmt.ok64 hd hA (_root_.le_trans ?_ t2)).mono ?_
  · norm_num at *; linarith
  · rw [eps64]
    norm_num at *
    linarith

end Verif
