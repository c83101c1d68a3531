import Verif.Spec.Sinc
import Verif.Spec.Exact
import Verif.Proofs.Approx
import Verif.Props.C22_C23
import Verif.Proofs.Kernel
import Mathlib.Analysis.Real.Pi.Bounds
import Mathlib.Tactic.IntervalCases
/-! # C55: the coefficients of the interpolator -/

set_option linter.unusedSimpArgs false

namespace Verif
open Fl Spec

variable {m : Libm F64} {bs : BSearch} {t : Target}

/-- Sine and cosine of the platform are within `δ` of the exact ones on `[-64, 64]`. -/
def Spec.TrigWithin (m : Libm F64) (δ : ℝ) : Prop :=
  ∀ x : F64, x.Finite → |x.value| ≤ 64 →
    ((m.sin x).Finite ∧ |(m.sin x).value - Real.sin x.value| ≤ δ) ∧
    ((m.cos x).Finite ∧ |(m.cos x).value - Real.cos x.value| ≤ δ)

/-! ## In exact arithmetic -/

theorem abs_cos_sub_le (x y : ℝ) : |Real.cos x - Real.cos y| ≤ |x - y| := by
  have := Real.cos_sub_cos x y
  rw [this, abs_mul, abs_mul, abs_neg, abs_two]
  have h1 := Real.abs_sin_le_one ((x + y) / 2)
  have h2 : |Real.sin ((x - y) / 2)| ≤ |(x - y) / 2| := Real.abs_sin_le_abs
  rw [abs_div, abs_two] at h2
  nlinarith [abs_nonneg (Real.sin ((x - y) / 2)), abs_nonneg (Real.sin ((x + y) / 2))]

theorem abs_sin_sub_le (x y : ℝ) : |Real.sin x - Real.sin y| ≤ |x - y| := by
  have := Real.sin_sub_sin x y
  rw [this, abs_mul, abs_mul, abs_two]
  have h1 := Real.abs_cos_le_one ((x + y) / 2)
  have h2 : |Real.sin ((x - y) / 2)| ≤ |(x - y) / 2| := Real.abs_sin_le_abs
  rw [abs_div, abs_two] at h2
  nlinarith [abs_nonneg (Real.sin ((x - y) / 2)), abs_nonneg (Real.cos ((x + y) / 2))]

theorem sinc_sub {a b : ℝ} (ha : a ≠ 0) (hb : b ≠ 0) :
    |Real.sin a / a - Real.sinc b| ≤ 2 * |a - b| / |a| := by
  rw [Real.sinc_of_ne_zero hb]
  have e : Real.sin a / a - Real.sin b / b = (Real.sin a - Real.sin b) / a + Real.sin b / b * ((b - a) / a) := by
    field_simp; ring
  rw [e]
  have h1 : |Real.sin b / b| ≤ 1 := by
    rw [abs_div, div_le_one (abs_pos.2 hb)]
    exact Real.abs_sin_le_abs
  have h0 := abs_pos.2 ha
  have h2 : |(Real.sin a - Real.sin b) / a| ≤ |a - b| / |a| := by
    rw [abs_div]
    exact div_le_div_of_nonneg_right (abs_sin_sub_le a b) h0.le
  have h3 : |Real.sin b / b * ((b - a) / a)| ≤ |a - b| / |a| := by
    rw [abs_mul, abs_div (b - a), abs_sub_comm b a]
    exact mul_le_of_le_one_left (by positivity) h1
  refine (abs_add_le _ _).trans ((add_le_add h2 h3).trans (le_of_eq (by ring)))

/-- The constant of the code. -/
theorem piLit_near : |(314159265358979323846264338327950288 / 10 ^ 35 : ℝ) - Real.pi| ≤ 1 / 10 ^ 20 := by
  have h1 := Real.pi_gt_d20
  have h2 := Real.pi_lt_d20
  rw [abs_le]
  constructor <;> norm_num at h1 h2 ⊢ <;> linarith

/-- **C55.** In exact arithmetic the code computes the Hann-windowed sinc, up to the digits of its constant `PI`. -/
theorem C55_exact (u : Nat) {factor j : Nat} (hf : 0 < factor) (hj : j ≤ 48) :
    |interpCoeff (exactEnv bs u) factor j - kernel factor j| ≤ 1 / 10 ^ 19 := by
  set p : ℝ := 314159265358979323846264338327950288 / 10 ^ 35 with hp
  have hp0 : 3 ≤ p := by rw [hp]; norm_num
  have hpn : |p - Real.pi| ≤ 1 / 10 ^ 20 := piLit_near
  have hjR : (j : ℝ) ≤ 48 := by exact_mod_cast hj
  have hj0 : (0 : ℝ) ≤ j := Nat.cast_nonneg _
  have hfR : (0 : ℝ) < factor := by exact_mod_cast hf
  have e : interpCoeff (exactEnv bs u) factor j =
      if (1 / 1000000 : ℝ) < |(j : ℝ) - 24| then
        ((1 - Real.cos (2 * p * j / 48)) / 2 * Real.sin (((j : ℝ) - 24) * p / factor)) / (((j : ℝ) - 24) * p / factor)
      else (1 - Real.cos (2 * p * j / 48)) / 2 := by
    have h1 : piLit exactArith = p := by rw [hp]; norm_num [piLit, exactArith]
    unfold interpCoeff
    dsimp only [exactEnv, id]
    rw [h1]
    simp only [exactArith, TAPS, decide_eq_true_eq]
    norm_num
    ring_nf
  have hw : |(1 - Real.cos (2 * p * j / 48)) / 2 - (1 - Real.cos (2 * Real.pi * j / 48)) / 2| ≤ 1 / 10 ^ 20 := by
    have := abs_cos_sub_le (2 * Real.pi * j / 48) (2 * p * j / 48)
    rw [show (1 - Real.cos (2 * p * j / 48)) / 2 - (1 - Real.cos (2 * Real.pi * j / 48)) / 2 =
      (Real.cos (2 * Real.pi * j / 48) - Real.cos (2 * p * j / 48)) / 2 by ring, abs_div, abs_two]
    rw [show 2 * Real.pi * j / 48 - 2 * p * j / 48 = -((p - Real.pi) * (j / 24)) by ring, abs_neg, abs_mul,
      abs_of_nonneg (show (0 : ℝ) ≤ j / 24 by positivity)] at this
    nlinarith [abs_nonneg (p - Real.pi)]
  have hw1 : |(1 - Real.cos (2 * p * j / 48)) / 2| ≤ 1 := by
    have h1 := Real.neg_one_le_cos (2 * p * j / 48)
    have h2 := Real.cos_le_one (2 * p * j / 48)
    rw [abs_le]
    constructor <;> linarith
  rw [e]
  unfold kernel
  by_cases h24 : j = 24
  · rw [if_neg (by rw [h24]; norm_num)]
    have : Real.sinc (Real.pi * ((j : ℝ) - 24) / factor) = 1 := by rw [h24]; norm_num
    rw [this, mul_one]
    exact hw.trans (by norm_num)
  · have h1 : (1 : ℝ) ≤ |(j : ℝ) - 24| := by
      rcases Nat.lt_or_gt_of_ne h24 with h | h
      · have : (j : ℝ) + 1 ≤ 24 := by exact_mod_cast h
        rw [abs_of_neg (by linarith)]
        linarith
      · have : (24 : ℝ) + 1 ≤ j := by exact_mod_cast h
        rw [abs_of_pos (by linarith)]
        linarith
    rw [if_pos (lt_of_lt_of_le (by norm_num) h1)]
    have d0 : (j : ℝ) - 24 ≠ 0 := fun h => by rw [h] at h1; norm_num at h1
    have pi0 := Real.pi_pos
    have a0 : ((j : ℝ) - 24) * p / factor ≠ 0 := by
      have : p ≠ 0 := by linarith
      positivity
    have b0 : Real.pi * ((j : ℝ) - 24) / factor ≠ 0 := by positivity
    have hs := sinc_sub a0 b0
    have hs' : 2 * |((j : ℝ) - 24) * p / factor - Real.pi * ((j : ℝ) - 24) / factor| / |((j : ℝ) - 24) * p / factor| =
        2 * |p - Real.pi| / p := by
      rw [show ((j : ℝ) - 24) * p / factor - Real.pi * ((j : ℝ) - 24) / factor =
        ((j : ℝ) - 24) / factor * (p - Real.pi) by ring,
        show ((j : ℝ) - 24) * p / factor = ((j : ℝ) - 24) / factor * p by ring, abs_mul, abs_mul,
        abs_of_nonneg (show 0 ≤ p by linarith)]
      have : |((j : ℝ) - 24) / factor| ≠ 0 := by positivity
      have : p ≠ 0 := by linarith
      field_simp
    rw [hs'] at hs
    have hs2 : 2 * |p - Real.pi| / p ≤ 1 / 10 ^ 20 := by
      rw [div_le_iff₀ (by linarith)]
      nlinarith
    rw [mul_div_assoc, show ∀ w w' s s' : ℝ, w * s - w' * s' = w * (s - s') + (w - w') * s' from fun _ _ _ _ => by ring]
    refine (abs_add_le _ _).trans ?_
    rw [abs_mul, abs_mul]
    have hc : |Real.sinc (Real.pi * ((j : ℝ) - 24) / factor)| ≤ 1 := Real.abs_sinc_le_one _
    have g1 := mul_le_mul hw1 (hs.trans hs2) (abs_nonneg _) zero_le_one
    have g2 := mul_le_mul hw hc (abs_nonneg _) (by positivity)
    refine (add_le_add g1 g2).trans (by norm_num)

/-! ## In floating point -/

theorem coeff_branch : ∀ j < 48,
    Fl.lt (Fl.lit Fmt.b64 1 1000000) (Fl.abs (Fl.sub (Fl.ofInt Fmt.b64 (j : Nat)) (Fl.div (Fl.ofInt Fmt.b64 (48 : Nat))
      (Fl.lit Fmt.b64 2 1)))) = decide (j ≠ 24) := by
  decide +kernel

theorem app_pi : App (piLit (Fl.arith Fmt.b64)) Real.pi (1 / 2 ^ 49) := by
  have h := App.lit Fmt.ok64 (n := 314159265358979323846264338327950288) (d := 10 ^ 35) (by positivity) (A := 4)
    (by rw [abs_of_nonneg (by positivity)]; norm_num) (_root_.le_trans (by norm_num) top64)
  have := h.near (Y := Real.pi) (d := 1 / 10 ^ 20) (by
    have := piLit_near
    norm_num at this ⊢
    exact this)
  refine this.mono ?_
  have := eta64
  rw [eps64]
  norm_num at this ⊢
  linarith

theorem app_two : App (Fl.lit Fmt.b64 2 1) 2 (1 / 2 ^ 50) := by
  have h := App.lit Fmt.ok64 (n := 2) (d := 1) one_pos (A := 2) (by norm_num) (_root_.le_trans (by norm_num) top64)
  have := h.near (Y := 2) (d := 0) (by norm_num)
  refine this.mono ?_
  have := eta64
  rw [eps64]
  norm_num at this ⊢
  linarith

theorem app_one : App (Fl.lit Fmt.b64 1 1) 1 (1 / 2 ^ 51) := by
  have h := App.lit Fmt.ok64 (n := 1) (d := 1) one_pos (A := 1) (by norm_num) (_root_.le_trans (by norm_num) top64)
  have := h.near (Y := 1) (d := 0) (by norm_num)
  refine this.mono ?_
  have := eta64
  rw [eps64]
  norm_num at this ⊢
  linarith

theorem app_half : App (Fl.lit Fmt.b64 5 10) (1 / 2) (1 / 2 ^ 51) := by
  have h := App.lit Fmt.ok64 (n := 5) (d := 10) (by norm_num) (A := 1) (by norm_num)
    (_root_.le_trans (by norm_num) top64)
  have := h.near (Y := 1 / 2) (d := 0) (by norm_num)
  refine this.mono ?_
  have := eta64
  rw [eps64]
  norm_num at this ⊢
  linarith

theorem app_nat {n : Nat} (hn : n ≤ 48) : App (Fl.ofInt Fmt.b64 (n : Int)) n 0 :=
  App.ofNat Fmt.ok64 (hn.trans (by decide))

theorem pi_abs : |Real.pi| ≤ 4 := by
  rw [abs_of_pos Real.pi_pos]
  exact Real.pi_le_four

/-- The Hann window. -/
theorem app_window (hm : TrigWithin m (1 / 2 ^ 30)) {j : Nat} (hj : j ≤ 48) :
    App (Fl.mul (Fl.lit Fmt.b64 5 10) (Fl.sub (Fl.lit Fmt.b64 1 1) (m.cos (Fl.div (Fl.mul (Fl.mul (Fl.lit Fmt.b64 2 1)
      (piLit (Fl.arith Fmt.b64))) (Fl.ofInt Fmt.b64 (j : Nat))) (Fl.ofInt Fmt.b64 (48 : Nat))))))
      ((1 - Real.cos (2 * Real.pi * j / 48)) / 2) (1 / 2 ^ 30) := by
  have t1 := eta64
  have t2 := top64
  norm_num at t1 t2
  have pa := pi_abs
  have pp := Real.pi_pos
  have jR : (j : ℝ) ≤ 48 := by exact_mod_cast hj
  have j0 : (0 : ℝ) ≤ j := Nat.cast_nonneg _
  have a1 := (app_two.mul Fmt.ok64 app_pi (A := 2) (B := 4) (by norm_num) pa
    (_root_.le_trans (by norm_num) t2)).mono (e' := 1 / 2 ^ 46) (by rw [eps64]; norm_num; linarith)
  have p8 : |2 * Real.pi| ≤ 8 := by rw [abs_mul, abs_two]; linarith
  have a2 := (a1.mul Fmt.ok64 (app_nat hj) (A := 8) (B := 48) p8
    (by rw [abs_of_nonneg j0]; exact jR) (_root_.le_trans (by norm_num) t2)).mono (e' := 1 / 2 ^ 40)
    (by rw [eps64]; norm_num; linarith)
  have a3 := (a2.div Fmt.ok64 (app_nat (Nat.le_refl 48)) (A := 384) (L := 48)
    (by rw [abs_mul, abs_of_nonneg j0]; nlinarith [abs_nonneg (2 * Real.pi)])
    (by norm_num) (by norm_num) (_root_.le_trans (by norm_num) t2)).mono (e' := 1 / 2 ^ 44)
    (by rw [eps64]; norm_num; linarith)
  have b3 : |2 * Real.pi * j / ((48 : Nat) : ℝ)| ≤ 8 := by
    rw [abs_div, abs_mul, abs_of_nonneg j0]
    norm_num
    rw [div_le_iff₀ (by norm_num)]
    rw [abs_mul, abs_two] at p8
    nlinarith [abs_nonneg Real.pi]
  have hc := (hm _ a3.1 ((a3.abs_le b3).trans (by norm_num))).2
  have a4 : App (m.cos (Fl.div (Fl.mul (Fl.mul (Fl.lit Fmt.b64 2 1)
      (piLit (Fl.arith Fmt.b64))) (Fl.ofInt Fmt.b64 (j : Nat))) (Fl.ofInt Fmt.b64 (48 : Nat))))
      (Real.cos (2 * Real.pi * j / 48)) (1 / 2 ^ 30 + 1 / 2 ^ 44) := by
    refine ⟨hc.1, (abs_sub_le _ _ _).trans (add_le_add hc.2 ((abs_cos_sub_le _ _).trans ?_))⟩
    exact a3.2
  have c1 := Real.neg_one_le_cos (2 * Real.pi * j / 48)
  have c2 := Real.cos_le_one (2 * Real.pi * j / 48)
  have b5 : |1 - Real.cos (2 * Real.pi * j / 48)| ≤ 2 := by rw [abs_le]; constructor <;> linarith
  have a5 := (app_one.sub Fmt.ok64 a4 (A := 2) b5 (_root_.le_trans (by norm_num) t2)).mono
    (e' := 1 / 2 ^ 30 + 1 / 2 ^ 43) (by rw [eps64]; norm_num; linarith)
  have a6 := (app_half.mul Fmt.ok64 a5 (A := 1 / 2) (B := 2) (by norm_num) b5
    (_root_.le_trans (by norm_num) t2)).mono (e' := 1 / 2 ^ 30) (by rw [eps64]; norm_num; linarith)
  rwa [show (1 : ℝ) / 2 * (1 - Real.cos (2 * Real.pi * j / 48)) = (1 - Real.cos (2 * Real.pi * j / 48)) / 2 by ring] at a6

theorem app_centre {j : Nat} (hj : j ≤ 48) :
    App (Fl.sub (Fl.ofInt Fmt.b64 (j : Nat)) (Fl.div (Fl.ofInt Fmt.b64 (48 : Nat)) (Fl.lit Fmt.b64 2 1)))
      ((j : ℝ) - 24) (1 / 2 ^ 43) := by
  have t1 := eta64
  have t2 := top64
  norm_num at t1 t2
  have jR : (j : ℝ) ≤ 48 := by exact_mod_cast hj
  have j0 : (0 : ℝ) ≤ j := Nat.cast_nonneg _
  have a1 := ((app_nat (Nat.le_refl 48)).div Fmt.ok64 app_two (A := 48) (L := 1) (by norm_num) (by norm_num)
    (by norm_num) (_root_.le_trans (by norm_num) t2)).mono (e' := 1 / 2 ^ 44) (by rw [eps64]; norm_num; linarith)
  rw [show ((48 : Nat) : ℝ) / 2 = 24 by norm_num] at a1
  exact ((app_nat hj).sub Fmt.ok64 a1 (A := 24) (by rw [abs_le]; constructor <;> linarith)
    (_root_.le_trans (by norm_num) t2)).mono (by rw [eps64]; norm_num; linarith)

theorem interpCoeff_ops {D S : Type} (E : Env D S) (A : Arith D) (mul sub div : D → D → D) (lit : Int → Nat → D)
    (ofInt : Int → D) (lt : D → D → Bool) (abs : D → D) (narrow : D → S) (lm : Libm D) (h0 : E.f64 = A)
    (h1 : A.mul = mul) (h2 : A.sub = sub) (h3 : A.div = div) (h4 : A.lit = lit) (h5 : A.ofInt = ofInt) (h6 : A.lt = lt)
    (h7 : A.abs = abs) (h8 : E.narrow = narrow) (h9 : E.libm = lm) (factor j : Nat) :
    interpCoeff E factor j = narrow (
      if lt (lit 1 1000000) (abs (sub (ofInt (j : Nat)) (div (ofInt (48 : Nat))
        (lit 2 1)))) then
        div (mul (mul (lit 5 10) (sub (lit 1 1) (lm.cos (div (mul (mul (lit 2 1)
          (piLit A)) (ofInt (j : Nat))) (ofInt (48 : Nat))))))
          (lm.sin (div (mul (sub (ofInt (j : Nat)) (div (ofInt (48 : Nat)) (lit 2 1)))
            (piLit A)) (ofInt (factor : Nat)))))
          (div (mul (sub (ofInt (j : Nat)) (div (ofInt (48 : Nat)) (lit 2 1)))
            (piLit A)) (ofInt (factor : Nat)))
      else mul (lit 5 10) (sub (lit 1 1) (lm.cos (div (mul (mul (lit 2 1)
          (piLit A)) (ofInt (j : Nat))) (ofInt (48 : Nat)))))) := by
  subst h0
  subst h1 h2 h3 h4 h5 h6 h7 h8 h9
  rfl

theorem interpCoeff_float (m : Libm F64) (bs : BSearch) (t : Target) (factor j : Nat) :
    interpCoeff (ieeeEnv m bs t) factor j = Fl.cast Fmt.b32 (
      if Fl.lt (Fl.lit Fmt.b64 1 1000000) (Fl.abs (Fl.sub (Fl.ofInt Fmt.b64 (j : Nat)) (Fl.div (Fl.ofInt Fmt.b64 (48 : Nat))
        (Fl.lit Fmt.b64 2 1)))) then
        Fl.div (Fl.mul (Fl.mul (Fl.lit Fmt.b64 5 10) (Fl.sub (Fl.lit Fmt.b64 1 1) (m.cos (Fl.div (Fl.mul (Fl.mul (Fl.lit Fmt.b64 2 1)
          (piLit (Fl.arith Fmt.b64))) (Fl.ofInt Fmt.b64 (j : Nat))) (Fl.ofInt Fmt.b64 (48 : Nat))))))
          (m.sin (Fl.div (Fl.mul (Fl.sub (Fl.ofInt Fmt.b64 (j : Nat)) (Fl.div (Fl.ofInt Fmt.b64 (48 : Nat)) (Fl.lit Fmt.b64 2 1)))
            (piLit (Fl.arith Fmt.b64))) (Fl.ofInt Fmt.b64 (factor : Nat)))))
          (Fl.div (Fl.mul (Fl.sub (Fl.ofInt Fmt.b64 (j : Nat)) (Fl.div (Fl.ofInt Fmt.b64 (48 : Nat)) (Fl.lit Fmt.b64 2 1)))
            (piLit (Fl.arith Fmt.b64))) (Fl.ofInt Fmt.b64 (factor : Nat)))
      else Fl.mul (Fl.lit Fmt.b64 5 10) (Fl.sub (Fl.lit Fmt.b64 1 1) (m.cos (Fl.div (Fl.mul (Fl.mul (Fl.lit Fmt.b64 2 1)
          (piLit (Fl.arith Fmt.b64))) (Fl.ofInt Fmt.b64 (j : Nat))) (Fl.ofInt Fmt.b64 (48 : Nat)))))) :=
  interpCoeff_ops (ieeeEnv m bs t) (Fl.arith Fmt.b64) Fl.mul Fl.sub Fl.div (Fl.lit Fmt.b64) (Fl.ofInt Fmt.b64) Fl.lt Fl.abs
    (Fl.cast Fmt.b32) m rfl rfl rfl rfl rfl rfl rfl rfl rfl rfl factor j

/-- **C55.** In floating point, for any elementary functions accurate to `2^-30`: every coefficient is a finite number
within `2^-22` of the Hann-windowed sinc. -/
theorem C55_float (hm : TrigWithin m (1 / 2 ^ 30)) {factor j : Nat} (hf : factor = 2 ∨ factor = 4) (hj : j < 48) :
    (interpCoeff (ieeeEnv m bs t) factor j).Finite ∧
    |(interpCoeff (ieeeEnv m bs t) factor j).value - kernel factor j| ≤ 1 / 2 ^ 22 := by
  have t1 := eta64
  have t2 := top64
  have t3 := top32
  norm_num at t1 t2 t3
  have pa := pi_abs
  have pp := Real.pi_gt_three
  have jR : (j : ℝ) ≤ 48 := by exact_mod_cast hj.le
  have j0 : (0 : ℝ) ≤ j := Nat.cast_nonneg _
  have w := app_window hm hj.le
  have c := app_centre hj.le
  have c1 := Real.neg_one_le_cos (2 * Real.pi * j / 48)
  have c2 := Real.cos_le_one (2 * Real.pi * j / 48)
  have w1 : |(1 - Real.cos (2 * Real.pi * j / 48)) / 2| ≤ 1 := by rw [abs_le]; constructor <;> linarith
  rw [interpCoeff_float, coeff_branch j hj]
  unfold kernel
  by_cases h24 : j = 24
  · rw [if_neg (by simp [h24])]
    have : Real.sinc (Real.pi * ((j : ℝ) - 24) / factor) = 1 := by rw [h24]; norm_num
    rw [this, mul_one]
    exact (w.cast Fmt.ok32 w1 (_root_.le_trans (by norm_num) t3)).mono (by rw [eps32, eta32]; norm_num)
  · rw [if_pos (by simp [h24])]
    have h1 : (1 : ℝ) ≤ |(j : ℝ) - 24| := by
      rcases Nat.lt_or_gt_of_ne h24 with h | h
      · have : (j : ℝ) + 1 ≤ 24 := by exact_mod_cast h
        rw [abs_of_neg (by linarith)]
        linarith
      · have : (24 : ℝ) + 1 ≤ j := by exact_mod_cast h
        rw [abs_of_pos (by linarith)]
        linarith
    have c24 : |(j : ℝ) - 24| ≤ 24 := by rw [abs_le]; constructor <;> linarith
    have fR : (2 : ℝ) ≤ factor ∧ (factor : ℝ) ≤ 4 := by rcases hf with rfl | rfl <;> norm_num
    have a1 := (c.mul Fmt.ok64 app_pi (A := 24) (B := 4) c24 pa (_root_.le_trans (by norm_num) t2)).mono
      (e' := 1 / 2 ^ 40) (by rw [eps64]; norm_num; linarith)
    have b1 : |((j : ℝ) - 24) * Real.pi| ≤ 96 := by
      rw [abs_mul]; nlinarith [abs_nonneg ((j : ℝ) - 24), abs_nonneg Real.pi]
    have a2 := (a1.div Fmt.ok64 (app_nat (n := factor) (by omega)) (A := 96) (L := 2) b1
      (by rw [abs_of_nonneg (by linarith)]; linarith) (by norm_num) (_root_.le_trans (by norm_num) t2)).mono
      (e' := 1 / 2 ^ 40) (by rw [eps64]; norm_num; linarith)
    have f0 : (0 : ℝ) < factor := by linarith
    have b2 : |((j : ℝ) - 24) * Real.pi / factor| ≤ 48 := by
      rw [abs_div, abs_of_pos f0, div_le_iff₀ f0]
      linarith
    have l2 : 3 / 4 ≤ |((j : ℝ) - 24) * Real.pi / factor| := by
      rw [abs_div, abs_of_pos f0, le_div_iff₀ f0, abs_mul, abs_of_pos Real.pi_pos]
      nlinarith
    have hs := (hm _ a2.1 ((a2.abs_le b2).trans (by norm_num))).1
    have a3 : App (m.sin (Fl.div (Fl.mul (Fl.sub (Fl.ofInt Fmt.b64 (j : Nat)) (Fl.div (Fl.ofInt Fmt.b64 (48 : Nat))
        (Fl.lit Fmt.b64 2 1))) (piLit (Fl.arith Fmt.b64))) (Fl.ofInt Fmt.b64 (factor : Nat))))
        (Real.sin (((j : ℝ) - 24) * Real.pi / factor)) (1 / 2 ^ 30 + 1 / 2 ^ 40) :=
      ⟨hs.1, (abs_sub_le _ _ _).trans (add_le_add hs.2 ((abs_sin_sub_le _ _).trans a2.2))⟩
    have a4 := (w.mul Fmt.ok64 a3 (A := 1) (B := 1) w1 (Real.abs_sin_le_one _) (_root_.le_trans (by norm_num) t2)).mono
      (e' := 1 / 2 ^ 28) (by rw [eps64]; norm_num; linarith)
    have b4 : |(1 - Real.cos (2 * Real.pi * j / 48)) / 2 * Real.sin (((j : ℝ) - 24) * Real.pi / factor)| ≤ 1 := by
      rw [abs_mul]
      exact mul_le_one₀ w1 (abs_nonneg _) (Real.abs_sin_le_one _)
    have a5 := (a4.div Fmt.ok64 a2 (A := 1) (L := 1 / 2) b4 (_root_.le_trans (by norm_num) l2) (by norm_num)
      (_root_.le_trans (by norm_num) t2)).mono (e' := 1 / 2 ^ 26) (by rw [eps64]; norm_num; linarith)
    have hne : Real.pi * ((j : ℝ) - 24) / factor ≠ 0 := by
      have : (j : ℝ) - 24 ≠ 0 := fun h => by rw [h] at h1; norm_num at h1
      have := Real.pi_pos
      positivity
    have e6 : (1 - Real.cos (2 * Real.pi * j / 48)) / 2 * Real.sinc (Real.pi * ((j : ℝ) - 24) / factor) =
        (1 - Real.cos (2 * Real.pi * j / 48)) / 2 * Real.sin (((j : ℝ) - 24) * Real.pi / factor) /
          (((j : ℝ) - 24) * Real.pi / factor) := by
      rw [Real.sinc_of_ne_zero hne, _root_.mul_comm Real.pi, ← mul_div_assoc]
    rw [e6]
    have b5 : |(1 - Real.cos (2 * Real.pi * j / 48)) / 2 * Real.sin (((j : ℝ) - 24) * Real.pi / factor) /
          (((j : ℝ) - 24) * Real.pi / factor)| ≤ 1 := by
      rw [← e6, abs_mul]
      exact mul_le_one₀ w1 (abs_nonneg _) (Real.abs_sinc_le_one _)
    exact (a5.cast Fmt.ok32 b5 (_root_.le_trans (by norm_num) t3)).mono (by rw [eps32, eta32]; norm_num)

/-! ## The shape of the kernel -/

/-- **C55.** Phase 0 is a pure delay of `24 / factor` samples: every other coefficient of it is zero. -/
theorem C55_phase_zero {factor : Nat} (hf : factor = 2 ∨ factor = 4) (i : Nat) :
    kernel factor (i * factor) = if i = 24 / factor then 1 else 0 := by
  unfold kernel
  have fd : ((24 / factor : Nat) : ℝ) * factor = 24 := by rcases hf with rfl | rfl <;> norm_num
  have f0 : (factor : ℝ) ≠ 0 := by rcases hf with rfl | rfl <;> norm_num
  have e : Real.pi * (((i * factor : Nat) : ℝ) - 24) / factor = ((i : ℤ) - (24 / factor : Nat) : ℤ) * Real.pi := by
    rw [← fd, Int.cast_sub, Int.cast_natCast, Int.cast_natCast, Nat.cast_mul]
    field_simp
  rw [e]
  by_cases h : i = 24 / factor
  · rw [if_pos h, h, sub_self]
    have : 2 * Real.pi * ((24 / factor * factor : Nat) : ℝ) / 48 = Real.pi := by
      push_cast
      rw [fd]; ring
    rw [this]
    norm_num
  · rw [if_neg h]
    have hz : (i : ℤ) - (24 / factor : Nat) ≠ 0 := by omega
    have : ((i : ℤ) - (24 / factor : Nat) : ℤ) * Real.pi ≠ 0 :=
      mul_ne_zero (by exact_mod_cast hz) Real.pi_ne_zero
    rw [Real.sinc_of_ne_zero this, Real.sin_int_mul_pi, zero_div, mul_zero]

/-- **C55.** The kernel is symmetric: linear phase. -/
theorem C55_symmetric (factor : Nat) {j : Nat} (hj : j ≤ 48) : kernel factor (48 - j) = kernel factor j := by
  unfold kernel
  rw [Nat.cast_sub hj, show 2 * Real.pi * (((48 : Nat) : ℝ) - j) / 48 = 2 * Real.pi - 2 * Real.pi * j / 48 by
    push_cast; ring, Real.cos_two_pi_sub,
    show Real.pi * (((48 : Nat) : ℝ) - j - 24) / factor = -(Real.pi * ((j : ℝ) - 24) / factor) by push_cast; ring,
    Real.sinc_neg]

/-! ## Cases -/

/-- Sine and cosine rounded down to 40 binary places: an instance of the hypothesis. -/
noncomputable def Demo.trig40 (m : Libm F64) : Libm F64 :=
  { m with
    sin := fun x => Fl.lit _ ⌊Real.sin x.value * 2 ^ 40⌋ (2 ^ 40)
    cos := fun x => Fl.lit _ ⌊Real.cos x.value * 2 ^ 40⌋ (2 ^ 40) }

theorem Demo.floor40 {s : ℝ} (hs : |s| ≤ 1) : App (Fl.lit Fmt.b64 ⌊s * 2 ^ 40⌋ (2 ^ 40)) s (1 / 2 ^ 30) := by
  have t1 := eta64
  have t2 := top64
  norm_num at t1 t2
  have h1 := Int.floor_le (s * 2 ^ 40)
  have h2 := Int.lt_floor_add_one (s * 2 ^ 40)
  have h3 : |((⌊s * 2 ^ 40⌋ : ℤ) : ℝ) / ((2 ^ 40 : Nat) : ℝ) - s| ≤ 1 / 2 ^ 40 := by
    generalize ((⌊s * 2 ^ 40⌋ : ℤ) : ℝ) = f at h1 h2
    rw [abs_le]
    constructor
    · rw [le_sub_iff_add_le, le_div_iff₀ (by positivity)]
      norm_num at h2 ⊢
      linarith
    · rw [sub_le_iff_le_add, div_le_iff₀ (by positivity)]
      norm_num at h1 ⊢
      linarith
  have h4 : |((⌊s * 2 ^ 40⌋ : ℤ) : ℝ) / ((2 ^ 40 : Nat) : ℝ)| ≤ 2 := by
    have := abs_add_le (((⌊s * 2 ^ 40⌋ : ℤ) : ℝ) / ((2 ^ 40 : Nat) : ℝ) - s) s
    rw [sub_add_cancel] at this
    norm_num at this h3 ⊢
    linarith
  exact ((App.lit Fmt.ok64 (by positivity) h4 (_root_.le_trans (by norm_num) t2)).near h3).mono
    (by rw [eps64]; norm_num; linarith)

example (m : Libm F64) : TrigWithin (Demo.trig40 m) (1 / 2 ^ 30) := fun _ _ _ =>
  ⟨Demo.floor40 (Real.abs_sin_le_one _), Demo.floor40 (Real.abs_cos_le_one _)⟩

/-- The coefficient two points from the centre of the 4x filter: 0.626. -/
example : |kernel 4 22 - 0.6257736| ≤ 1 / 10 ^ 6 := by
  have h := kernel_near (factor := 4) (j := 22) (.inr rfl) (by norm_num)
  have e : kernelZ 4 22 = 625773627 := by decide +kernel
  rw [e] at h
  rw [abs_le] at h ⊢
  constructor <;> norm_num at h ⊢ <;> linarith

example : Fl.lt (Fl.lit _ 6257735 (10 ^ 7)) (interpCoeff (Demo.envReal false) 4 22) = true ∧
    Fl.lt (interpCoeff (Demo.envReal false) 4 22) (Fl.lit _ 6257737 (10 ^ 7)) = true := by decide +kernel

example : kernel 4 (6 * 4) = 1 ∧ kernel 4 (5 * 4) = 0 ∧ kernel 2 (12 * 2) = 1 := by
  refine ⟨?_, ?_, ?_⟩ <;> rw [C55_phase_zero (by decide)] <;> norm_num

end Verif
