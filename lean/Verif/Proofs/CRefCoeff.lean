import Verif.Proofs.CRefFloat
import Verif.Proofs.CRef
import Verif.Props.C56
/-! # The interpolation coefficients of the crate and of the C reference, and tight rounding errors -/

namespace Verif
open Fl Spec
variable {m : Libm F64} {bs : BSearch} {t : Target} {φ ψ : Fmt}

/-! ## Tight rounding errors -/

theorem round_tight {r R : ℝ} (he : eps φ ≤ 1 / 64) (h : |r - R| ≤ eps φ * |r| + eta φ) :
    |r - R| ≤ 33 / 32 * eps φ * |R| + 2 * eta φ := by
  have e0 := eps_pos φ
  have e1 := eta_pos φ
  have h1 : |r| ≤ |r - R| + |R| := by
    have := abs_add_le (r - R) R
    rwa [sub_add_cancel] at this
  have h2 := mul_le_mul_of_nonneg_left h1 e0.le
  have h3 := mul_le_mul_of_nonneg_right he (abs_nonneg (r - R))
  have h4 := mul_nonneg e0.le (abs_nonneg R)
  rw [_root_.mul_assoc]
  rw [mul_add] at h2
  generalize eps φ * |R| = x at *
  generalize eps φ * |r - R| = y at *
  generalize |r - R| = z at *
  generalize eps φ * |r| = w at *
  linarith

theorem Fl.App.tight (he : eps φ ≤ 1 / 64) {r : Fl φ} {R S e A : ℝ} (hr : r.Finite)
    (h : |r.value - R| ≤ eps φ * |r.value| + eta φ) (hR : |R - S| ≤ e) (hA : |R| ≤ A) :
    App r S (e + 33 / 32 * eps φ * A + 2 * eta φ) := by
  refine ⟨hr, ?_⟩
  have h1 := round_tight he h
  have h2 := abs_sub_le r.value R S
  have h3 := mul_le_mul_of_nonneg_left hA (mul_nonneg (by norm_num : (0 : ℝ) ≤ 33 / 32) (eps_pos φ).le)
  linarith

theorem tight32 : eps Fmt.b32 ≤ 1 / 64 := by rw [eps32]; norm_num
theorem tight64 : eps Fmt.b64 ≤ 1 / 64 := by rw [eps64]; norm_num

theorem Fl.App.cast_tight (ok : ψ.Ok) (he : eps ψ ≤ 1 / 64) {x : Fl φ} {X e A : ℝ} (hx : App x X e) (hX : |X| ≤ A)
    (ht : A + e ≤ top ψ) : App (Fl.cast ψ x) X (e + 33 / 32 * eps ψ * (A + e) + 2 * eta ψ) := by
  have hv := hx.abs_le hX
  have hf := cast_finite ok hx.1 (hv.trans ht)
  exact App.tight he hf (cast_err ok.mb hx.1 hf) hx.2 hv

theorem Fl.App.add_tight (ok : φ.Ok) (he : eps φ ≤ 1 / 64) {x y : Fl φ} {X Y e d A : ℝ} (hx : App x X e) (hy : App y Y d)
    (hX : |X + Y| ≤ A) (ht : A + e + d ≤ top φ) :
    App (Fl.add x y) (X + Y) (e + d + 33 / 32 * eps φ * (A + e + d) + 2 * eta φ) := by
  have h0 : |x.value + y.value - (X + Y)| ≤ e + d := by
    rw [show x.value + y.value - (X + Y) = (x.value - X) + (y.value - Y) by ring]
    exact (abs_add_le _ _).trans (add_le_add hx.2 hy.2)
  have hp : |x.value + y.value| ≤ A + e + d := by
    have := abs_add_le (x.value + y.value - (X + Y)) (X + Y)
    rw [sub_add_cancel] at this
    linarith
  have hf := add_finite ok hx.1 hy.1 (hp.trans ht)
  exact App.tight he hf (add_err ok.mb hx.1 hy.1 hf) h0 hp

theorem Fl.App.mul_tight (ok : φ.Ok) (he : eps φ ≤ 1 / 64) {x y : Fl φ} {X Y e d A B : ℝ} (hx : App x X e)
    (hy : App y Y d) (hX : |X| ≤ A) (hY : |Y| ≤ B) (ht : (A + e) * (B + d) ≤ top φ) :
    App (Fl.mul x y) (X * Y) (A * d + e * B + e * d + 33 / 32 * eps φ * ((A + e) * (B + d)) + 2 * eta φ) := by
  have h1 := hx.abs_le hX
  have h2 := hy.abs_le hY
  have hp : |x.value * y.value| ≤ (A + e) * (B + d) := by
    rw [abs_mul]
    exact mul_le_mul h1 h2 (abs_nonneg _) ((abs_nonneg _).trans h1)
  have hf := mul_finite ok hx.1 hy.1 (hp.trans ht)
  refine App.tight he hf (mul_err ok.mb hx.1 hy.1 hf) ?_ hp
  have e0 : x.value * y.value - X * Y = X * (y.value - Y) + (x.value - X) * Y + (x.value - X) * (y.value - Y) := by ring
  rw [e0]
  have h0 := (abs_nonneg _).trans hx.2
  refine (abs_add_le _ _).trans (add_le_add ((abs_add_le _ _).trans (add_le_add ?_ ?_)) ?_)
  · rw [abs_mul]; exact mul_le_mul hX hy.2 (abs_nonneg _) ((abs_nonneg _).trans hX)
  · rw [abs_mul]; exact mul_le_mul hx.2 hY (abs_nonneg _) h0
  · rw [abs_mul]; exact mul_le_mul hx.2 hy.2 (abs_nonneg _) h0

/-! ## The coefficients -/

/-- The argument of the sinc, in doubles. -/
def sincArg (factor j : Nat) : F64 :=
  Fl.div (Fl.mul (Fl.sub (Fl.ofInt Fmt.b64 (j : Nat)) (Fl.div (Fl.ofInt Fmt.b64 (48 : Nat)) (Fl.lit Fmt.b64 2 1)))
    (piLit (Fl.arith Fmt.b64))) (Fl.ofInt Fmt.b64 (factor : Nat))

/-- The window, in doubles. -/
def hann (m : Libm F64) (j : Nat) : F64 :=
  Fl.mul (Fl.lit Fmt.b64 5 10) (Fl.sub (Fl.lit Fmt.b64 1 1) (m.cos (Fl.div (Fl.mul (Fl.mul (Fl.lit Fmt.b64 2 1)
    (piLit (Fl.arith Fmt.b64))) (Fl.ofInt Fmt.b64 (j : Nat))) (Fl.ofInt Fmt.b64 (48 : Nat)))))

theorem coeff_branch' : ∀ j < 49,
    Fl.lt (Fl.lit Fmt.b64 1 1000000) (Fl.abs (Fl.sub (Fl.ofInt Fmt.b64 (j : Nat)) (Fl.div (Fl.ofInt Fmt.b64 (48 : Nat))
      (Fl.lit Fmt.b64 2 1)))) = decide (j ≠ 24) := by
  decide +kernel

/-- The crate's coefficient. -/
theorem rust_coeff {factor j : Nat} (hj : j < 48) : interpCoeff (ieeeEnv m bs t) factor j = Fl.cast Fmt.b32
    (if j = 24 then hann m j else Fl.div (Fl.mul (hann m j) (m.sin (sincArg factor j))) (sincArg factor j)) := by
  rw [interpCoeff_float, coeff_branch j hj]
  unfold hann sincArg
  by_cases h : j = 24
  · rw [if_neg (by simp [h]), if_pos h]
  · rw [if_pos (by simp [h]), if_neg h]

theorem cCoeff_ops {D S : Type} (E : Env D S) (A : Arith D) (mul sub div : D → D → D) (lit : Int → Nat → D)
    (ofInt : Int → D) (lt : D → D → Bool) (abs : D → D) (lm : Libm D) (h0 : E.f64 = A)
    (h1 : A.mul = mul) (h2 : A.sub = sub) (h3 : A.div = div) (h4 : A.lit = lit) (h5 : A.ofInt = ofInt) (h6 : A.lt = lt)
    (h7 : A.abs = abs) (h9 : E.libm = lm) (hpi : CRef.mPi A = piLit A) (factor j : Nat) :
    CRef.interpCoeff E 49 factor j = mul (
      if lt (lit 1 1000000) (abs (sub (ofInt (j : Nat)) (div (ofInt (48 : Nat)) (lit 2 1)))) then
        div (lm.sin (div (mul (sub (ofInt (j : Nat)) (div (ofInt (48 : Nat)) (lit 2 1))) (piLit A)) (ofInt (factor : Nat))))
          (div (mul (sub (ofInt (j : Nat)) (div (ofInt (48 : Nat)) (lit 2 1))) (piLit A)) (ofInt (factor : Nat)))
      else lit 1 1) (mul (lit 5 10) (sub (lit 1 1) (lm.cos (div (mul (mul (lit 2 1)
          (piLit A)) (ofInt (j : Nat))) (ofInt (48 : Nat)))))) := by
  subst h0
  rw [← hpi]
  subst h1 h2 h3 h4 h5 h6 h7 h9
  rfl

/-- The coefficient of the C reference. -/
theorem c_coeff {factor j : Nat} (hj : j < 49) : CRef.interpCoeff (ieeeEnv m bs t) 49 factor j =
    Fl.mul (if j = 24 then Fl.lit Fmt.b64 1 1 else Fl.div (m.sin (sincArg factor j)) (sincArg factor j)) (hann m j) := by
  rw [cCoeff_ops (ieeeEnv m bs t) (Fl.arith Fmt.b64) Fl.mul Fl.sub Fl.div (Fl.lit Fmt.b64) (Fl.ofInt Fmt.b64) Fl.lt Fl.abs
    m rfl rfl rfl rfl rfl rfl rfl rfl rfl CRef.pi_eq factor j, coeff_branch' j hj]
  unfold hann sincArg
  by_cases h : j = 24
  · rw [if_neg (by simp [h]), if_pos h]
  · rw [if_pos (by simp [h]), if_neg h]

theorem hann_app (hm : TrigWithin m (1 / 2 ^ 30)) {j : Nat} (hj : j ≤ 48) :
    App (hann m j) ((1 - Real.cos (2 * Real.pi * j / 48)) / 2) (1 / 2 ^ 30) := app_window hm hj

theorem hann_abs (j : Nat) : |(1 - Real.cos (2 * Real.pi * j / 48)) / 2| ≤ 1 := by
  have c1 := Real.neg_one_le_cos (2 * Real.pi * j / 48)
  have c2 := Real.cos_le_one (2 * Real.pi * j / 48)
  rw [abs_le]
  constructor <;> linarith

theorem arg_app {factor j : Nat} (hf : factor = 2 ∨ factor = 4) (hj : j ≤ 48) (h24 : j ≠ 24) :
    App (sincArg factor j) (((j : ℝ) - 24) * Real.pi / factor) (1 / 2 ^ 40) ∧
      |((j : ℝ) - 24) * Real.pi / factor| ≤ 48 ∧ 3 / 4 ≤ |((j : ℝ) - 24) * Real.pi / factor| := by
  have t1 := eta64
  have t2 := top64
  norm_num at t1 t2
  have pa := pi_abs
  have pp := Real.pi_gt_three
  have jR : (j : ℝ) ≤ 48 := by exact_mod_cast hj
  have j0 : (0 : ℝ) ≤ j := Nat.cast_nonneg _
  have c := app_centre hj
  have h1 : (1 : ℝ) ≤ |(j : ℝ) - 24| := by
    rcases Nat.lt_or_gt_of_ne h24 with h | h
    · have : (j : ℝ) + 1 ≤ 24 := by exact_mod_cast h
      rw [abs_of_neg (by linarith)]
      linarith
    · have : (24 : ℝ) + 1 ≤ j := by exact_mod_cast h
      rw [abs_of_pos (by linarith)]
      linarith
  have c24 : |(j : ℝ) - 24| ≤ 24 := by rw [abs_le]; constructor <;> linarith
  have fR : (2 : ℝ) ≤ factor ∧ (factor : ℝ) ≤ 4 := by rcases hf with rfl | rfl <;> norm_num
  have a1 := (c.mul Fmt.ok64 app_pi (A := 24) (B := 4) c24 pa (_root_.le_trans (by norm_num) t2)).mono
    (e' := 1 / 2 ^ 40) (by rw [eps64]; norm_num; linarith)
  have b1 : |((j : ℝ) - 24) * Real.pi| ≤ 96 := by
    rw [abs_mul]; nlinarith [abs_nonneg ((j : ℝ) - 24), abs_nonneg Real.pi]
  have a2 := (a1.div Fmt.ok64 (app_nat (n := factor) (by omega)) (A := 96) (L := 2) b1
    (by rw [abs_of_nonneg (by linarith)]; linarith) (by norm_num) (_root_.le_trans (by norm_num) t2)).mono
    (e' := 1 / 2 ^ 40) (by rw [eps64]; norm_num; linarith)
  have f0 : (0 : ℝ) < factor := by linarith
  refine ⟨a2, ?_, ?_⟩
  · rw [abs_div, abs_of_pos f0, div_le_iff₀ f0]
    linarith
  · rw [abs_div, abs_of_pos f0, le_div_iff₀ f0, abs_mul, abs_of_pos Real.pi_pos]
    nlinarith

theorem sin_app (hm : TrigWithin m (1 / 2 ^ 30)) {factor j : Nat} (hf : factor = 2 ∨ factor = 4) (hj : j ≤ 48)
    (h24 : j ≠ 24) :
    App (m.sin (sincArg factor j)) (Real.sin (((j : ℝ) - 24) * Real.pi / factor)) (1 / 2 ^ 30 + 1 / 2 ^ 40) := by
  obtain ⟨a2, b2, -⟩ := arg_app hf hj h24
  have hs := (hm _ a2.1 ((a2.abs_le b2).trans (by norm_num))).1
  exact ⟨hs.1, (abs_sub_le _ _ _).trans (add_le_add hs.2 ((abs_sin_sub_le _ _).trans a2.2))⟩

theorem sinc_eq {factor j : Nat} (hf : factor = 2 ∨ factor = 4) (h24 : j ≠ 24) :
    Real.sinc (Real.pi * ((j : ℝ) - 24) / factor) =
      Real.sin (((j : ℝ) - 24) * Real.pi / factor) / (((j : ℝ) - 24) * Real.pi / factor) := by
  have f0 : (factor : ℝ) ≠ 0 := by rcases hf with rfl | rfl <;> norm_num
  have hne : Real.pi * ((j : ℝ) - 24) / factor ≠ 0 := by
    have : (j : ℝ) - 24 ≠ 0 := fun h => h24 (by exact_mod_cast (sub_eq_zero.1 h))
    have := Real.pi_pos
    positivity
  rw [Real.sinc_of_ne_zero hne, _root_.mul_comm Real.pi]

/-- A coefficient of the crate before it is narrowed, and narrowed. -/
theorem rust_coeff_app (hm : TrigWithin m (1 / 2 ^ 30)) {factor j : Nat} (hf : factor = 2 ∨ factor = 4) (hj : j < 48) :
    App (interpCoeff (ieeeEnv m bs t) factor j) (kernel factor j) (|kernel factor j| * (33 / 32 / 2 ^ 24) + 33 / 32 / 2 ^ 27) := by
  have t1 := eta64
  have t2 := top64
  have t3 := top32
  norm_num at t1 t2 t3
  have w := hann_app hm hj.le
  have w1 := hann_abs j
  have k1 := kernel_abs factor j
  rw [rust_coeff hj]
  have key : App (if j = 24 then hann m j else Fl.div (Fl.mul (hann m j) (m.sin (sincArg factor j))) (sincArg factor j))
      (kernel factor j) (1 / 2 ^ 27) := by
    by_cases h24 : j = 24
    · rw [if_pos h24]
      unfold kernel
      have : Real.sinc (Real.pi * ((j : ℝ) - 24) / factor) = 1 := by rw [h24]; norm_num
      rw [this, mul_one]
      exact w.mono (by norm_num)
    · rw [if_neg h24]
      obtain ⟨a2, b2, l2⟩ := arg_app hf hj.le h24
      have a3 := sin_app hm hf hj.le h24
      have a4 := (w.mul Fmt.ok64 a3 (A := 1) (B := 1) w1 (Real.abs_sin_le_one _)
        (_root_.le_trans (by norm_num) t2)).mono
        (e' := 1 / 2 ^ 29 + 1 / 2 ^ 38) (by rw [eps64]; norm_num; linarith)
      have b4 : |(1 - Real.cos (2 * Real.pi * j / 48)) / 2 * Real.sin (((j : ℝ) - 24) * Real.pi / factor)| ≤ 1 := by
        rw [abs_mul]
        exact mul_le_one₀ w1 (abs_nonneg _) (Real.abs_sin_le_one _)
      have a5 := (a4.div Fmt.ok64 a2 (A := 1) (L := 1 / 2) b4 (_root_.le_trans (by norm_num) l2) (by norm_num)
        (_root_.le_trans (by norm_num) t2)).mono (e' := 1 / 2 ^ 27) (by rw [eps64]; norm_num; linarith)
      rwa [mul_div_assoc, ← sinc_eq hf h24] at a5
  refine (key.cast_tight Fmt.ok32 tight32 (A := |kernel factor j|) _root_.le_rfl
    (_root_.le_trans (by norm_num at k1 ⊢; linarith) t3)).mono ?_
  rw [eps32, eta32]
  generalize |kernel factor j| = x at *
  norm_num
  linarith

/-- A coefficient of the C reference. -/
theorem c_coeff_app (hm : TrigWithin m (1 / 2 ^ 30)) {factor j : Nat} (hf : factor = 2 ∨ factor = 4) (hj : j < 49) :
    App (CRef.interpCoeff (ieeeEnv m bs t) 49 factor j) (kernel factor j) (1 / 2 ^ 28) := by
  have t1 := eta64
  have t2 := top64
  norm_num at t1 t2
  have hj' : j ≤ 48 := by omega
  have w := hann_app hm hj'
  have w1 := hann_abs j
  rw [c_coeff hj]
  unfold kernel
  rw [_root_.mul_comm ((1 - _) / 2)]
  by_cases h24 : j = 24
  · rw [if_pos h24]
    have : Real.sinc (Real.pi * ((j : ℝ) - 24) / factor) = 1 := by rw [h24]; norm_num
    rw [this]
    exact (app_one.mul Fmt.ok64 w (A := 1) (B := 1) (by norm_num) w1 (_root_.le_trans (by norm_num) t2)).mono
      (by rw [eps64]; norm_num; linarith)
  · rw [if_neg h24]
    obtain ⟨a2, b2, l2⟩ := arg_app hf hj' h24
    have a3 := sin_app hm hf hj' h24
    have a4 := (a3.div Fmt.ok64 a2 (A := 1) (L := 7 / 10) (Real.abs_sin_le_one _) (_root_.le_trans (by norm_num) l2)
      (by norm_num) (_root_.le_trans (by norm_num) t2)).mono (e' := 3 / 2 ^ 31) (by rw [eps64]; norm_num; linarith)
    rw [← sinc_eq hf h24] at a4
    exact (a4.mul Fmt.ok64 w (A := 1) (B := 1) (Real.abs_sinc_le_one _) w1 (_root_.le_trans (by norm_num) t2)).mono
      (by rw [eps64]; norm_num; linarith)

end Verif
