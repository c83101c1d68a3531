import Verif.Proofs.CRef
import Verif.Proofs.Convert
import Verif.Props.C17
/-!
# The C reference in IEEE-754 arithmetic: conversions and constants
-/

namespace Verif.CRef
open Fl Spec
variable {φ : Fmt} {m : Libm F64} {bs : BSearch} {t : Target}

/-- Dividing by one changes nothing. -/
theorem div_one (ok : φ.Ok) (x : Fl φ) : Fl.div x (Fl.lit φ 1 1) = x := by
  cases x with
  | nan => rfl
  | num s k hk =>
    have hB : 0 < 2 ^ φ.mb := Nat.two_pow_pos _
    obtain ⟨h3, h4⟩ := mag_rnd_int ok (n := 1) (by omega)
    have h5 : φ.rnd (1 * 2 ^ φ.u) 1 ≠ 0 := by
      intro h; rw [h, φ.mag_zero] at h3
      have := Nat.two_pow_pos φ.u; omega
    have e : Fl.lit φ 1 1 = .num false (φ.rnd (1 * 2 ^ φ.u) 1) (φ.rnd_le_infK ..) := rfl
    rw [e]
    unfold Fl.div
    simp only [if_neg (Nat.ne_of_lt h4), if_neg h5, Fl.ofMag, Bool.xor_false]
    split
    · next h => exact ext_num rfl h.symm
    · refine ext_num rfl ?_
      rw [h3, Nat.one_mul]
      exact φ.rnd_mag ok.mb hk (Nat.two_pow_pos _)

theorem div_one_p {x : F64} (h : t.sse2 = true → Fl.ftz x = x) :
    (ieeeEnv m bs t).f64p.div x (Fl.lit Fmt.b64 1 1) = x := by
  cases hs : t.sse2 with
  | false =>
    simp only [ieeeEnv, hs, Bool.false_eq_true, if_false]
    exact div_one Fmt.ok64 x
  | true =>
    simp only [ieeeEnv, hs, if_true]
    exact (congrArg Fl.ftz (div_one Fmt.ok64 x)).trans (h hs)

/-- A widened single is never subnormal. -/
theorem ftz_widen (x : F32) : Fl.ftz (Fl.cast Fmt.b64 x) = Fl.cast Fmt.b64 x := by
  cases x with
  | nan => rfl
  | num s k hk =>
    rw [widen_key]
    apply Fl.ftz_eq
    by_contra hc
    have h1 := fkey_wkey ⟨true, false, 0⟩ k
    unfold fkey at h1
    simp only [true_and] at h1
    rw [if_pos (by omega)] at h1
    omega

theorem scale16 : scaling (Fl.arith Fmt.b64) ((Fl.arith Fmt.b64).ofInt (-32768)) ((Fl.arith Fmt.b64).ofInt 32767) =
    Fl.lit Fmt.b64 32768 1 := by
  decide +kernel
theorem scale32 : scaling (Fl.arith Fmt.b64) ((Fl.arith Fmt.b64).ofInt (-2147483648))
    ((Fl.arith Fmt.b64).ofInt 2147483647) = Fl.lit Fmt.b64 2147483648 1 := by
  decide +kernel
theorem scale1 : scaling (Fl.arith Fmt.b64) ((Fl.arith Fmt.b64).neg ((Fl.arith Fmt.b64).lit 1 1))
    ((Fl.arith Fmt.b64).lit 1 1) = Fl.lit Fmt.b64 1 1 := by
  decide +kernel

theorem scale_of {E : Env F64 F32} (hE : E.f64 = Fl.arith Fmt.b64) :
    (cShort E).scale = Fl.lit Fmt.b64 32768 1 ∧ (cInt E).scale = Fl.lit Fmt.b64 2147483648 1 ∧
      (cFloat E).scale = Fl.lit Fmt.b64 1 1 ∧ (cDouble E).scale = Fl.lit Fmt.b64 1 1 := by
  simp only [cShort, cInt, cFloat, cDouble, hE]
  exact ⟨scale16, scale32, scale1, scale1⟩

theorem lit_p (a : Int) (b : Nat) : (ieeeEnv m bs t).f64p.lit a b = Fl.lit Fmt.b64 a b := by
  rcases t with ⟨_ | _, _, _⟩ <;> rfl

theorem short_scale : (cShort (ieeeEnv m bs t)).scale = Fl.lit Fmt.b64 32768 1 := (scale_of rfl).1
theorem int_scale : (cInt (ieeeEnv m bs t)).scale = Fl.lit Fmt.b64 2147483648 1 := (scale_of rfl).2.1
theorem float_scale : (cFloat (ieeeEnv m bs t)).scale = Fl.lit Fmt.b64 1 1 := (scale_of rfl).2.2.1
theorem double_scale : (cDouble (ieeeEnv m bs t)).scale = Fl.lit Fmt.b64 1 1 := (scale_of rfl).2.2.2

theorem short_op (x : Int16) : (i16Ops (ieeeEnv m bs t)).toF64 x =
    (ieeeEnv m bs t).f64p.div ((cShort (ieeeEnv m bs t)).toDouble x) (cShort (ieeeEnv m bs t)).scale := by
  rw [short_scale, ← lit_p (m := m) (bs := bs) (t := t)]; rfl

theorem int_op (x : Int32) : (i32Ops (ieeeEnv m bs t)).toF64 x =
    (ieeeEnv m bs t).f64p.div ((cInt (ieeeEnv m bs t)).toDouble x) (cInt (ieeeEnv m bs t)).scale := by
  rw [int_scale, ← lit_p (m := m) (bs := bs) (t := t)]; rfl

theorem float_op (x : F32) : (f32Ops (ieeeEnv m bs t)).toF64 x =
    (ieeeEnv m bs t).f64p.div ((cFloat (ieeeEnv m bs t)).toDouble x) (cFloat (ieeeEnv m bs t)).scale := by
  rw [float_scale]
  exact (div_one_p fun _ => ftz_widen x).symm

theorem double_op {x : F64} (h : t.sse2 = true → Fl.ftz x = x) : (f64Ops (ieeeEnv m bs t)).toF64 x =
    (ieeeEnv m bs t).f64p.div ((cDouble (ieeeEnv m bs t)).toDouble x) (cDouble (ieeeEnv m bs t)).scale := by
  rw [double_scale]
  exact (div_one_p h).symm

/-- The macro for the absolute value, next to a non-negative maximum or NaN. -/
theorem keepMax_abs (M x : F64) (h : Fl.lt M (Fl.zero false) = false) :
    keepMax (Fl.arith Fmt.b64) M x = maxBy Fl.lt M (Fl.abs x) ∧
      Fl.lt (maxBy Fl.lt M (Fl.abs x)) (Fl.zero false) = false := by
  have hl : (Fl.arith Fmt.b64).lt = Fl.lt := rfl
  have hg : (Fl.arith Fmt.b64).neg = Fl.neg := rfl
  simp only [keepMax, cmax, maxBy, hl, hg]
  cases x with
  | nan =>
    have e : ∀ y : F64, Fl.lt y .nan = false := by intro y; cases y <;> rfl
    simp only [Fl.neg, Fl.abs, e, Bool.false_eq_true, if_false]
    exact ⟨trivial, h⟩
  | num s k hk =>
    have habs : Fl.lt (Fl.abs (.num s k hk : F64)) (Fl.zero false) = false := by
      simp only [Fl.abs, Fl.lt, Fl.zero, Fl.skey]
      exact decide_eq_false (by simp)
    constructor
    · by_cases hc : Fl.lt (Fl.neg (.num s k hk)) (.num s k hk : F64) = true
      · simp only [hc, if_true]
        have hs : s = false := by
          cases s
          · rfl
          · simp only [Fl.neg, Fl.lt, Fl.skey, decide_eq_true_eq] at hc
            simp at hc
            omega
        subst hs; rfl
      · simp only [hc]
        cases s with
        | true => rfl
        | false =>
          have hk0 : k = 0 := by
            simp only [Fl.neg, Fl.lt, Fl.skey] at hc
            simp at hc
            omega
          subst hk0
          cases M with
          | nan => rfl
          | num s' k' hk' =>
            simp only [Fl.neg, Fl.abs, Fl.lt, Fl.zero, Fl.skey] at h ⊢
            simp at h ⊢
            rw [if_neg (by omega), if_neg (by omega)]
    · split
      · exact habs
      · exact h

theorem keepMax_p (M x : F64) (h : Fl.lt M (Fl.zero false) = false) :
    keepMax (ieeeEnv m bs t).f64p M x = maxBy (ieeeEnv m bs t).f64p.lt M ((ieeeEnv m bs t).f64p.abs x) ∧
      Fl.lt (maxBy (ieeeEnv m bs t).f64p.lt M ((ieeeEnv m bs t).f64p.abs x)) (Fl.zero false) = false := by
  have := keepMax_abs M x h
  rcases t with ⟨_ | _, _, _⟩ <;> exact this

/-- `M_PI` and `std::f64::consts::PI` are the same number. -/
theorem pi_eq : mPi (Fl.arith Fmt.b64) = piLit (Fl.arith Fmt.b64) := by decide +kernel

theorem coefficients_of {D S : Type} (E : Env D S) (h : mPi E.f64 = piLit E.f64) (rate : Nat) :
    coefficients E rate = filterCoefficients E (E.f64.ofInt rate) := by
  simp only [coefficients, filterCoefficients, h]

theorem coefficients_eq (rate : Nat) :
    coefficients (ieeeEnv m bs t) rate = filterCoefficients (ieeeEnv m bs t) ((ieeeEnv m bs t).f64.ofInt rate) :=
  coefficients_of _ pi_eq rate

end Verif.CRef
