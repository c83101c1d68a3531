import Verif.Model.SoftFloat
import Mathlib.Analysis.SpecialFunctions.Log.Base
/-!
# Real values of floating-point numbers

`value x` is the real number a finite `x` stands for (in units of `2^-u` its magnitude is `φ.mag k`). NaN is
given the value 0 and infinity the value the next binade would have; statements about values assume finiteness.
-/

namespace Verif

/-- Neither NaN nor infinite. -/
def Fl.Finite {φ : Fmt} (x : Fl φ) : Prop := ∃ s k h, x = .num s k h ∧ k ≠ φ.infK

/-- The real number a finite float stands for. -/
noncomputable def Fl.value {φ : Fmt} : Fl φ → ℝ
  | .nan => 0
  | .num s k _ => (if s then -1 else 1) * ((φ.mag k : ℝ) / 2 ^ φ.u)

/-- Loudness of an energy in LUFS, in exact arithmetic. -/
noncomputable def Spec.lufs (x : ℝ) : ℝ := -691 / 1000 + 10 * Real.logb 10 x

/-- Energy of a loudness in LUFS, in exact arithmetic. -/
noncomputable def Spec.energyOf (l : ℝ) : ℝ := 10 ^ ((l + 691 / 1000) / 10)

end Verif
