import Verif.Model.Env
import Mathlib.Analysis.SpecialFunctions.Log.Base
import Mathlib.Analysis.SpecialFunctions.Trigonometric.Basic
/-!
# The code in exact real arithmetic

Real numbers have no infinity and no NaN: the fields `inf` and `nan` are placeholders and nothing stated about
exact arithmetic may depend on them. `as usize` rounds down and saturates.
-/

namespace Verif

/-- Exact arithmetic. -/
noncomputable def exactArith : Arith ℝ where
  zero := 0
  inf := 0
  nan := 0
  add x y := x + y
  sub x y := x - y
  mul x y := x * y
  div x y := x / y
  neg x := -x
  abs x := |x|
  lt x y := @decide (x < y) (Classical.propDecidable _)
  le x y := @decide (x ≤ y) (Classical.propDecidable _)
  isNan _ := false
  ofInt i := i
  toUint max x := min max ⌊x⌋₊
  lit n d := n / d

/-- The code run in exact arithmetic, with exact elementary functions. -/
noncomputable def exactEnv (bs : BSearch) (usizeMax : Nat) : Env ℝ ℝ where
  f64 := exactArith
  f64p := exactArith
  f32p := exactArith
  scaleAdd acc x c := acc + x * c
  widen := id
  narrow := id
  narrowP := id
  libm :=
    { log10 := Real.logb 10
      tan := Real.tan
      sin := Real.sin
      cos := Real.cos
      powf := fun x y => x ^ y }
  bs := bs
  noFtz := false
  usizeMax := usizeMax

end Verif
