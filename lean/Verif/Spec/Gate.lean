import Verif.Model.Env
/-!
# Gated loudness of a list of block energies (ITU-R BS.1770 / EBU R 128)

Written independently of the model of `history.rs`. `A` is the floating-point arithmetic used; sums run from
the first element on, starting at zero.
-/

namespace Verif.Spec
variable {D S : Type}

/-- Sum from left to right. -/
def total (A : Arith D) (l : List D) : D := l.foldl A.add A.zero

/-- Arithmetic mean. -/
def mean (A : Arith D) (l : List D) : D := A.div (total A l) (A.ofInt l.length)

/-- `10 log10(x) - 0.691`. -/
def lufsD (E : Env D S) (x : D) : D :=
  E.f64.sub (E.f64.mul (E.f64.lit 10 1) (E.libm.log10 x)) (E.f64.lit 691 1000)

/-- `10^-1`, i.e. -10 dB, as the libm computes it. -/
def tenth (E : Env D S) : D := E.libm.powf (E.f64.lit 10 1) (E.f64.lit (-1) 1)

/-- `10^-2`, i.e. -20 dB, as the libm computes it. -/
def hundredth (E : Env D S) : D := E.libm.powf (E.f64.lit 10 1) (E.f64.lit (-2) 1)

/-- The relative gate: 10 dB below the mean energy. -/
def gateLevel (E : Env D S) (l : List D) : D := E.f64.mul (mean E.f64 l) (tenth E)

/-- The blocks at or above the relative gate. -/
def passing (E : Env D S) (l : List D) : List D := l.filter fun x => E.f64.le (gateLevel E l) x

/-- Integrated loudness: the loudness of the mean of the blocks at or above the relative gate; minus infinity
without such blocks; NaN if the energies have no sum. -/
def integrated (E : Env D S) (l : List D) : D :=
  if l = [] then E.f64.neg E.f64.inf
  else if E.f64.isNan (total E.f64 l) then E.f64.nan
  else if passing E l = [] then E.f64.neg E.f64.inf
  else lufsD E (mean E.f64 (passing E l))

/-- The relative threshold: the loudness of the relative gate; -70 without blocks. -/
def threshold (E : Env D S) (l : List D) : D :=
  if l = [] then E.f64.lit (-70) 1
  else if E.f64.isNan (total E.f64 l) then E.f64.nan
  else lufsD E (gateLevel E l)

end Verif.Spec
