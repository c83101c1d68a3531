import Verif.Spec.Demo
/-!
# A computable libm

The theorems hold for every libm (`Env.libm` is a parameter). For concrete cases that should be numerically
realistic this file provides one: each function is evaluated by its power series in fixed point with 128
fractional bits and rounded once to a double. It is used in examples and witnesses only; nothing about its
accuracy is claimed or needed.
-/

namespace Verif.Demo
open Verif

namespace Fix

/-- One in fixed point. -/
def one : Int := 2 ^ 128

def mul (x y : Int) : Int := x * y / one
def div (x y : Int) : Int := if y = 0 then 0 else x * one / y

/-- A finite double in fixed point (truncated). -/
def ofFl : F64 → Int
  | .nan => 0
  | .num s k _ => (if s then -1 else 1) * ((Fmt.b64.mag k * 2 ^ 128 / 2 ^ 1074 : Nat) : Int)

/-- Fixed point rounded to a double. -/
def toFl (x : Int) : F64 := Fl.lit _ x (2 ^ 128)

/-- `t + t·x²/((k+1)(k+2)) + …`, the even-numbered and the odd-numbered terms summed separately. -/
def trig (x2 : Nat) : Nat → Nat → Nat → Nat × Nat
  | 0, _, _ => (0, 0)
  | n + 1, k, t =>
    let r := trig x2 n (k + 2) (t * x2 / 2 ^ 128 / ((k + 1) * (k + 2)))
    (t + r.2, r.1)

/-- `2π`. -/
def twoPi : Nat := 2 * 1069028584064966747859680373161870783300

/-- `x - x^3/3! + …` for `0 ≤ x < 2π`. -/
def sinPos (x : Nat) : Int :=
  let r := trig (x * x / 2 ^ 128) 26 1 x
  (r.1 : Int) - r.2

/-- `1 - x^2/2! + …` for `0 ≤ x < 2π`. -/
def cosPos (x : Nat) : Int :=
  let r := trig (x * x / 2 ^ 128) 26 0 (2 ^ 128)
  (r.1 : Int) - r.2

def sin (x : Int) : Int := if x < 0 then -sinPos (x.natAbs % twoPi) else sinPos (x.natAbs % twoPi)
def cos (x : Int) : Int := cosPos (x.natAbs % twoPi)

/-- `z + z^3/3 + z^5/5 + …` from the power `t = z^k`. -/
def atanh (z2 : Int) : Nat → Nat → Int → Int
  | 0, _, _ => 0
  | n + 1, k, t => t / (k : Int) + atanh z2 n (k + 2) (mul t z2)

/-- `ln (1 + …)` for arguments between 1 and 2. -/
def lnSmall (x : Int) : Int :=
  let z := div (x - one) (x + one)
  2 * atanh (mul z z) 45 1 z

def ln2 : Int := lnSmall (2 * one)

/-- `ln` of a positive double. -/
def ln (x : F64) : Int :=
  match x with
  | .nan => 0
  | .num _ k _ =>
    let m := Fmt.b64.mag k
    let e := m.log2
    ((e : Int) - 1074) * ln2 + lnSmall ((m * 2 ^ 128 / 2 ^ e : Nat) : Int)

/-- `1 + r + r^2/2! + …` continued from the term `t`. -/
def expSeries (r : Int) : Nat → Nat → Int → Int
  | 0, _, _ => 0
  | n + 1, k, t => t + expSeries r n (k + 1) (mul t r / ((k + 1 : Nat) : Int))

/-- `exp`, rounded to a double. -/
def exp (y : Int) : F64 :=
  let n := y / ln2
  let v := expSeries (y - n * ln2) 40 0 one
  match n with
  | .ofNat j => Fl.lit _ (v * 2 ^ j) (2 ^ 128)
  | .negSucc j => Fl.lit _ v (2 ^ 128 * 2 ^ (j + 1))

end Fix

/-- A realistic libm on the arguments the analyzer uses. -/
def series : Libm F64 where
  log10 x := match x with
    | .nan => .nan
    | .num s k _ =>
      if k = 0 then Fl.inf true
      else if s then .nan
      else if k = Fmt.b64.infK then x
      else Fix.toFl (Fix.div (Fix.ln x) (Fix.ln (Fl.lit _ 10 1)))
  tan x := Fix.toFl (Fix.div (Fix.sin (Fix.ofFl x)) (Fix.cos (Fix.ofFl x)))
  sin x := Fix.toFl (Fix.sin (Fix.ofFl x))
  cos x := Fix.toFl (Fix.cos (Fix.ofFl x))
  powf x y := Fix.exp (Fix.mul (Fix.ofFl y) (Fix.ln x))

/-- x86-64 with the realistic libm; `fused` tells whether `f32::mul_add` is fused. -/
def envReal (fused : Bool) : Env F64 F32 := ieeeEnv series bsearch ⟨true, fused, 2 ^ 64 - 1⟩

end Verif.Demo
