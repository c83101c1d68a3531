/-!
# IEEE-754 binary floating point, round-to-nearest-even

Models the arithmetic of Rust's `f64` and `f32` (`+ - * /`, comparisons, `abs`, `as` casts, decimal
literals, `mul_add`) used throughout `/repo/src/*.rs`.

A number is a sign and a *magnitude pattern* `k`: the low 63 (31) bits of its IEEE encoding, read
as a natural number.  `k = infK` is infinity; all NaNs are identified (the payload of a NaN is not
modelled; nothing in the crate inspects it).

Every finite magnitude is an integer multiple of the smallest subnormal `2^-u`; `mag k` is that
integer, so all exact intermediate results are integers or fractions of integers in units of
`2^-u` and `rnd` is the only rounding function.
-/

namespace Verif

/-- A binary interchange format: `mb` stored mantissa bits, `emax` the largest biased exponent of a
finite number, `2^-u` the smallest subnormal. -/
structure Fmt where
  mb : Nat
  emax : Nat
  u : Nat

/-- IEEE binary64 (`f64`). -/
def Fmt.b64 : Fmt := ⟨52, 2046, 1074⟩
/-- IEEE binary32 (`f32`). -/
def Fmt.b32 : Fmt := ⟨23, 254, 149⟩

/-- Magnitude pattern of infinity: exponent all ones, mantissa zero. -/
def Fmt.infK (φ : Fmt) : Nat := (φ.emax + 1) * 2 ^ φ.mb

/-- A floating-point datum. -/
inductive Fl (φ : Fmt) where
  | nan : Fl φ
  | num (neg : Bool) (k : Nat) (h : k ≤ φ.infK) : Fl φ
deriving DecidableEq

abbrev F64 := Fl Fmt.b64
abbrev F32 := Fl Fmt.b32

/-- The magnitude with pattern `k`, in units of `2^-u`. -/
def Fmt.mag (φ : Fmt) (k : Nat) : Nat :=
  if k / 2 ^ φ.mb = 0 then k % 2 ^ φ.mb
  else (2 ^ φ.mb + k % 2 ^ φ.mb) * 2 ^ (k / 2 ^ φ.mb - 1)

/-- `num / den` rounded to the nearest integer, ties to even. -/
def rne (num den : Nat) : Nat :=
  if 2 * (num % den) < den then num / den
  else if den < 2 * (num % den) then num / den + 1
  else num / den + (num / den) % 2

/-- Round the non-negative rational `num / den` (in units of `2^-u`) to a magnitude pattern:
nearest, ties to even, overflow to infinity. -/
def Fmt.rnd (φ : Fmt) (num den : Nat) : Nat :=
  let sh := Nat.log2 (num / den) - φ.mb
  min φ.infK (rne num (den * 2 ^ sh) + sh * 2 ^ φ.mb)

namespace Fl
variable {φ : Fmt}

/-- Build a number from a sign and the exact magnitude `n / d`. -/
def ofMag (φ : Fmt) (neg : Bool) (n d : Nat) : Fl φ :=
  .num neg (φ.rnd n d) (Nat.min_le_left _ _)

def zero (neg : Bool) : Fl φ := .num neg 0 (Nat.zero_le _)
def inf (neg : Bool) : Fl φ := .num neg φ.infK (Nat.le_refl _)

def isNan : Fl φ → Bool
  | .nan => true
  | .num .. => false

def neg : Fl φ → Fl φ
  | .nan => .nan
  | .num s k h => .num (!s) k h

def abs : Fl φ → Fl φ
  | .nan => .nan
  | .num _ k h => .num false k h

/-- Order key of a number: the pattern with its sign; both zeros have key 0. -/
def skey (s : Bool) (k : Nat) : Int := if s then -(k : Int) else (k : Int)

/-- `a < b` (false if either is NaN). -/
def lt : Fl φ → Fl φ → Bool
  | .num s k _, .num t l _ => decide (skey s k < skey t l)
  | _, _ => false

/-- `a <= b` (false if either is NaN). -/
def le : Fl φ → Fl φ → Bool
  | .num s k _, .num t l _ => decide (skey s k ≤ skey t l)
  | _, _ => false

/-- Signed magnitude in units of `2^-u`. -/
def smag (φ : Fmt) (s : Bool) (k : Nat) : Int :=
  if s then -(φ.mag k : Int) else (φ.mag k : Int)

/-- Build a number from an exact non-zero integer multiple of `2^-u`; `zs` is the sign of an exact
zero. -/
def ofSMag (φ : Fmt) (zs : Bool) (i : Int) : Fl φ :=
  if i = 0 then zero zs else ofMag φ (decide (i < 0)) i.natAbs 1

def add : Fl φ → Fl φ → Fl φ
  | .num s k _, .num t l _ =>
    if k = φ.infK then
      if l = φ.infK then (if s = t then inf s else .nan) else inf s
    else if l = φ.infK then inf t
    else ofSMag φ (s && t) (smag φ s k + smag φ t l)
  | _, _ => .nan

def sub (a b : Fl φ) : Fl φ := add a (neg b)

def mul : Fl φ → Fl φ → Fl φ
  | .num s k _, .num t l _ =>
    if k = φ.infK then (if l = 0 then .nan else inf (s ^^ t))
    else if l = φ.infK then (if k = 0 then .nan else inf (s ^^ t))
    else ofMag φ (s ^^ t) (φ.mag k * φ.mag l) (2 ^ φ.u)
  | _, _ => .nan

def div : Fl φ → Fl φ → Fl φ
  | .num s k _, .num t l _ =>
    if k = φ.infK then (if l = φ.infK then .nan else inf (s ^^ t))
    else if l = φ.infK then zero (s ^^ t)
    else if l = 0 then (if k = 0 then .nan else inf (s ^^ t))
    else ofMag φ (s ^^ t) (φ.mag k * 2 ^ φ.u) (φ.mag l)
  | _, _ => .nan

/-- `a * b + c` with a single rounding (`f32::mul_add`). -/
def fma : Fl φ → Fl φ → Fl φ → Fl φ
  | .num s k _, .num t l _, .num r m hm =>
    if k = φ.infK ∨ l = φ.infK then
      if k = 0 ∨ l = 0 then .nan
      else if m = φ.infK then (if (s ^^ t) = r then inf r else .nan) else inf (s ^^ t)
    else if m = φ.infK then .num r m hm
    else
      let p : Int := (if (s ^^ t) then -1 else 1) * (φ.mag k * φ.mag l : Nat)
      let i : Int := p + smag φ r m * (2 ^ φ.u : Nat)
      if i = 0 then zero ((s ^^ t) && r) else ofMag φ (decide (i < 0)) i.natAbs (2 ^ φ.u)
  | _, _, _ => .nan

/-- Integer to float (`as f64`, `as f32`). -/
def ofInt (φ : Fmt) (i : Int) : Fl φ :=
  ofMag φ (decide (i < 0)) (i.natAbs * 2 ^ φ.u) 1

/-- A decimal literal `num / den`, correctly rounded. -/
def lit (φ : Fmt) (num : Int) (den : Nat) : Fl φ :=
  ofMag φ (decide (num < 0)) (num.natAbs * 2 ^ φ.u) den

/-- Float to unsigned integer (`as usize`, `as u64`): truncation, saturating, NaN to 0. -/
def toUint (max : Nat) : Fl φ → Nat
  | .nan => 0
  | .num s k _ => if s then 0 else if k = φ.infK then max else min max (φ.mag k / 2 ^ φ.u)

/-- Conversion between formats (`as f32`, `as f64`). -/
def cast (ψ : Fmt) : Fl φ → Fl ψ
  | .nan => .nan
  | .num s k _ =>
    if k = φ.infK then inf s else ofMag ψ s (φ.mag k * 2 ^ ψ.u) (2 ^ φ.u)

/-- Flush a subnormal result to a zero of the same sign (MXCSR.FZ on x86). -/
def ftz : Fl φ → Fl φ
  | .nan => .nan
  | .num s k h => if k < 2 ^ φ.mb then zero s else .num s k h

/-- The bit pattern (for display and tests); NaN shown as the canonical quiet NaN. -/
def bits : Fl φ → Nat
  | .nan => φ.infK + 2 ^ (φ.mb - 1)
  | .num s k _ => k + (if s then 2 * (φ.infK + 2 ^ φ.mb) / 2 else 0)

end Fl

end Verif
