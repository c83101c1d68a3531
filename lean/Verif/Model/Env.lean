import Verif.Model.SoftFloat
/-!
# The floating-point and platform environment

The crate's code is modelled over an arbitrary environment `Env D S` (`D` for `f64`, `S` for `f32`).
Theorems quantified over *all* environments hold for whatever the hardware and libm compute.
`ieeeEnv` is the concrete IEEE-754 environment.
-/

namespace Verif

/-- Result of running a piece of code: it returns, panics (failed `assert!`, index out of bounds,
arithmetic overflow in a checked build, or an out-of-bounds unchecked access, which is undefined
behaviour), or does not terminate. -/
inductive Run (α : Type) where
  | done (a : α) : Run α
  | panic : Run α
  | hang : Run α
deriving DecidableEq

namespace Run
variable {α β : Type}

def bind (x : Run α) (f : α → Run β) : Run β :=
  match x with
  | done a => f a
  | panic => panic
  | hang => hang

instance : Monad Run where
  pure := done
  bind := bind

/-- `assert!(c)`. -/
def assert (c : Prop) [Decidable c] : Run Unit := if c then done () else panic

/-- Slice or array indexing `l[i]`: panics when out of bounds. -/
def index (l : List α) (i : Nat) : Run α :=
  match l[i]? with
  | some a => done a
  | none => panic

/-- A `for` loop collecting one result per element; stops at the first fault. -/
def forL (f : α → Run β) : List α → Run (List β)
  | [] => done []
  | x :: xs => Run.bind (f x) fun y => Run.bind (forL f xs) fun ys => done (y :: ys)

end Run

/-- Operations of one floating-point type. `lt a b` is Rust's `a < b` (`a > b` is `lt b a`), `le a b` is
`a <= b` (`a >= b` is `le b a`). -/
structure Arith (D : Type) where
  zero : D
  inf : D
  nan : D
  add : D → D → D
  sub : D → D → D
  mul : D → D → D
  div : D → D → D
  neg : D → D
  abs : D → D
  lt : D → D → Bool
  le : D → D → Bool
  isNan : D → Bool
  /-- `as f64` from an integer. -/
  ofInt : Int → D
  /-- `as usize` / `as u64` with the given maximum. -/
  toUint : Nat → D → Nat
  /-- The source literal `num / den`. -/
  lit : Int → Nat → D

/-- Mathematical functions of the platform's libm. -/
structure Libm (D : Type) where
  log10 : D → D
  tan : D → D
  sin : D → D
  cos : D → D
  powf : D → D → D

/-- `slice::binary_search` on a sorted slice of integers: any function satisfying the documented
contract (with duplicates *any* match may be returned). -/
structure BSearch where
  run : List Nat → Nat → Except Nat Nat
  /-- A match is a match. -/
  ok : ∀ l x j, l.Pairwise (· ≤ ·) → run l x = .ok j → l[j]? = some x
  /-- A miss is the insertion point that keeps the slice sorted. -/
  err : ∀ l x j, l.Pairwise (· ≤ ·) → run l x = .error j →
    j ≤ l.length ∧ (∀ i v, i < j → l[i]? = some v → v < x) ∧
      (∀ i v, j ≤ i → l[i]? = some v → x < v)

/-- The environment a call of the crate runs in. -/
structure Env (D S : Type) where
  /-- `f64` operations outside `ftz::with_ftz`. -/
  f64 : Arith D
  /-- `f64` operations inside `ftz::with_ftz` (filter.rs:177-251, 263-304). -/
  f64p : Arith D
  /-- `f32` operations inside `ftz::with_ftz` (interpolation). -/
  f32p : Arith S
  /-- `SampleAccumulator::scale_add` (utils.rs:345-357): `acc`, `other`, `coeff`. -/
  scaleAdd : S → S → S → S
  /-- `as f64` on an `f32`. -/
  widen : S → D
  /-- `as f32` on an `f64` outside `with_ftz`. -/
  narrow : D → S
  /-- `as f32` on an `f64` inside `with_ftz`. -/
  narrowP : D → S
  libm : Libm D
  bs : BSearch
  /-- `ftz.is_none()`: true on targets without SSE2 (filter.rs:418-428). -/
  noFtz : Bool
  /-- `usize::MAX`. -/
  usizeMax : Nat

/-- The IEEE operations on a format. -/
def Fl.arith (φ : Fmt) : Arith (Fl φ) where
  zero := Fl.zero false
  inf := Fl.inf false
  nan := .nan
  add := Fl.add
  sub := Fl.sub
  mul := Fl.mul
  div := Fl.div
  neg := Fl.neg
  abs := Fl.abs
  lt := Fl.lt
  le := Fl.le
  isNan := Fl.isNan
  ofInt := Fl.ofInt φ
  toUint := Fl.toUint
  lit := Fl.lit φ

/-- The IEEE operations with results flushed to zero when subnormal (MXCSR.FZ set).  Literals are
compile-time constants and not flushed. -/
def Fl.arithFtz (φ : Fmt) : Arith (Fl φ) where
  zero := Fl.zero false
  inf := Fl.inf false
  nan := .nan
  add a b := (Fl.add a b).ftz
  sub a b := (Fl.sub a b).ftz
  mul a b := (Fl.mul a b).ftz
  div a b := (Fl.div a b).ftz
  neg := Fl.neg
  abs := Fl.abs
  lt := Fl.lt
  le := Fl.le
  isNan := Fl.isNan
  ofInt := Fl.ofInt φ
  toUint := Fl.toUint
  lit := Fl.lit φ

/-- Platform choices of an IEEE target. -/
structure Target where
  /-- x86/x86_64 with SSE2 (filter.rs:376-379): hardware flush-to-zero inside `with_ftz`. -/
  sse2 : Bool
  /-- the `precision-true-peak` cargo feature (utils.rs:348-351). -/
  fused : Bool
  /-- `usize::MAX`. -/
  usizeMax : Nat

/-- The IEEE environment for a libm, a binary search and a target. -/
def ieeeEnv (m : Libm F64) (bs : BSearch) (t : Target) : Env F64 F32 where
  f64 := Fl.arith Fmt.b64
  f64p := if t.sse2 then Fl.arithFtz Fmt.b64 else Fl.arith Fmt.b64
  f32p := if t.sse2 then Fl.arithFtz Fmt.b32 else Fl.arith Fmt.b32
  scaleAdd acc x c :=
    let fl : F32 → F32 := if t.sse2 then Fl.ftz else id
    if t.fused then fl (Fl.fma x c acc) else fl (Fl.add acc (fl (Fl.mul x c)))
  widen := Fl.cast Fmt.b64
  narrow := Fl.cast Fmt.b32
  narrowP x := if t.sse2 then (Fl.cast Fmt.b32 x).ftz else Fl.cast Fmt.b32 x
  libm := m
  bs := bs
  noFtz := !t.sse2
  usizeMax := t.usizeMax

end Verif
