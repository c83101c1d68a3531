import Verif.Model.Utils
/-!
# `src/interp.rs`: rolling buffer and polyphase FIR interpolator
-/

namespace Verif
variable {D S α : Type}

/-- `TAPS` (interp.rs:26). -/
def TAPS : Nat := 48

/-- `struct RollingBuffer<T, N>` (interp.rs:33-36); the const parameter `N` is a field. -/
structure RollingBuffer (α : Type) where
  n : Nat
  buf : List α
  position : Nat

/-- `RollingBuffer::new` (interp.rs:39-45). -/
def RollingBuffer.new (n : Nat) (dflt : α) : Run (RollingBuffer α) := do
  Run.assert (n * 2 ≤ TAPS)
  Run.done ⟨n, List.replicate TAPS dflt, n⟩

/-- `*buf.get_unchecked_mut(i) = v`: out of bounds is undefined behaviour, modelled as a fault. -/
def setUnchecked (l : List α) (i : Nat) (v : α) : Run (List α) :=
  if i < l.length then .done (l.set i v) else .panic

/-- `RollingBuffer::push_front` (interp.rs:48-60). `N - 1` underflows (a fault) for `N = 0`. -/
def RollingBuffer.pushFront (b : RollingBuffer α) (v : α) : Run (RollingBuffer α) := do
  let position ← if b.position = 0 then (do Run.assert (0 < b.n); Run.done (b.n - 1))
                 else Run.done (b.position - 1)
  let buf ← setUnchecked b.buf position v
  let buf ← setUnchecked buf (position + b.n) v
  Run.done { b with buf := buf, position := position }

/-- `RollingBuffer::as_ref` (interp.rs:65-69): an `[T; N]` view starting at `position`; reading past the
storage would be undefined behaviour, modelled as a fault. -/
def RollingBuffer.view (b : RollingBuffer α) : Run (List α) := do
  Run.assert (b.position < b.buf.length ∧ b.position + b.n ≤ b.buf.length)
  Run.done ((b.buf.drop b.position).take b.n)

/-- `struct InterpF<ACTIVE_TAPS, FACTOR, F>` (interp.rs:73-76). `width` is the number of channels of the
frame type `F = [f32; width]`; frames are lists of that length. -/
structure Interp (S : Type) where
  factor : Nat
  width : Nat
  filter : List (List S)
  buffer : RollingBuffer (List S)

/-- `PI` (`std::f64::consts::PI`). -/
def piLit (A : Arith D) : D := A.lit 314159265358979323846264338327950288 (10 ^ 35)

/-- One coefficient of `InterpF::new` (interp.rs:95-110). -/
def interpCoeff (E : Env D S) (factor j : Nat) : S :=
  let A := E.f64
  let jf := A.ofInt j
  let window := A.ofInt ((TAPS + 1) - 1 : Nat)
  let w := A.mul (A.lit 5 10)
    (A.sub (A.lit 1 1) (E.libm.cos (A.div (A.mul (A.mul (A.lit 2 1) (piLit A)) jf) window)))
  let m := A.sub jf (A.div window (A.lit 2 1))
  let fac := A.ofInt factor
  let v :=
    if A.lt (A.lit 1 1000000) (A.abs m) then
      A.div (A.mul w (E.libm.sin (A.div (A.mul m (piLit A)) fac)))
        (A.div (A.mul m (piLit A)) fac)
    else w
  E.narrow v

/-- The coefficient table filled by the `flat_map().enumerate()` loop (interp.rs:94-110):
row-major over `[[f32; FACTOR]; ACTIVE_TAPS]`. -/
def interpFilter (E : Env D S) (taps factor : Nat) : List (List S) :=
  (List.range taps).map fun i => (List.range factor).map fun f => interpCoeff E factor (i * factor + f)

/-- The default frame `[0.0f32; width]`. -/
def zeroFrame (E : Env D S) (width : Nat) : List S := List.replicate width E.f32p.zero

/-- `InterpF::new` (interp.rs:91-116). -/
def Interp.new (E : Env D S) (taps factor width : Nat) : Run (Interp S) := do
  Run.assert (taps * factor = TAPS)
  let buffer ← RollingBuffer.new taps (zeroFrame E width)
  Run.done ⟨factor, width, interpFilter E taps factor, buffer⟩

/-- `InterpF::interpolate` (interp.rs:118-133). -/
def Interp.interpolate (E : Env D S) (ip : Interp S) (frame : List S) :
    Run (Interp S × List (List S)) := do
  let buffer ← ip.buffer.pushFront frame
  let buf ← buffer.view
  let output := List.replicate ip.factor (zeroFrame E ip.width)
  let output := (List.zip ip.filter buf).foldl
    (fun out (coeffs, inputFrame) =>
      List.zipWith (fun o coeff => frameScaleAdd E o inputFrame coeff) out coeffs) output
  Run.done ({ ip with buffer := buffer }, output)

/-- `InterpF::reset` (interp.rs:135-137). -/
def Interp.reset (E : Env D S) (ip : Interp S) : Run (Interp S) := do
  let buffer ← RollingBuffer.new ip.buffer.n (zeroFrame E ip.width)
  Run.done { ip with buffer := buffer }

end Verif
