import Verif.Props.C17
import Verif.Spec.Libm
/-!
# Concrete runs for the examples
-/

namespace Verif

/-- State after a run of an analyzer with one channel. -/
def Demo.after (E : Env F64 F32) (rate : Nat) (mode : Mode) (ops : List (Op F64 F32)) : Option (Ebu F64 F32) :=
  match runOps E (Ebu.init E 1 rate mode) ops with
  | .done e => some e
  | _ => none

/-- The stored block energies (none in histogram mode). -/
def Demo.queueOf : History F64 → List F64
  | .queue q _ => q
  | .histogram _ => []

/-- The bit pattern of a reported number. -/
def Demo.bitsOf : Run (Except Error F64) → Option Nat
  | .done (.ok v) => some v.bits
  | _ => none

theorem Demo.after_spec {E : Env F64 F32} (hE : 2 ^ 64 - 1 ≤ E.usizeMax) {rate : Nat} {mode : Mode}
    {ops : List (Op F64 F32)} (hr : 16 ≤ rate ∧ rate ≤ 2822400) (hm : mode.contains Mode.M = true)
    {p : Ebu F64 F32 → Bool} (h : (Demo.after E rate mode ops).map p = some true) :
    ∃ e, Reachable E e ∧ p e = true := by
  unfold Demo.after at h
  split at h
  · next e he =>
    refine ⟨e, ⟨1, rate, mode, _, ops, (fresh_any hE ⟨by omega, by omega, hr⟩ hm).1, he⟩, ?_⟩
    simpa using h
  · cases h

theorem Demo.queueOf_eq {h : History F64} {q : List F64} (hq : Demo.queueOf h = q) (hne : q ≠ []) :
    ∃ max, h = .queue q max := by
  subst hq
  cases h with
  | queue q max => exact ⟨max, rfl⟩
  | histogram c => exact absurd rfl hne

end Verif
