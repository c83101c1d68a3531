import Verif.Model.Api
/-!
# Specification: block lengths and buffer capacity

Independent of the code: 100 ms is `rate / 10` rounded half up; the ring buffer holds the requested
window rounded up to a whole number of 100 ms steps.
-/

namespace Verif.Spec

/-- Frames in 100 ms, rounded half up. -/
def hop (rate : Nat) : Nat := (rate + 5) / 10

/-- `n` rounded up to a multiple of `m`. -/
def roundUp (n m : Nat) : Nat := (n + m - 1) / m * m

/-- Frames held for a window of `ms` milliseconds. -/
def capacity (rate ms : Nat) : Nat := roundUp (rate * ms / 1000) (hop rate)

/-- Smallest window length, in milliseconds, an analyzer of this mode can have. -/
def minWindow (mode : Mode) : Nat := if mode.contains Mode.S then 3000 else 400

/-- A buffer for `ms` milliseconds holds the 400 ms of a gating block, and the 3 s of a short-term block
if the loudness range is measured. -/
def Adequate (mode : Mode) (rate ms : Nat) : Prop :=
  4 * hop rate ≤ capacity rate ms ∧
    (mode.contains Mode.LRA = true → 30 * hop rate ≤ capacity rate ms)

instance (mode : Mode) (rate ms : Nat) : Decidable (Adequate mode rate ms) := by
  unfold Adequate; infer_instance

end Verif.Spec
