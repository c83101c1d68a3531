import Mathlib.Analysis.SpecialFunctions.Trigonometric.Sinc
/-!
# The interpolation filter

A 49-point Hann window (its last point is zero and dropped) times the sinc function that is zero at the other samples,
centred at point 24.
-/

namespace Verif.Spec

/-- Point `j` of the windowed sinc for an oversampling factor. -/
noncomputable def kernel (factor j : Nat) : ℝ :=
  (1 - Real.cos (2 * Real.pi * j / 48)) / 2 * Real.sinc (Real.pi * ((j : ℝ) - 24) / factor)

/-- A sinusoid at time `s`, in samples: amplitude `a`, `ω` radians per sample, phase `φ`. -/
noncomputable def sinusoid (a ω φ s : ℝ) : ℝ := a * Real.cos (ω * s + φ)

end Verif.Spec
