import Verif.Spec.Tones
/-!
# Files of 24 bits
-/

namespace Verif.Spec

/-- The frames of the 24-bit file of a programme of tones, every sample rounded to the nearest, in the upper three bytes of an `i32` as
the reference tests pass them (tests/reference_tests.rs:18). -/
noncomputable def file24 (segs : List (ℕ × ℝ)) (channels : ℕ) (gain φ : ℕ → ℝ) : List (List Int32) :=
  (List.range (tenths segs * 4800)).map fun n => (List.range channels).map fun c =>
    Int32.ofInt (256 * round (8388608 * ((10 : ℝ) ^ ((levelAt segs (n / 4800) + gain c) / 20) *
      Real.sin (2 * Real.pi * 1000 * (n / 48000) + φ c))))

end Verif.Spec
