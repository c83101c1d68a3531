import Mathlib.Algebra.Order.Round
import Verif.Spec.Sinc
import Verif.Spec.Real
/-!
# Tones with a slowly changing amplitude
-/

namespace Verif.Spec

/-- The samples are within `δ` of a sinusoid of `ω` radians per sample, whose amplitude `env` is between zero and `A`,
starts from silence and changes by at most `slope` from one sample to the next. -/
structure Shaped (l : List F32) (env : ℕ → ℝ) (A ω φ δ slope : ℝ) : Prop where
  bounds : ∀ i, 0 ≤ env i ∧ env i ≤ A
  start : env 0 ≤ slope
  slow : ∀ i, |env (i + 1) - env i| ≤ slope
  near : ∀ i v, l[i]? = some v → v.Finite ∧ |v.value - sinusoid (env i) ω φ i| ≤ δ

/-- Linear fades over `fade` samples at the beginning and at the end of `len` samples. -/
noncomputable def fades (fade len n : ℕ) : ℝ :=
  max 0 (min 1 (min (n : ℝ) ((len : ℝ) - n) / fade))

/-- The frames of a 16-bit file of a faded tone, the same in every channel, every sample rounded to the nearest. -/
noncomputable def fadedFile (channels fade len : ℕ) (a ω φ : ℝ) : List (List Int16) :=
  (List.range len).map fun n => List.replicate channels
    (Int16.ofInt (round (32768 * sinusoid (a * fades fade len n) ω φ n)))

end Verif.Spec
