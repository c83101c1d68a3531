import Verif.Spec.Real
/-!
# The gated loudness of BS.1770 over real block powers

Nothing here refers to the code: block powers are real numbers, the two gates and the means are exact.
-/

namespace Verif.Spec

/-- Arithmetic mean. -/
noncomputable def meanR (l : List ℝ) : ℝ := l.sum / l.length

/-- The blocks at or above the absolute gate, -70 LUFS. -/
noncomputable def loud (Ps : List ℝ) : List ℝ := Ps.filter fun P => energyOf (-70) ≤ P

/-- The relative gate, as a power: 10 dB below the mean of the blocks at or above the absolute gate. -/
noncomputable def gateR (Ps : List ℝ) : ℝ := meanR (loud Ps) / 10

/-- The blocks at or above both gates. -/
noncomputable def gatedR (Ps : List ℝ) : List ℝ := (loud Ps).filter fun P => gateR Ps ≤ P

/-- Integrated loudness, if there are blocks above the absolute gate. -/
noncomputable def integratedR (Ps : List ℝ) : ℝ := lufs (meanR (gatedR Ps))

end Verif.Spec
