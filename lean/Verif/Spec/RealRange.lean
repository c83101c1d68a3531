import Verif.Spec.RealGate
import Verif.Spec.Range
/-!
# The loudness range of EBU Tech 3342 over real block powers

Nothing here refers to the code: block powers are real numbers, gates, means and percentiles are exact.
-/

namespace Verif.Spec

/-- In ascending order. -/
noncomputable def sortR (l : List ℝ) : List ℝ := l.insertionSort (· ≤ ·)

/-- The gate of the range, as a power: 20 dB below the mean of the blocks at or above the absolute gate. -/
noncomputable def rangeGateR (Ps : List ℝ) : ℝ := meanR (loud Ps) / 100

/-- The blocks at or above both gates. -/
noncomputable def rangeGatedR (Ps : List ℝ) : List ℝ := (loud Ps).filter fun P => rangeGateR Ps ≤ P

/-- Nearest-rank percentile. -/
noncomputable def percentileR (l : List ℝ) (num den : Nat) : ℝ := (sortR l).getD (nearestRank l.length num den) 0

/-- Loudness range, if there are blocks above the absolute gate. -/
noncomputable def rangeR (Ps : List ℝ) : ℝ :=
  lufs (percentileR (rangeGatedR Ps) 95 100) - lufs (percentileR (rangeGatedR Ps) 10 100)

end Verif.Spec
