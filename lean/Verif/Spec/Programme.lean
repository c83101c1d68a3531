import Verif.Spec.RealGate
/-!
# The loudness of a programme, given its blocks

Nothing here refers to the code: the blocks are those above the absolute gate, as real powers.
-/

namespace Verif.Spec

/-- The blocks at or above the relative gate, 10 dB below the mean of all blocks. -/
noncomputable def keptR (B : List ℝ) : List ℝ := B.filter fun x => meanR B / 10 ≤ x

/-- The power whose loudness is the integrated loudness. -/
noncomputable def programmeR (B : List ℝ) : ℝ := meanR (keptR B)

/-- Powers, not all zero. -/
def Powers (B : List ℝ) : Prop := (∀ x ∈ B, 0 ≤ x) ∧ ∃ x ∈ B, 0 < x

end Verif.Spec
