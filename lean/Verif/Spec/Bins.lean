import Verif.Spec.Gate
/-!
# Gated loudness of a histogram of block energies

Bin `i` stands for `c i` blocks of energy `v i`; there are 1000 bins.
-/

namespace Verif.Spec
variable {D S : Type}

/-- The bins. -/
@[irreducible] def allBins : List Nat := List.range 1000

/-- Number of blocks in a list of bins. -/
def binCount (c : Nat → Nat) (bins : List Nat) : Nat := (bins.map c).sum

/-- Sum of the energies of the blocks in a list of bins, bin by bin. -/
def binTotal (A : Arith D) (v : Nat → D) (c : Nat → Nat) (bins : List Nat) : D :=
  bins.foldl (fun s i => A.add s (A.mul (A.ofInt (c i)) (v i))) A.zero

/-- The blocks in a list of bins, one by one. -/
def expand (v : Nat → D) (c : Nat → Nat) (bins : List Nat) : List D :=
  bins.flatMap fun i => List.replicate (c i) (v i)

/-- Mean energy of all blocks. -/
def binMean (A : Arith D) (v : Nat → D) (c : Nat → Nat) : D :=
  A.div (binTotal A v c (allBins)) (A.ofInt (binCount c (allBins)))

/-- The relative gate: 10 dB below the mean. -/
def binGate (E : Env D S) (v : Nat → D) (c : Nat → Nat) : D := E.f64.mul (binMean E.f64 v c) (tenth E)

/-- The bins at or above a gate. -/
def binsFrom (A : Arith D) (v : Nat → D) (g : D) : List Nat := (allBins).filter fun i => A.le g (v i)

/-- Number and total energy of the blocks passing the relative gate, if there are any. -/
def binGated (E : Env D S) (v : Nat → D) (c : Nat → Nat) : Option (Nat × D) :=
  let b := binsFrom E.f64 v (binGate E v c)
  if binCount c b = 0 then none else some (binCount c b, binTotal E.f64 v c b)

/-- Loudness of a number of blocks with a given total energy; minus infinity without blocks. -/
def loudnessOf (E : Env D S) : Option (Nat × D) → D
  | none => E.f64.neg E.f64.inf
  | some (n, e) => lufsD E (E.f64.div e (E.f64.ofInt n))

/-- Integrated loudness of a histogram. -/
def binIntegrated (E : Env D S) (v : Nat → D) (c : Nat → Nat) : D := loudnessOf E (binGated E v c)

end Verif.Spec
