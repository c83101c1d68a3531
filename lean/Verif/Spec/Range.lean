import Verif.Spec.Bins
import Verif.Spec.Gate
/-!
# Loudness range (EBU Tech 3342)

Written independently of the model of `history.rs`.
-/

namespace Verif.Spec
variable {D S : Type}

/-- Nearest rank: the integer nearest to `num / den` of the way from the first to the last of `n` elements
(halfway cases up). -/
def nearestRank (n num den : Nat) : Nat := (2 * num * (n - 1) + den) / (2 * den)

/-- Difference in loudness between the 95th and the 10th percentile of a list in ascending order; zero for the
empty list. -/
def spread (E : Env D S) (l : List D) : D :=
  match l[nearestRank l.length 95 100]?, l[nearestRank l.length 10 100]? with
  | some high, some low => E.f64.sub (lufsD E high) (lufsD E low)
  | _, _ => E.f64.zero

/-- The elements not below a gate. -/
def notBelow (A : Arith D) (gate : D) (l : List D) : List D := l.filter fun x => !A.lt x gate

/-- Loudness range of energies in ascending order: the spread of those not below 1 % of the mean. -/
def rangeOf (E : Env D S) (l : List D) : D :=
  spread E (notBelow E.f64 (E.f64.mul (hundredth E) (mean E.f64 l)) l)

/-- Loudness range of a histogram with bin values `v` and counts `c`: the same on the expanded list of values. -/
def binRange (E : Env D S) (v : Nat → D) (c : Nat → Nat) : D :=
  spread E (notBelow E.f64 (E.f64.mul (hundredth E) (binMean E.f64 v c)) (expand v c allBins))

/-- A percentile of a non-empty list is an element of the list. -/
theorem nearestRank_lt {n num den : Nat} (hn : 0 < n) (hd : 0 < den) (h : num < den) : nearestRank n num den < n := by
  unfold nearestRank
  rw [Nat.div_lt_iff_lt_mul (by omega)]
  obtain ⟨k, rfl⟩ : ∃ k, n = k + 1 := ⟨n - 1, by omega⟩
  have : num * k ≤ den * k := Nat.mul_le_mul_right _ (Nat.le_of_lt h)
  rw [Nat.add_sub_cancel, Nat.mul_assoc]
  have : (k + 1) * (2 * den) = 2 * (den * k) + 2 * den := by
    rw [Nat.add_mul, Nat.one_mul, Nat.mul_left_comm, Nat.mul_comm k den]
  generalize (k + 1) * (2 * den) = z at this
  omega

example : (nearestRank 1 95 100, nearestRank 10 95 100, nearestRank 10 10 100, nearestRank 100 95 100,
    nearestRank 100 10 100) = (0, 9, 1, 94, 10) := by decide

end Verif.Spec
