import Verif.Proofs.Process
/-! # Block energy as a total function -/

set_option linter.unusedSimpArgs false

namespace Verif
variable {D S : Type}

/-- The `fpb` entries of a ring row ending before `idx`, in the order they are read. -/
def ringWindow (fpb idx : Nat) (row : List D) : List D :=
  if idx < fpb then row.take idx ++ row.drop (row.length - fpb + idx)
  else (row.take idx).drop (idx - fpb)

/-- Weighted energy sum of one channel. -/
def chanEnergyP (A : Arith D) (fpb idx : Nat) (ch : Channel) (row : List D) : D :=
  weightChannel A ch (sumSquares A A.zero (ringWindow fpb idx row))

/-- Adding a channel to the block sum. -/
def addChan (A : Arith D) (fpb idx : Nat) (sum : D) (x : Channel × List D) : D :=
  if x.1 = .unused then sum else A.add sum (chanEnergyP A fpb idx x.1 x.2)

/-- `calc_gating_block` without faults. -/
def gatingP (E : Env D S) (fpb : Nat) (rows : List (List D)) (idx : Nat) (cm : List Channel) : D :=
  E.f64.div ((List.zip cm rows).foldl (addChan E.f64 fpb idx) E.f64.zero) (E.f64.ofInt fpb)

theorem sumSquares_append (A : Arith D) (acc : D) (l m : List D) :
    sumSquares A acc (l ++ m) = sumSquares A (sumSquares A acc l) m := by
  simp [sumSquares, List.foldl_append]

theorem channelEnergy_eq (A : Arith D) {fpb idx : Nat} (ch : Channel) {row : List D}
    (h1 : idx ≤ row.length) (h2 : fpb ≤ row.length) :
    channelEnergy A fpb idx ch row = .done (chanEnergyP A fpb idx ch row) := by
  simp only [channelEnergy, Run.bind_eq, Run.assert_true h1, Run.assert_true h2, Run.done_bind,
    chanEnergyP, ringWindow]
  split
  · rw [sumSquares_append]
  · rfl

theorem calcGatingBlock_eq (E : Env D S) {fpb n L idx : Nat} {rows : List (List D)}
    {cm : List Channel} (hn : 0 < n) (hr : rows.length = n) (hL : ∀ r ∈ rows, r.length = L)
    (hL0 : L ≠ 0) (hcm : cm.length = n) (hi : idx ≤ L) (hf : fpb ≤ L) :
    calcGatingBlock E fpb rows.flatten idx cm = .done (gatingP E fpb rows idx cm) := by
  have hlen : rows.flatten.length = n * L := by rw [length_flatten_of hL, hr]
  have a1 : cm.length ≠ 0 ∧ rows.flatten.length % cm.length = 0 := by
    rw [hcm, hlen]; exact ⟨by omega, Nat.mul_mod_right n L⟩
  have hstride : rows.flatten.length / cm.length = L := by
    rw [hcm, hlen, Nat.mul_div_cancel_left _ hn]
  simp only [calcGatingBlock, Run.bind_eq, Run.assert_true a1, hstride, Run.assert_true hi,
    Run.assert_true hL0, Run.done_bind, chunksExact_flatten hL0 hL]
  have := Run.foldL_done
    (f := fun (sum : D) (arg : Channel × List D) =>
      if arg.1 = .unused then Run.done sum
      else Run.bind (channelEnergy E.f64 fpb idx arg.1 arg.2) fun s => Run.done (E.f64.add sum s))
    (g := addChan E.f64 fpb idx) (P := fun _ => True) (l := List.zip cm rows) (s := E.f64.zero)
    trivial (by
      rintro s ⟨ch, row⟩ hx -
      refine ⟨?_, trivial⟩
      simp only [addChan]
      split
      · rfl
      · have hrow := hL row (List.of_mem_zip hx).2
        rw [channelEnergy_eq E.f64 ch (by omega) (by omega)]
        rfl)
  rw [this.1]
  rfl

end Verif
