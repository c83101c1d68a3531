import Verif.Proofs.Run
import Verif.Model.History
/-! # Histories as total functions -/

set_option linter.unusedSimpArgs false

namespace Verif
variable {D S : Type}

theorem boundariesN_length : boundariesN.length = 1001 := by decide +kernel
theorem energiesN_length : energiesN.length = 1000 := by decide +kernel

theorem boundaries_length (E : Env D S) : (boundaries E).length = 1001 := by
  rw [boundaries, List.length_map, boundariesN_length]
theorem energies_length (E : Env D S) : (energies E).length = 1000 := by
  rw [energies, List.length_map, energiesN_length]

theorem findLoop_done (E : Env D S) (x : D) (fuel min max : Nat) (h1 : min + 2 ≤ max)
    (h2 : max ≤ 1000) (h3 : max - min ≤ fuel) :
    ∃ i, findLoop E x fuel min max = .done i ∧ min ≤ i ∧ i < max := by
  induction fuel generalizing min max with
  | zero => omega
  | succ fuel ih =>
    have hm : (min + max) / 2 < (boundaries E).length := by rw [boundaries_length]; omega
    simp only [findLoop, Run.bind_eq, Run.index_lt hm, Run.done_bind]
    by_cases hle : E.f64.le (boundaries E)[(min + max) / 2] x
    · rw [if_pos hle]
      by_cases h1' : max - (min + max) / 2 = 1
      · rw [if_pos h1']
        exact ⟨_, rfl, by omega, by omega⟩
      · rw [if_neg h1']
        obtain ⟨i, h, h', h''⟩ := ih ((min + max) / 2) max (by omega) h2 (by omega)
        exact ⟨i, h, by omega, h''⟩
    · rw [if_neg hle]
      by_cases h1' : (min + max) / 2 - min = 1
      · rw [if_pos h1']
        exact ⟨_, rfl, by omega, by omega⟩
      · rw [if_neg h1']
        obtain ⟨i, h, h', h''⟩ := ih min ((min + max) / 2) (by omega) (by omega) (by omega)
        exact ⟨i, h, h', by omega⟩

/-- The bin found by `find_histogram_index`. -/
def findP (E : Env D S) (x : D) : Nat :=
  match findHistogramIndex E x with
  | .done i => i
  | _ => 0

theorem find_eq (E : Env D S) (x : D) : findHistogramIndex E x = .done (findP E x) ∧ findP E x < 1000 := by
  obtain ⟨i, h, -, hi⟩ := findLoop_done E x 1000 0 1000 (by omega) (by omega) (by omega)
  have : findHistogramIndex E x = .done i := h
  unfold findP
  rw [this]
  exact ⟨rfl, hi⟩

attribute [irreducible] findP

/-- The lowest boundary, i.e. the absolute gate. -/
def gate0 (E : Env D S) : D := E.f64.lit 117246530458229809506033624374 (10 ^ 36)

theorem index_b0 (E : Env D S) : Run.index (boundaries E) 0 = .done (gate0 E) := by
  apply Run.index_some
  rw [boundaries, List.getElem?_map]
  rfl

/-- A histogram has 1000 bins. -/
def History.Inv : History D → Prop
  | .histogram h => h.length = 1000
  | .queue _ _ => True

/-- `History::add` without faults. -/
def History.addP (E : Env D S) (hist : History D) (energy : D) : History D :=
  if E.f64.lt energy (gate0 E) then hist
  else
    match hist with
    | .histogram h => .histogram (h.modify (findP E energy) (· + 1))
    | .queue q max => .queue (queueAdd q max energy) max

theorem History.add_eq (E : Env D S) {hist : History D} (h : hist.Inv) (x : D) :
    hist.add E x = .done (hist.addP E x) := by
  simp only [History.add, Run.bind_eq, index_b0, Run.done_bind, addP]
  split
  · rfl
  · cases hist with
    | queue q max => rfl
    | histogram l =>
      obtain ⟨h1, h2⟩ := find_eq E x
      have hlt : findP E x < l.length := by rw [show l.length = 1000 from h]; exact h2
      simp only [histAdd, Run.bind_eq, h1, Run.done_bind, Run.index_lt hlt]
      rw [List.modify_eq_set]
      simp [List.getD_eq_getElem?_getD, hlt]

theorem History.addP_inv (E : Env D S) {hist : History D} (h : hist.Inv) (x : D) :
    (hist.addP E x).Inv := by
  unfold addP
  split
  · exact h
  · cases hist with
    | queue q max => trivial
    | histogram l => exact (List.length_modify ..).trans h

/-- Is it a histogram? -/
def History.isHist : History D → Bool
  | .histogram _ => true
  | .queue _ _ => false

theorem History.addP_isHist (E : Env D S) (hist : History D) (x : D) :
    (hist.addP E x).isHist = hist.isHist := by
  unfold addP
  split
  · rfl
  · cases hist <;> simp [isHist]

end Verif
