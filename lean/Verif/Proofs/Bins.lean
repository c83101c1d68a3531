import Verif.Spec.Bins
import Verif.Proofs.Table
import Mathlib.Data.Real.Basic
/-! # The histogram gate, for any arithmetic whose comparisons follow an order -/

set_option linter.unusedSimpArgs false

namespace Verif
open Spec
variable {D S : Type}

theorem drop_range (n s : Nat) : (List.range n).drop s = (List.range n).filter fun i => decide (s ≤ i) := by
  induction n with
  | zero => simp
  | succ n ih =>
    rw [List.range_succ, List.filter_append, ← ih, List.drop_append]
    congr 1
    by_cases h : s ≤ n
    · simp [h]
    · rw [List.length_range]
      have : s - n ≠ 0 := by omega
      simp [h]
      omega

theorem take_range_filter (n s : Nat) : (List.range n).take s = (List.range n).filter fun i => decide (i < s) := by
  induction n with
  | zero => simp
  | succ n ih =>
    rw [List.range_succ, List.filter_append, ← ih, List.take_append, List.length_range]
    congr 1
    by_cases h : n < s
    · obtain ⟨k, hk⟩ : ∃ k, s - n = k + 1 := ⟨s - n - 1, by omega⟩
      simp [h, hk]
    · have : s - n = 0 := by omega
      simp [h, this]

theorem allBins_eq : allBins = List.range 1000 := by unfold allBins; rfl

theorem mem_allBins {i : Nat} : i ∈ allBins ↔ i < 1000 := by rw [allBins_eq, List.mem_range]

/-- Counters and bin energies, bin by bin. -/
theorem zip_energies (E : Env D S) {c : List Nat} (hc : c.length = 1000) :
    List.zip c (energies E) = allBins.map fun i => (c.getD i 0, binEnergy E i) := by
  rw [allBins_eq]
  apply List.ext_getElem
  · simp [hc, energies_length]
  · intro i h1 h2
    have h3 : i < 1000 := by simpa using h2
    simp only [List.getElem_zip, List.getElem_map, List.getElem_range, binEnergy]
    rw [List.getD_eq_getElem?_getD, List.getD_eq_getElem?_getD, List.getElem?_eq_getElem (by omega),
      List.getElem?_eq_getElem (by rw [energies_length]; omega), Option.getD_some, Option.getD_some]

theorem sum_range (c : List Nat) (hc : c.length = 1000) :
    binCount (fun i => c.getD i 0) (allBins) = c.sum := by
  have h : allBins.map (fun i => c.getD i 0) = c := by
    rw [allBins_eq]
    apply List.ext_getElem
    · rw [List.length_map, List.length_range, hc]
    · intro i h1 h2
      rw [List.getElem_map, List.getElem_range, List.getD_eq_getElem?_getD, List.getElem?_eq_getElem h2,
        Option.getD_some]
  unfold binCount
  rw [h]

theorem calc_hist (E : Env D S) {c : List Nat} (hc : c.length = 1000) :
    (History.histogram c : History D).calcRelativeThreshold E =
      (c.sum, binTotal E.f64 (binEnergy E) (fun i => c.getD i 0) (allBins)) := by
  rw [← sum_range c hc]
  unfold History.calcRelativeThreshold binTotal binCount
  simp only
  rw [zip_energies E hc]
  generalize allBins = l
  have : ∀ (n : Nat) (s : D), (l.map fun i => (c.getD i 0, binEnergy E i)).foldl
      (fun acc x => (acc.1 + x.1, E.f64.add acc.2 (E.f64.mul (E.f64.ofInt x.1) x.2))) (n, s) =
      (n + (l.map fun i => c.getD i 0).sum,
        l.foldl (fun s i => E.f64.add s (E.f64.mul (E.f64.ofInt (c.getD i 0 : Nat)) (binEnergy E i))) s) := by
    induction l with
    | nil => intro n s; rfl
    | cons i l ih =>
      intro n s
      rw [List.map_cons, List.foldl_cons, ih, List.foldl_cons, List.map_cons, List.sum_cons, Nat.add_assoc]
  rw [this, Nat.zero_add]

theorem sumItems_hist (E : Env D S) {c : List Nat} (hc : c.length = 1000) (s : Nat) (thr : D) :
    sumItems E ((History.histogram c).gatedP E s thr) =
      (binCount (fun i => c.getD i 0) (allBins.filter fun i => decide (s ≤ i)),
        binTotal E.f64 (binEnergy E) (fun i => c.getD i 0) (allBins.filter fun i => decide (s ≤ i))) := by
  unfold sumItems binTotal binCount
  simp only [History.gatedP]
  have h : List.zip (c.drop s) ((energies E).drop s) = (List.zip c (energies E)).drop s := by
    simp only [List.zip, List.drop_zipWith]
  rw [h, zip_energies E hc, ← List.map_drop, allBins_eq, drop_range, ← allBins_eq]
  generalize (allBins.filter fun i => decide (s ≤ i)) = l
  have : ∀ (n : Nat) (s : D), ((l.map fun i => (c.getD i 0, binEnergy E i)).map
      fun x => (x.1, E.f64.mul (E.f64.ofInt x.1) x.2)).foldl
      (fun acc (x : Nat × D) => (acc.1 + x.1, E.f64.add acc.2 x.2)) (n, s) =
      (n + (l.map fun i => c.getD i 0).sum,
        l.foldl (fun s i => E.f64.add s (E.f64.mul (E.f64.ofInt (c.getD i 0 : Nat)) (binEnergy E i))) s) := by
    induction l with
    | nil => intro n s; rfl
    | cons i l ih =>
      intro n s
      rw [List.map_cons, List.map_cons, List.foldl_cons, ih, List.foldl_cons, List.map_cons, List.sum_cons,
        Nat.add_assoc]
  rw [this, Nat.zero_add]

/-- Comparisons follow a linear order on the values satisfying `ok`, among them the table entries, which are
strictly increasing with each bin energy inside its bin. -/
structure TableOrder (E : Env D S) (ok : D → Prop) (r : D → ℝ) : Prop where
  le : ∀ x y, ok x → ok y → (E.f64.le x y = true ↔ r x ≤ r y)
  lt : ∀ x y, ok x → ok y → (E.f64.lt x y = true ↔ r x < r y)
  boundary : ∀ i ≤ 1000, ok (boundary E i)
  energy : ∀ i < 1000, ok (binEnergy E i)
  above : ∀ i < 1000, r (Verif.boundary E i) < r (binEnergy E i)
  below : ∀ i < 1000, r (binEnergy E i) < r (Verif.boundary E (i + 1))

theorem TableOrder.boundary_mono {E : Env D S} {ok : D → Prop} {r : D → ℝ} (h : TableOrder E ok r) {i j : Nat}
    (hij : i ≤ j) (hj : j ≤ 1000) : r (Verif.boundary E i) ≤ r (Verif.boundary E j) := by
  induction j with
  | zero => rw [Nat.le_zero.1 hij]
  | succ j ih =>
    rcases Nat.lt_or_ge j i with h1 | h1
    · rw [show i = j + 1 by omega]
    · exact (ih h1 (by omega)).trans ((h.above j (by omega)).le.trans (h.below j (by omega)).le)

theorem gate0_boundary (E : Env D S) : gate0 E = Verif.boundary E 0 := rfl

/-- The start index separates the bins below `x` from those at or above it. -/
theorem TableOrder.start {E : Env D S} {ok : D → Prop} {r : D → ℝ} (h : TableOrder E ok r) {x : D} (hx : ok x)
    {i : Nat} (hi : i < 1000) : startP E x ≤ i ↔ E.f64.le x (binEnergy E i) = true := by
  rw [h.le _ _ hx (h.energy i hi)]
  unfold startP
  rw [gate0_boundary]
  by_cases h0 : E.f64.lt x (Verif.boundary E 0) = true
  · rw [if_pos h0]
    rw [h.lt _ _ hx (h.boundary 0 (by omega))] at h0
    have := h.boundary_mono (Nat.zero_le i) (by omega)
    have := h.above i hi
    constructor
    · intro _; linarith
    · intro _; omega
  rw [if_neg h0]
  rw [h.lt _ _ hx (h.boundary 0 (by omega)), not_lt] at h0
  have hf : findP E x < 1000 := (find_eq E x).2
  obtain ⟨f1, f2⟩ := findP_spec E x
  generalize findP E x = f at *
  have f1' : r (Verif.boundary E f) ≤ r x := by
    rcases f1 with f1 | f1
    · rw [f1]; exact h0
    · exact (h.le _ _ (h.boundary f (by omega)) hx).1 f1
  have f2' : f = 999 ∨ r x < r (Verif.boundary E (f + 1)) := by
    rcases f2 with f2 | f2
    · left; omega
    · right
      by_contra hc
      rw [not_lt] at hc
      rw [(h.le _ _ (h.boundary (f + 1) (by omega)) hx).2 hc] at f2
      cases f2
  have hlow : ∀ j, j < f → j < 1000 → r (binEnergy E j) < r x := by
    intro j hj hj'
    have := h.below j hj'
    have := h.boundary_mono (i := j + 1) (j := f) (by omega) (by omega)
    linarith
  have hhigh : ∀ j, f < j → j < 1000 → r x < r (binEnergy E j) := by
    intro j hj hj'
    have a := h.above j hj'
    have b := h.boundary_mono (i := f + 1) (j := j) (by omega) (by omega)
    rcases f2' with f2' | f2'
    · omega
    · linarith
  by_cases h1 : E.f64.lt (binEnergy E f) x = true
  · rw [if_pos h1]
    rw [h.lt _ _ (h.energy f hf) hx] at h1
    constructor
    · intro hi'; exact (hhigh i (by omega) hi).le
    · intro hle
      by_contra hc
      rcases Nat.lt_or_ge i f with h2 | h2
      · have := hlow i h2 hi; linarith
      · rw [show i = f by omega] at hle; linarith
  · rw [if_neg h1]
    rw [h.lt _ _ (h.energy f hf) hx, not_lt] at h1
    constructor
    · intro hi'
      rcases Nat.lt_or_ge f i with h2 | h2
      · exact (hhigh i h2 hi).le
      · rw [show i = f by omega]; exact h1
    · intro hle
      by_contra hc
      have := hlow i (by omega) hi
      linarith

theorem TableOrder.bins {E : Env D S} {ok : D → Prop} {r : D → ℝ} (h : TableOrder E ok r) {x : D} (hx : ok x) :
    (allBins.filter fun i => decide (startP E x ≤ i)) = binsFrom E.f64 (binEnergy E) x := by
  unfold binsFrom
  apply List.filter_congr
  intro i hi
  have := h.start hx (mem_allBins.1 hi)
  by_cases hle : E.f64.le x (binEnergy E i) = true
  · rw [hle, decide_eq_true_iff]; exact this.2 hle
  · rw [Bool.not_eq_true] at hle
    rw [hle, decide_eq_false_iff_not]
    intro hs
    rw [this.1 hs] at hle
    cases hle

/-- The outcome of the gate. -/
def gateOutcome {α : Type} : Option α → Except HistoryError α
  | none => .error .noBlocksAboveThreshold
  | some r => .ok r

theorem gated_outcome {E : Env D S} {s : List (History D)} {o : Option (Nat × D)}
    (h : gatingMultP E s = gateOutcome o) :
    gatedLoudnessP E s = loudnessOf E o := by
  unfold gatedLoudnessP
  rw [h]
  rcases o with _ | ⟨n, x⟩ <;> rfl

theorem count_outcome {E : Env D S} {e : Ebu D S} (hi : e.Inv E) {o : Option (Nat × D)}
    (h : gatingMultP E [e.blockEnergyHistory] = gateOutcome o) :
    e.gatingBlockCountAndEnergy E = .done o := by
  rw [Ebu.gatingCount_eq hi, h]
  rcases o with _ | ⟨n, x⟩ <;> rfl

/-- What the gate yields for a histogram. -/
theorem gating_hist {E : Env D S} {ok : D → Prop} {r : D → ℝ} (h : TableOrder E ok r) {c : List Nat}
    (hc : c.length = 1000) (hten : gateFactor E (-10) = tenth E)
    (hz : E.f64.add E.f64.zero (binTotal E.f64 (binEnergy E) (fun i => c.getD i 0) (allBins)) =
      binTotal E.f64 (binEnergy E) (fun i => c.getD i 0) (allBins))
    (hn : E.f64.isNan (binTotal E.f64 (binEnergy E) (fun i => c.getD i 0) (allBins)) = false)
    (hg : c.sum ≠ 0 → ok (binGate E (binEnergy E) (fun i => c.getD i 0))) :
    gatingMultP E [.histogram c] = gateOutcome (binGated E (binEnergy E) (fun i => c.getD i 0)) := by
  unfold gatingMultP iterP
  have ht : totals E [.histogram c] =
      (c.sum, binTotal E.f64 (binEnergy E) (fun i => c.getD i 0) (allBins)) := by
    unfold totals
    simp only [List.foldl_cons, List.foldl_nil, calc_hist E hc, Nat.zero_add, hz]
  rw [ht]
  have hrel : relGate E (-10) (c.sum, binTotal E.f64 (binEnergy E) (fun i => c.getD i 0) (allBins)) =
      binGate E (binEnergy E) (fun i => c.getD i 0) := by
    unfold relGate binGate binMean
    rw [hten, sum_range c hc]
  rw [hrel]
  dsimp only
  rw [hn, if_neg Bool.false_ne_true]
  unfold binGated
  by_cases h0 : c.sum = 0
  · rw [if_pos h0]
    have hz : ∀ bins : List Nat, binCount (fun i => c.getD i 0) bins = 0 := by
      intro bins
      unfold binCount
      rw [List.sum_eq_zero_iff_forall_eq_nat]
      intro x hx
      rw [List.mem_map] at hx
      obtain ⟨i, -, rfl⟩ := hx
      rw [List.sum_eq_zero_iff_forall_eq_nat] at h0
      rw [List.getD_eq_getElem?_getD]
      cases hi : c[i]? with
      | none => rfl
      | some v => exact h0 v (List.mem_of_getElem? hi)
    simp only [hz, if_true]
    rfl
  · rw [if_neg h0]
    simp only [List.map_cons, List.map_nil, List.flatten_cons, List.flatten_nil, List.append_nil]
    rw [sumItems_hist E hc, h.bins (hg h0)]
    dsimp only
    split <;> rfl

end Verif
