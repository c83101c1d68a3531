import Verif.Proofs.CRef
import Verif.Proofs.Bins
import Verif.Proofs.Range
/-! # The histories of the C reference without faults -/

namespace Verif.CRef
open Spec
variable {D S : Type} {E : Env D S} {G : Globals D}

/-! ## Bins -/

theorem findLoop_same (hG : SameTables E G) (x : D) (fuel min max : Nat) :
    CRef.findLoop E.f64 G x fuel min max = Verif.findLoop E x fuel min max := by
  induction fuel generalizing min max with
  | zero => rfl
  | succ fuel ih =>
    simp only [CRef.findLoop, Verif.findLoop, hG.boundaries, ih]
    congr 1
    funext b
    by_cases hb : E.f64.le b x = true
    · simp only [hb, if_true]
      by_cases h : max - (min + max) / 2 = 1 <;> simp [h]
    · simp only [hb]
      by_cases h : (min + max) / 2 - min = 1 <;> simp [h]

theorem findIndex_eq (hG : SameTables E G) (x : D) : CRef.findIndex E.f64 G x = .done (findP E x) :=
  (findLoop_same hG x 1000 0 1000).trans (find_eq E x).1

theorem startIndex_same (hG : SameTables E G) (x : D) : CRef.startIndex E.f64 G x = .done (startP E x) := by
  have h := (Verif.startIndex_eq E x).1
  rw [← h]
  simp only [CRef.startIndex, Verif.startIndex, hG.boundaries, hG.energies, findIndex_eq hG, (find_eq E x).1]

/-- `j` is at most the bin of `p` iff the bins below `j` hold at most `p` blocks. -/
theorem le_binOf (h : List Nat) (p : Nat) {j : Nat} (hj : j ≤ h.length) :
    j ≤ binOf h p ↔ (h.take j).sum ≤ p := by
  cases j with
  | zero => simp
  | succ j =>
    obtain ⟨h1, h2⟩ := sorted_countP (prefixSums_sorted 0 h) p
    have hg := prefixSums_get 0 h j (by omega)
    rw [Nat.zero_add] at hg
    constructor
    · intro hle
      exact h1 j _ hle hg
    · intro hle
      by_contra hc
      have := h2 j _ (by unfold binOf at hc; omega) hg
      omega

theorem walk_eq (h : List Nat) {before p : Nat} (hp : p + before < h.sum) (bins : List Nat) (size j : Nat)
    (hj : j ≤ h.length) (hb : h.drop j = bins) (hs : size + before = (h.take j).sum)
    (hle : j ≤ binOf h (p + before) + 1) :
    walk p bins size j =
      .done ((h.take (binOf h (p + before) + 1)).sum - before, binOf h (p + before) + 1) := by
  induction bins generalizing size j with
  | nil =>
    have hjl : j = h.length := by
      have := congrArg List.length hb
      rw [List.length_drop, List.length_nil] at this
      omega
    have hsz : size + before = h.sum := by rw [hs, hjl, List.take_length]
    have hnot : ¬ j ≤ binOf h (p + before) := by rw [le_binOf h _ hj]; omega
    have hjeq : j = binOf h (p + before) + 1 := by omega
    unfold walk
    rw [if_neg (by omega), ← hjeq, ← hs]
    congr 2
    omega
  | cons b bins ih =>
    have hlt : j < h.length := by
      have := congrArg List.length hb
      rw [List.length_drop, List.length_cons] at this
      omega
    unfold walk
    by_cases hc : size ≤ p
    · rw [if_pos hc]
      have hjb : j ≤ binOf h (p + before) := by rw [le_binOf h _ hj]; omega
      have hget : h[j] = b ∧ h.drop (j + 1) = bins := by
        rw [List.drop_eq_getElem_cons hlt] at hb
        injection hb with h1 h2
        exact ⟨h1, h2⟩
      apply ih (size + b) (j + 1) hlt hget.2 _ (by omega)
      rw [List.take_add_one, List.getElem?_eq_getElem hlt, List.sum_append, ← hs, hget.1]
      simp only [Option.toList_some, List.sum_cons, List.sum_nil]
      omega
    · rw [if_neg hc]
      have hnot : ¬ j ≤ binOf h (p + before) := by rw [le_binOf h _ hj]; omega
      have hjeq : j = binOf h (p + before) + 1 := by omega
      rw [← hjeq, ← hs]
      congr 2
      omega

/-! ## Sums over the bins -/

theorem binLoop (hG : SameTables E G) {h : List Nat} (hh : h.length = 1000) {start : Nat} (hs : start ≤ 1000)
    (z : Nat × D) :
    (loop start 1000 z fun acc j => do
      let n ← Run.index h j
      let e ← Run.index G.energies j
      Run.done (acc.1 + n, E.f64.add acc.2 (E.f64.mul (E.f64.ofInt n) e))) =
    .done (((List.zip h (Verif.energies E)).drop start).foldl
      (fun acc x => (acc.1 + x.1, E.f64.add acc.2 (E.f64.mul (E.f64.ofInt x.1) x.2))) z) := by
  have hl : (List.zip h (Verif.energies E)).length = 1000 := by
    rw [List.length_zip, hh, energies_length, Nat.min_self]
  have key := loop_part (l := List.zip h (Verif.energies E)) (hi := 1000)
    (f := fun (acc : Nat × D) j => do
      let n ← Run.index h j
      let e ← Run.index G.energies j
      Run.done (acc.1 + n, E.f64.add acc.2 (E.f64.mul (E.f64.ofInt n) e)))
    (g := fun acc x => (acc.1 + x.1, E.f64.add acc.2 (E.f64.mul (E.f64.ofInt x.1) x.2)))
    hs (by omega) z ?_
  · rw [key, List.take_of_length_le (by omega)]
  · rintro s c ⟨n, e⟩ - hx
    rw [List.getElem?_zip_eq_some] at hx
    simp only [Run.bind_eq, hG.energies, Run.index_some hx.1, Run.index_some hx.2, Run.done_bind]

theorem countLoop {h : List Nat} (hh : h.length = 1000) {start : Nat} (hs : start ≤ 1000) :
    (loop start 1000 (0 : Nat) fun acc j => do
      let n ← Run.index h j
      Run.done (acc + n)) = .done (h.sum - (h.take start).sum) := by
  have key := loop_part (l := h) (hi := 1000)
    (f := fun (acc : Nat) j => do
      let n ← Run.index h j
      Run.done (acc + n))
    (g := fun acc n => acc + n) hs (by omega) 0 ?_
  · rw [key, List.take_of_length_le (by omega)]
    have h1 : (h.take start).sum + (h.drop start).sum = h.sum := by
      rw [← List.sum_append, List.take_append_drop]
    have h2 : (h.drop start).foldl (fun acc n => acc + n) 0 = (h.drop start).sum := List.sum_eq_foldl.symm
    rw [h2]
    congr 1
    omega
  · intro s c n _ hx
    simp only [Run.bind_eq, Run.index_some hx, Run.done_bind]

theorem calcRelativeThreshold_same (hG : SameTables E G) {h : Verif.History D} {g : History D}
    (hs : SameHistory h g) (hi : h.Inv) :
    g.calcRelativeThreshold E.f64 G = .done (h.calcRelativeThreshold E) := by
  cases hs with
  | histogram h max =>
    simp only [History.calcRelativeThreshold, if_true]
    rw [binLoop hG hi (Nat.zero_le _), List.drop_zero]
    rfl
  | queue q max =>
    simp only [History.calcRelativeThreshold, Verif.History.calcRelativeThreshold, sumD]
    rw [if_neg Bool.false_ne_true]
    clear hi
    have : ∀ (n : Nat) (s : D), q.foldl (fun acc z => (acc.1 + 1, E.f64.add acc.2 z)) (n, s) =
        (n + q.length, q.foldl E.f64.add s) := by
      induction q with
      | nil => intro n s; rfl
      | cons x q ih =>
        intro n s
        rw [List.foldl_cons, ih, List.length_cons, List.foldl_cons]
        congr 1
        omega
    rw [this, Nat.zero_add]

/-! ## Queries -/

theorem relativeThreshold_same (hG : SameTables E G) {h : Verif.History D} {g : History D}
    (hs : SameHistory h g) (hi : h.Inv) (hlit : E.f64.neg (E.f64.lit 70 1) = E.f64.lit (-70) 1)
    (hn : E.f64.isNan (h.calcRelativeThreshold E).2 = false) :
    ∃ r, h.relativeThreshold E = levelOf (Verif.energyToLoudness E) (E.f64.lit (-70) 1) r ∧
      g.relativeThreshold E.f64 G = .done (levelOf G.energyToLoudness (E.f64.lit (-70) 1) r) := by
  unfold Verif.History.relativeThreshold History.relativeThreshold
  rw [calcRelativeThreshold_same hG hs hi]
  simp only [Run.bind_eq, Run.done_bind, hlit, hn, hG.integrated]
  by_cases h0 : (h.calcRelativeThreshold E).1 = 0
  · exact ⟨none, by rw [if_pos h0]; rfl, by rw [if_pos h0]; rfl⟩
  · exact ⟨some _, by rw [if_neg h0, if_neg Bool.false_ne_true]; rfl, by rw [if_neg h0]; rfl⟩

/-- The second sum of `history_gated_loudness_c` is that of the crate. -/
theorem second_same (hG : SameTables E G) {h : Verif.History D} {g : History D}
    (hs : SameHistory h g) (hi : h.Inv) {start : Nat} (hst : start ≤ 1000) (thr : D) :
    (if g.useHistogram then
        loop start 1000 (0, E.f64.zero) fun acc j => do
          let n ← Run.index g.hist j
          let e ← Run.index G.energies j
          Run.done (acc.1 + n, E.f64.add acc.2 (E.f64.mul (E.f64.ofInt n) e))
      else Run.done (g.list.foldl (fun (acc : Nat × D) z =>
        if E.f64.le thr z then (acc.1 + 1, E.f64.add acc.2 z) else acc) (0, E.f64.zero))) =
    .done (sumItems E (h.gatedP E start thr)) := by
  cases hs with
  | histogram h max =>
    rw [if_pos rfl, binLoop hG hi hst]
    simp only [Verif.History.gatedP, sumItems, List.foldl_map]
    simp only [List.zip, List.drop_zipWith]
  | queue q max =>
    rw [if_neg Bool.false_ne_true]
    simp only [Verif.History.gatedP, sumItems, List.foldl_map, List.foldl_filter]

theorem gatedLoudness_same (hG : SameTables E G) {h : Verif.History D} {g : History D}
    (hs : SameHistory h g) (hi : h.Inv) (ht : totals E [h] = h.calcRelativeThreshold E)
    (hn : E.f64.isNan (h.calcRelativeThreshold E).2 = false) :
    ∃ r, gatedLoudnessMultiple E [h] = .done (levelOf (Verif.energyToLoudness E) (E.f64.neg E.f64.inf) r) ∧
      g.gatedLoudness E.f64 G = .done (levelOf G.energyToLoudness (E.f64.neg E.f64.inf) r) := by
  rw [gatedLoudnessMultiple_eq E (s := [h]) (by simpa using hi)]
  unfold gatedLoudnessP gatingMultP iterP History.gatedLoudness
  rw [calcRelativeThreshold_same hG hs hi, ht]
  simp only [Run.bind_eq, Run.done_bind, hn, hG.integrated, startIndex_same hG, List.map_cons, List.map_nil,
    List.flatten_cons, List.flatten_nil, List.append_nil]
  by_cases h0 : (h.calcRelativeThreshold E).1 = 0
  · exact ⟨none, by simp only [if_pos h0]; rfl, by rw [if_pos h0]; rfl⟩
  · have key := second_same hG hs hi (startIndex_eq E (relGate E (-10) (h.calcRelativeThreshold E))).2
      (relGate E (-10) (h.calcRelativeThreshold E))
    simp only [Run.bind_eq] at key
    simp only [if_neg h0]
    rw [show E.f64.mul (E.f64.div (h.calcRelativeThreshold E).2 (E.f64.ofInt (h.calcRelativeThreshold E).1))
        (gateFactor E (-10)) = relGate E (-10) (h.calcRelativeThreshold E) from rfl]
    have hite : ∀ (b : Bool) (x : Run (Nat × D)) (y : Nat × D) (f : Nat × D → Run D),
        (if b = true then x.bind f else f y) = (if b = true then x else .done y).bind f := by
      intro b x y f
      cases b <;> rfl
    rw [hite, key]
    simp only [Run.done_bind, if_neg Bool.false_ne_true]
    generalize sumItems E _ = r
    by_cases hr : r.1 = 0
    · exact ⟨none, by simp only [if_pos hr]; rfl, by rw [if_pos hr]; rfl⟩
    · exact ⟨some _, by simp only [if_neg hr]; rfl, by rw [if_neg hr]; rfl⟩

theorem histRange_same (hG : SameTables E G) (hp : PctOk E u64Max) {h : List Nat} (hh : h.length = 1000)
    {sizeMax : Nat} (hr : ∀ n < h.sum, ∀ num den, percentile E u64Max n num den ≤ n →
      rank E.f64 sizeMax n num den = percentile E u64Max n num den)
    (hm : ∀ n, percentile E u64Max n 1 10 ≤ percentile E u64Max n 95 100)
    (hn : E.f64.isNan (histPower E h) = false) :
    ∃ r, histLoudnessRange E h = .done (spanOf E.f64 (Verif.energyToLoudness E) r) ∧
      histRange E.f64 G sizeMax h = .done (spanOf E.f64 G.energyToLoudness r) := by
  have hpow : (Verif.History.histogram h : Verif.History D).calcRelativeThreshold E = (h.sum, histPower E h) := by
    rw [calc_hist E hh]
    unfold histPower binTotal
    rw [zip_energies E hh, List.foldl_map]
  rw [histLoudnessRange_eq E hp hh]
  unfold histRange histRangeP
  simp only [Run.bind_eq]
  have h1 := binLoop hG hh (Nat.zero_le 1000) (0, E.f64.zero)
  simp only [Run.bind_eq, List.drop_zero] at h1
  rw [h1, show ((List.zip h (Verif.energies E)).foldl
      (fun acc x => (acc.1 + x.1, E.f64.add acc.2 (E.f64.mul (E.f64.ofInt x.1) x.2))) ((0 : Nat), E.f64.zero)) =
      (h.sum, histPower E h) from hpow]
  simp only [Run.done_bind, hn, if_neg Bool.false_ne_true, hG.range]
  by_cases h0 : h.sum = 0
  · exact ⟨none, by rw [if_pos h0]; rfl, by rw [if_pos h0]; rfl⟩
  rw [if_neg h0, if_neg h0, startIndex_same hG,
    show startP E (E.f64.mul (gateFactor E (-20)) (E.f64.div (histPower E h) (E.f64.ofInt h.sum))) =
      histGate E h from rfl]
  have hst : histGate E h ≤ 1000 := (Verif.startIndex_eq E _).2
  generalize histGate E h = index at hst ⊢
  have h2 := countLoop hh hst
  simp only [Run.bind_eq] at h2
  simp only [Run.done_bind, h2]
  have hle : (h.take index).sum ≤ h.sum := sum_take_le h index
  generalize hbf : (h.take index).sum = before at hle ⊢
  by_cases h3 : h.sum - before = 0
  · exact ⟨none, by rw [if_pos h3]; rfl, by rw [if_pos h3]; rfl⟩
  rw [if_neg h3, if_neg h3]
  obtain ⟨p1, p2⟩ := hp (h.sum - before - 1)
  rw [hr _ (by omega) 1 10 p1, hr _ (by omega) 95 100 p2]
  have hq1 : percentile E u64Max (h.sum - before - 1) 1 10 + before < h.sum := by omega
  have hq2 : percentile E u64Max (h.sum - before - 1) 95 100 + before < h.sum := by omega
  have hmono := hm (h.sum - before - 1)
  generalize percentile E u64Max (h.sum - before - 1) 1 10 = lo at hq1 hmono ⊢
  generalize percentile E u64Max (h.sum - before - 1) 95 100 = hi at hq2 hmono ⊢
  have b1 := (percentileEnergy_eq E hh (Nat.zero_le 1000) hq1).2
  have b2 := (percentileEnergy_eq E hh (Nat.zero_le 1000) hq2).2
  rw [walk_eq h hq1 (h.drop index) 0 index (by omega) rfl (by omega)
    (by have := (le_binOf h (lo + before) (j := index) (by omega)).2 (by omega); omega)]
  have m1 : binOf h (lo + before) + 1 ≤ binOf h (hi + before) + 1 := by
    have := (le_binOf h (hi + before) (j := binOf h (lo + before)) (by omega)).2
      (Nat.le_trans ((le_binOf h (lo + before) (j := binOf h (lo + before)) (by omega)).1 (Nat.le_refl _)) (by omega))
    omega
  have m2 : before ≤ (h.take (binOf h (lo + before) + 1)).sum := by
    have h4 := (le_binOf h (lo + before) (j := index) (by omega)).2 (by omega)
    have := sum_take_mono h (i := index) (j := binOf h (lo + before) + 1) (by omega)
    omega
  have w2 := walk_eq h hq2 (h.drop (binOf h (lo + before) + 1)) ((h.take (binOf h (lo + before) + 1)).sum - before)
    (binOf h (lo + before) + 1) (by omega) rfl (by omega) m1
  have hx : ∀ i, i < 1000 → Run.index (Verif.energies E) i = .done (binEnergy E i) := by
    intro i hi
    apply Run.index_some
    unfold binEnergy
    rw [List.getD_eq_getElem?_getD, List.getElem?_eq_getElem (by rw [energies_length]; exact hi), Option.getD_some]
  simp only [Run.done_bind, hG.energies, Nat.add_sub_cancel, w2, hx _ b1, hx _ b2]
  exact ⟨some (binEnergy E (binOf h (lo + before)), binEnergy E (binOf h (hi + before))), rfl, rfl⟩

theorem listRange_same (hG : SameTables E G) (hp : PctOk E E.usizeMax) {q : List D}
    (hq : G.qsort q = q.mergeSort (sortLe E.f64)) :
    ∃ r, queueLoudnessRange E (q.mergeSort (sortLe E.f64)) =
        .done (spanOf E.f64 (Verif.energyToLoudness E) r) ∧
      listRange E.f64 G E.usizeMax q = .done (spanOf E.f64 G.energyToLoudness r) := by
  rw [queueLoudnessRange_eq E hp]
  have hlen : (q.mergeSort (sortLe E.f64)).length = q.length := List.length_mergeSort q
  unfold listRange queueRangeP
  simp only [hq, hG.range, sumD, hlen]
  generalize q.mergeSort (sortLe E.f64) = v at hlen ⊢
  generalize E.f64.mul (gateFactor E (-20)) (E.f64.div (v.foldl E.f64.add E.f64.zero) (E.f64.ofInt q.length)) = thr
  by_cases h0 : q.length = 0
  · have hv : v = [] := List.length_eq_zero_iff.1 (hlen.trans h0)
    subst hv
    exact ⟨none, by rw [List.dropWhile_nil, if_pos rfl]; rfl, by rw [if_pos h0]; rfl⟩
  rw [if_neg h0]
  generalize (v.dropWhile fun x => E.f64.lt x thr) = g
  by_cases h1 : g = []
  · subst h1
    exact ⟨none, by rw [if_pos rfl]; rfl, rfl⟩
  have h1' : g.length ≠ 0 := fun h => h1 (List.length_eq_zero_iff.1 h)
  rw [if_neg h1, if_neg h1']
  have hr : ∀ num den, rank E.f64 E.usizeMax (g.length - 1) num den =
      percentile E E.usizeMax (g.length - 1) num den := fun _ _ => rfl
  rw [hr, hr]
  obtain ⟨p1, p2⟩ := hp (g.length - 1)
  generalize percentile E E.usizeMax (g.length - 1) 1 10 = lo at p1 ⊢
  generalize percentile E E.usizeMax (g.length - 1) 95 100 = hi at p2 ⊢
  have hx : ∀ i, i < g.length → Run.index g i = .done (g.getD i E.f64.zero) := by
    intro i hi
    apply Run.index_some
    rw [List.getD_eq_getElem?_getD, List.getElem?_eq_getElem hi, Option.getD_some]
  simp only [Run.bind_eq, Run.done_bind, hx _ (show lo < g.length by omega), hx _ (show hi < g.length by omega)]
  exact ⟨some (g.getD lo E.f64.zero, g.getD hi E.f64.zero), rfl, rfl⟩

/-! ## Adding blocks -/

theorem add_same (hG : SameTables E G) {h : Verif.History D} {g : History D} (hs : SameHistory h g) (hi : h.Inv)
    {x : D} (hx : E.f64.le (gate0 E) x = !E.f64.lt x (gate0 E)) (hm : g.useHistogram = false → 0 < g.max) :
    ∃ g', g.add E.f64 G x = .done g' ∧ SameHistory (h.addP E x) g' ∧
      g'.useHistogram = g.useHistogram ∧ g'.max = g.max := by
  simp only [History.add, Run.bind_eq, hG.boundaries, index_b0, Run.done_bind, hx]
  unfold Verif.History.addP
  cases hlt : E.f64.lt x (gate0 E) with
  | true => exact ⟨g, rfl, hs, rfl, rfl⟩
  | false =>
    simp only [Bool.not_false, if_true, if_neg Bool.false_ne_true]
    cases hs with
    | histogram h max =>
      have hlen : findP E x < h.length := by rw [show h.length = 1000 from hi]; exact (find_eq E x).2
      simp only [if_true, findIndex_eq hG, Run.done_bind, Run.index_lt hlen]
      unfold setUnchecked
      rw [if_pos hlen]
      refine ⟨_, rfl, ?_, rfl, rfl⟩
      have : h.modify (findP E x) (· + 1) = h.set (findP E x) (h[findP E x] + 1) := by
        rw [List.modify_eq_set]
        simp [hlen]
      rw [this]
      exact .histogram _ _
    | queue q max =>
      have hmax : 0 < max := hm rfl
      rw [if_neg Bool.false_ne_true]
      unfold queueAdd
      show ∃ g', _ ∧ SameHistory (.queue ((if max = q.length then List.drop 1 q else q) ++ [x]) max) g' ∧ _
      by_cases hl : q.length = max
      · have hne : q ≠ [] := by rintro rfl; simp at hl; omega
        rw [if_pos hl, if_pos hl.symm, Run.assert_true hne]
        exact ⟨_, rfl, .queue _ _, rfl, rfl⟩
      · rw [if_neg hl, if_neg (Ne.symm hl)]
        exact ⟨_, rfl, .queue _ _, rfl, rfl⟩

end Verif.CRef
