import Verif.Proofs.Query
/-! # Loudness range without faults -/

namespace Verif
variable {D S : Type}

/-- The percentile index stays inside the list it selects from. -/
def PctOk (E : Env D S) (max : Nat) : Prop :=
  ∀ n, percentile E max n 1 10 ≤ n ∧ percentile E max n 95 100 ≤ n

/-! ### Cumulative histogram -/

theorem prefixSums_length (a : Nat) (h : List Nat) : (prefixSums a h).length = h.length := by
  induction h generalizing a with
  | nil => rfl
  | cons x xs ih => simp [prefixSums, ih]

theorem prefixSums_get (a : Nat) (h : List Nat) (i : Nat) (hi : i < h.length) :
    (prefixSums a h)[i]? = some (a + (h.take (i + 1)).sum) := by
  induction h generalizing a i with
  | nil => simp at hi
  | cons x xs ih =>
    cases i with
    | zero => simp [prefixSums]
    | succ i =>
      simp only [prefixSums, List.getElem?_cons_succ, List.take_succ_cons, List.sum_cons]
      rw [ih _ _ (by simpa using hi), Nat.add_assoc]

theorem sum_take_mono (h : List Nat) {i j : Nat} (hij : i ≤ j) : (h.take i).sum ≤ (h.take j).sum := by
  induction h generalizing i j with
  | nil => simp
  | cons x xs ih =>
    cases i with
    | zero => simp
    | succ i =>
      cases j with
      | zero => omega
      | succ j => simpa using ih (by omega)

theorem sum_take_le (h : List Nat) (i : Nat) : (h.take i).sum ≤ h.sum := by
  have := sum_take_mono h (i := i) (j := max i h.length) (by omega)
  rwa [List.take_of_length_le (i := max i h.length) (by omega)] at this

theorem prefixSums_sorted (a : Nat) (h : List Nat) : (prefixSums a h).Pairwise (· ≤ ·) := by
  rw [List.pairwise_iff_getElem]
  intro i j hi hj hij
  rw [prefixSums_length] at hi hj
  have h1 := prefixSums_get a h i hi
  have h2 := prefixSums_get a h j hj
  rw [List.getElem?_eq_getElem (by rw [prefixSums_length]; omega)] at h1 h2
  have := sum_take_mono h (i := i + 1) (j := j + 1) (by omega)
  injection h1 with h1; injection h2 with h2
  omega

/-- Number of bins whose cumulative count is at most `p`: the bin holding the `p`-th smallest element. -/
def binOf (h : List Nat) (p : Nat) : Nat := (prefixSums 0 h).countP (· ≤ p)

theorem sorted_countP {l : List Nat} (hl : l.Pairwise (· ≤ ·)) (p : Nat) :
    (∀ i v, i < l.countP (· ≤ p) → l[i]? = some v → v ≤ p) ∧
    (∀ i v, l.countP (· ≤ p) ≤ i → l[i]? = some v → p < v) := by
  induction l with
  | nil => simp
  | cons x xs ih =>
    obtain ⟨h1, h2⟩ := List.pairwise_cons.1 hl
    obtain ⟨ih1, ih2⟩ := ih h2
    by_cases hx : x ≤ p
    · rw [List.countP_cons_of_pos (by simpa using hx)]
      refine ⟨fun i v hi hv => ?_, fun i v hi hv => ?_⟩
      · cases i with
        | zero => simp at hv; omega
        | succ i => exact ih1 i v (by omega) (by simpa using hv)
      · cases i with
        | zero => omega
        | succ i => exact ih2 i v (by omega) (by simpa using hv)
    · have h0 : xs.countP (· ≤ p) = 0 := by
        rw [List.countP_eq_zero]
        intro a ha
        have := h1 a ha
        simp; omega
      rw [List.countP_cons_of_neg (by simpa using hx), h0]
      refine ⟨fun i v hi hv => by omega, fun i v hi hv => ?_⟩
      have : v ∈ x :: xs := List.mem_of_getElem? hv
      rcases List.mem_cons.1 this with rfl | hm
      · omega
      · have := h1 v hm; omega

theorem rposSucc_eq {l : List Nat} (hl : l.Pairwise (· ≤ ·)) (p : Nat) : rposSucc l p = l.countP (· ≤ p) := by
  unfold rposSucc
  have key : ∀ r : List Nat, r.Pairwise (fun a b => b ≤ a) →
      (r.dropWhile fun v => decide (p < v)).length = r.countP (· ≤ p) := by
    intro r hr
    induction r with
    | nil => rfl
    | cons x xs ih =>
      obtain ⟨h1, h2⟩ := List.pairwise_cons.1 hr
      by_cases hx : p < x
      · rw [List.dropWhile_cons_of_pos (by simpa using hx), ih h2, List.countP_cons_of_neg (by simpa using hx)]
      · rw [List.dropWhile_cons_of_neg (by simpa using hx), List.countP_eq_length.2]
        intro a ha
        rcases List.mem_cons.1 ha with rfl | hm
        · simp; omega
        · have := h1 a hm; simp; omega
  rw [key _ (List.pairwise_reverse.2 hl), List.countP_reverse]

/-- The three cumulative searches together find the bin holding the `p`-th smallest element. -/
theorem percentileEnergy_eq (E : Env D S) {h : List Nat} (hl : h.length = 1000) {index p : Nat}
    (hi : index ≤ 1000) (hp : p < h.sum) :
    percentileEnergy E (prefixSums 0 h) index p = .done (binEnergy E (binOf h p)) ∧ binOf h p < 1000 := by
  have hlen : (prefixSums 0 h).length = 1000 := by rw [prefixSums_length, hl]
  have hs := prefixSums_sorted 0 h
  have hlast := prefixSums_get 0 h 999 (by omega)
  rw [List.take_of_length_le (by omega), Nat.zero_add] at hlast
  have hlt : binOf h p < 1000 := by
    rcases Nat.lt_or_ge (binOf h p) 1000 with h1 | h1
    · exact h1
    · have := (sorted_countP hs p).1 999 _ (by unfold binOf at h1; omega) hlast
      omega
  refine ⟨?_, hlt⟩
  have hd := hs.drop (i := index)
  have tail : ∀ j, (index + j ≤ 1000 ∧ ∀ i v, index + j ≤ i → (prefixSums 0 h)[i]? = some v → p < v) →
      (Run.assert (index + j ≤ (prefixSums 0 h).length)).bind (fun _ =>
        Run.index (energies E) (rposSucc ((prefixSums 0 h).take (index + j)) p)) =
        .done (binEnergy E (binOf h p)) := by
    intro j hjl
    rw [Run.assert_true (by omega), Run.done_bind]
    have hr : rposSucc ((prefixSums 0 h).take (index + j)) p = binOf h p := by
      rw [rposSucc_eq (hs.take (i := index + j)), binOf]
      conv => rhs; rw [← List.take_append_drop (index + j) (prefixSums 0 h), List.countP_append]
      have : ((prefixSums 0 h).drop (index + j)).countP (· ≤ p) = 0 := by
        rw [List.countP_eq_zero]
        intro a ha
        obtain ⟨i, hi⟩ := List.mem_iff_getElem?.1 ha
        rw [List.getElem?_drop] at hi
        have := hjl.2 _ _ (by omega) hi
        simp; omega
      omega
    rw [hr, Run.index_lt (by rw [energies_length]; exact hlt), binEnergy,
      List.getD_eq_getElem?_getD, List.getElem?_eq_getElem (by rw [energies_length]; exact hlt)]
    rfl
  unfold percentileEnergy
  simp only [Run.bind_eq]
  rw [Run.assert_true (by omega), Run.done_bind]
  cases hb : E.bs.run ((prefixSums 0 h).drop index) (p + 1) with
  | ok k =>
    refine tail k ?_
    have hk := E.bs.ok _ _ _ hd hb
    have hkl : k < ((prefixSums 0 h).drop index).length := by
      rw [List.getElem?_eq_some_iff] at hk; exact hk.1
    rw [List.length_drop, hlen] at hkl
    refine ⟨by omega, fun i v h1 h2 => ?_⟩
    rw [List.getElem?_drop] at hk
    rcases Nat.lt_or_ge p v with h3 | h3
    · exact h3
    · have h4 : i ≠ index + k := by rintro rfl; rw [hk] at h2; injection h2; omega
      have h5 := List.pairwise_iff_getElem.1 hs (index + k) i
        (by rw [List.getElem?_eq_some_iff] at hk; exact hk.1)
        (by rw [List.getElem?_eq_some_iff] at h2; exact h2.1) (by omega)
      rw [List.getElem?_eq_some_iff] at hk h2
      obtain ⟨_, hk⟩ := hk; obtain ⟨_, h2⟩ := h2
      omega
  | error k =>
    refine tail k ?_
    obtain ⟨h1, -, h3⟩ := E.bs.err _ _ _ hd hb
    rw [List.length_drop, hlen] at h1
    refine ⟨by omega, fun i v h4 h5 => ?_⟩
    have := h3 (i - index) v (by omega) (by rw [List.getElem?_drop]; rwa [show index + (i - index) = i by omega])
    omega

/-- Total energy of a histogram (history.rs:83-96). -/
def histPower (E : Env D S) (h : List Nat) : D :=
  (List.zip h (energies E)).foldl (fun acc x => E.f64.add acc (E.f64.mul (E.f64.ofInt x.1) x.2)) E.f64.zero

/-- The LRA gate of a histogram. -/
def histGate (E : Env D S) (h : List Nat) : Nat :=
  startP E (E.f64.mul (gateFactor E (-20)) (E.f64.div (histPower E h) (E.f64.ofInt h.sum)))

/-- `Histogram::loudness_range` without faults. -/
def histRangeP (E : Env D S) (h : List Nat) : D :=
  if h.sum = 0 then E.f64.zero
  else if E.f64.isNan (histPower E h) then E.f64.nan
  else
    let before := (h.take (histGate E h)).sum
    let n := h.sum - before
    if n = 0 then E.f64.zero
    else
      E.f64.sub
        (energyToLoudness E (binEnergy E (binOf h (percentile E u64Max (n - 1) 95 100 + before))))
        (energyToLoudness E (binEnergy E (binOf h (percentile E u64Max (n - 1) 1 10 + before))))

theorem histLoudnessRange_eq (E : Env D S) (hp : PctOk E u64Max) {h : List Nat} (hl : h.length = 1000) :
    histLoudnessRange E h = .done (histRangeP E h) := by
  unfold histLoudnessRange histRangeP
  simp only [Run.bind_eq]
  have hpw : (List.zip h (energies E)).foldl (fun acc (x : Nat × D) =>
      match x with
      | (count, energy) => E.f64.add acc (E.f64.mul (E.f64.ofInt count) energy)) E.f64.zero = histPower E h := rfl
  split
  · rfl
  · next h0 =>
    rw [hpw]
    split
    · rfl
    · obtain ⟨h1, h2⟩ := startIndex_eq E
        (E.f64.mul (gateFactor E (-20)) (E.f64.div (histPower E h) (E.f64.ofInt h.sum)))
      rw [h1, Run.done_bind]
      change startP E _ ≤ 1000 at h2
      have hg : startP E (E.f64.mul (gateFactor E (-20)) (E.f64.div (histPower E h) (E.f64.ofInt h.sum))) =
        histGate E h := rfl
      rw [hg] at h2 ⊢
      generalize histGate E h = g at h2 ⊢
      have hb : (if g = 0 then 0 else ((prefixSums 0 h)[g - 1]?).getD 0) = (h.take g).sum := by
        split
        · next h3 => subst h3; simp
        · next h3 =>
          rw [prefixSums_get 0 h (g - 1) (by omega), Option.getD_some, Nat.zero_add]
          congr 2; omega
      rw [hb]
      split
      · rfl
      · next h3 =>
        obtain ⟨p1, p2⟩ := hp (h.sum - (h.take g).sum - 1)
        rw [(percentileEnergy_eq E hl h2 (by omega)).1, Run.done_bind,
          (percentileEnergy_eq E hl h2 (by omega)).1, Run.done_bind]

/-- `Queue::loudness_range` on sorted energies without faults. -/
def queueRangeP (E : Env D S) (q : List D) : D :=
  let gate := E.f64.mul (gateFactor E (-20)) (E.f64.div (sumD E.f64 q) (E.f64.ofInt q.length))
  let g := q.dropWhile fun v => E.f64.lt v gate
  if g = [] then E.f64.zero
  else
    E.f64.sub
      (energyToLoudness E (g.getD (percentile E E.usizeMax (g.length - 1) 95 100) E.f64.zero))
      (energyToLoudness E (g.getD (percentile E E.usizeMax (g.length - 1) 1 10) E.f64.zero))

theorem queueLoudnessRange_eq (E : Env D S) (hp : PctOk E E.usizeMax) (q : List D) :
    queueLoudnessRange E q = .done (queueRangeP E q) := by
  unfold queueLoudnessRange queueRangeP
  simp only [Run.bind_eq]
  split
  · next h => subst h; simp
  · generalize E.f64.mul (gateFactor E (-20)) (E.f64.div (sumD E.f64 q) (E.f64.ofInt q.length)) = gate
    generalize hP : (fun v => E.f64.lt v gate) = P
    have hsplit : q = q.takeWhile P ++ q.dropWhile P := (List.takeWhile_append_dropWhile).symm
    have hlen : q.length - (q.takeWhile P).length = (q.dropWhile P).length := by
      have := congrArg List.length hsplit
      rw [List.length_append] at this; omega
    rw [hlen]
    have hnil : (q.dropWhile P).length = 0 ↔ q.dropWhile P = [] := List.length_eq_zero_iff
    split
    · next h => rw [if_pos (hnil.1 h)]
    · next h =>
      rw [if_neg (fun h' => h (hnil.2 h'))]
      have idx : ∀ k, k < (q.dropWhile P).length → Run.index q ((q.takeWhile P).length + k) =
          .done ((q.dropWhile P).getD k E.f64.zero) := by
        intro k hk
        have hq : q[(q.takeWhile P).length + k]? = (q.dropWhile P)[k]? := by
          have : ∀ (a b : List D), (a ++ b)[a.length + k]? = b[k]? := fun a b => by
            rw [List.getElem?_append_right (by omega), Nat.add_sub_cancel_left]
          rw [← this (q.takeWhile P), ← hsplit]
        rw [List.getD_eq_getElem?_getD]
        rw [List.getElem?_eq_getElem hk] at hq ⊢
        exact Run.index_some hq
      obtain ⟨p1, p2⟩ := hp ((q.dropWhile P).length - 1)
      rw [idx _ (by omega), Run.done_bind, idx _ (by omega), Run.done_bind]

/-- `History::loudness_range_multiple` without faults. -/
def rangeMultP (E : Env D S) : List (History D) → Except Error D
  | [] => .ok E.f64.zero
  | .histogram h :: [] => .ok (histRangeP E h)
  | .histogram h :: k :: rest =>
    match loudnessRangeMultiple.combineHists (.histogram h :: k :: rest) with
    | none => .error .invalidMode
    | some c => .ok (histRangeP E c)
  | .queue q m :: rest =>
    match loudnessRangeMultiple.combineQueues (.queue q m :: rest) with
    | none => .error .invalidMode
    | some c =>
      if 2 ≤ c.length ∧ c.any E.f64.isNan then .ok E.f64.nan
      else .ok (queueRangeP E (c.mergeSort (sortLe E.f64)))

theorem combineHists_none (s : List (History D)) :
    s.foldl (fun acc h =>
      match acc, h with
      | some c, .histogram h => some (List.zipWith (· + ·) c h)
      | _, _ => none) (none : Option (List Nat)) = none := by
  induction s with
  | nil => rfl
  | cons h t ih => exact ih

theorem combineQueues_none (s : List (History D)) :
    s.foldl (fun acc h =>
      match acc, h with
      | some c, .queue q _ => some (c ++ q)
      | _, _ => none) (none : Option (List D)) = none := by
  induction s with
  | nil => rfl
  | cons h t ih => exact ih

/-- Combining histograms succeeds when all are histograms; the result is the bin-wise sum. -/
theorem combineHists_eq (hs : List (List Nat)) (hl : ∀ h ∈ hs, h.length = 1000) :
    loudnessRangeMultiple.combineHists (hs.map (History.histogram (D := D))) =
      some (hs.foldl (List.zipWith (· + ·)) (List.replicate 1000 0)) := by
  unfold loudnessRangeMultiple.combineHists
  generalize List.replicate 1000 0 = acc
  induction hs generalizing acc with
  | nil => rfl
  | cons h t ih => exact ih (fun h hh => hl h (List.mem_cons_of_mem _ hh)) _

theorem combineHists_mixed {s : List (History D)} (hq : ∃ h ∈ s, h.isHist = false) :
    loudnessRangeMultiple.combineHists s = none := by
  unfold loudnessRangeMultiple.combineHists
  generalize List.replicate 1000 0 = acc
  induction s generalizing acc with
  | nil => obtain ⟨h, hm, _⟩ := hq; cases hm
  | cons h t ih =>
    cases h with
    | queue q m => exact combineHists_none t
    | histogram l =>
      refine ih ?_ _
      obtain ⟨k, hm, hk⟩ := hq
      rcases List.mem_cons.1 hm with rfl | hm
      · cases hk
      · exact ⟨k, hm, hk⟩

theorem combineQueues_eq (qs : List (List D × Nat)) :
    loudnessRangeMultiple.combineQueues (qs.map fun q => History.queue q.1 q.2) =
      some (qs.map Prod.fst).flatten := by
  unfold loudnessRangeMultiple.combineQueues
  have key : ∀ (acc : List D), (qs.map fun q => History.queue q.1 q.2).foldl (fun acc h =>
      match acc, h with
      | some c, .queue q _ => some (c ++ q)
      | _, _ => none) (some acc) = some (acc ++ (qs.map Prod.fst).flatten) := by
    induction qs with
    | nil => intro acc; simp
    | cons q t ih =>
      intro acc
      refine (ih (acc ++ q.1)).trans ?_
      simp [List.append_assoc]
  exact key []

theorem combineQueues_mixed {s : List (History D)} (hq : ∃ h ∈ s, h.isHist = true) :
    loudnessRangeMultiple.combineQueues s = none := by
  unfold loudnessRangeMultiple.combineQueues
  generalize ([] : List D) = acc
  induction s generalizing acc with
  | nil => obtain ⟨h, hm, _⟩ := hq; cases hm
  | cons h t ih =>
    cases h with
    | histogram q => exact combineQueues_none t
    | queue l m =>
      refine ih ?_ _
      obtain ⟨k, hm, hk⟩ := hq
      rcases List.mem_cons.1 hm with rfl | hm
      · cases hk
      · exact ⟨k, hm, hk⟩

theorem combineHists_length {s : List (History D)} (hs : ∀ h ∈ s, h.Inv) {c : List Nat}
    (h : loudnessRangeMultiple.combineHists s = some c) : c.length = 1000 := by
  unfold loudnessRangeMultiple.combineHists at h
  have key : ∀ (s : List (History D)), (∀ h ∈ s, h.Inv) → ∀ (acc : List Nat), acc.length = 1000 →
      s.foldl (fun acc h =>
      match acc, h with
      | some c, .histogram h => some (List.zipWith (· + ·) c h)
      | _, _ => none) (some acc) = some c → c.length = 1000 := by
    intro s
    induction s with
    | nil => intro _ acc ha h; cases h; exact ha
    | cons k t ih =>
      intro hs acc ha h
      cases k with
      | queue q m => exact absurd (h.symm.trans (combineHists_none t)) (by simp)
      | histogram l =>
        refine ih (fun h hh => hs h (List.mem_cons_of_mem _ hh)) _ ?_ h
        have : l.length = 1000 := hs _ List.mem_cons_self
        rw [List.length_zipWith]; omega
  exact key s hs _ List.length_replicate h

theorem loudnessRangeMultiple_eq (E : Env D S) (hp : PctOk E E.usizeMax) (hp' : PctOk E u64Max)
    {s : List (History D)} (hs : ∀ h ∈ s, h.Inv) :
    loudnessRangeMultiple E s = .done (rangeMultP E s) := by
  unfold loudnessRangeMultiple rangeMultP
  simp only [Run.bind_eq]
  cases s with
  | nil => rfl
  | cons h t =>
    cases h with
    | histogram l =>
      cases t with
      | nil =>
        simp only
        rw [histLoudnessRange_eq E hp' (hs _ List.mem_cons_self)]
        rfl
      | cons k t =>
        simp only
        cases hc : loudnessRangeMultiple.combineHists (.histogram l :: k :: t) with
        | none => rfl
        | some c =>
          simp only
          rw [histLoudnessRange_eq E hp' (combineHists_length hs hc)]
          rfl
    | queue l m =>
      simp only
      cases hc : loudnessRangeMultiple.combineQueues (.queue l m :: t) with
      | none => rfl
      | some c =>
        simp only
        split
        · rfl
        · rw [queueLoudnessRange_eq E hp]
          rfl

/-- Loudness range of one history. -/
def rangeP (E : Env D S) : History D → D
  | .histogram h => histRangeP E h
  | .queue q _ =>
    if 2 ≤ q.length ∧ q.any E.f64.isNan then E.f64.nan else queueRangeP E (q.mergeSort (sortLe E.f64))

theorem rangeMultP_one (E : Env D S) (h : History D) : rangeMultP E [h] = .ok (rangeP E h) := by
  cases h with
  | histogram l => rfl
  | queue q m =>
    simp only [rangeMultP, rangeP]
    have hc : loudnessRangeMultiple.combineQueues [History.queue q m] = some q := rfl
    rw [hc]
    simp only
    split <;> rfl

theorem Ebu.loudnessRange_eq {E : Env D S} (hp : PctOk E E.usizeMax) (hp' : PctOk E u64Max) {e : Ebu D S}
    (h : e.Inv E) : e.loudnessRange E =
      .done (if e.mode.contains Mode.LRA then .ok (rangeP E e.shortTermBlockEnergyHistory)
        else .error .invalidMode) := by
  unfold Ebu.loudnessRange
  simp only [Run.bind_eq]
  cases e.mode.contains Mode.LRA with
  | false => rfl
  | true =>
    rw [loudnessRangeMultiple_eq E hp hp' (by
      intro k hk
      rw [List.mem_singleton] at hk; subst hk; exact h.stHist)]
    rw [Run.done_bind, rangeMultP_one]
    rfl

theorem ebuLoudnessRangeMultiple_eq {E : Env D S} (hp : PctOk E E.usizeMax) (hp' : PctOk E u64Max)
    {es : List (Ebu D S)} (h : ∀ e ∈ es, e.Inv E) : ebuLoudnessRangeMultiple E es =
      .done (if ∀ e ∈ es, e.mode.contains Mode.LRA = true
        then rangeMultP E (es.map Ebu.shortTermBlockEnergyHistory) else .error .invalidMode) := by
  unfold ebuLoudnessRangeMultiple
  have hiff : (es.any fun e => !e.mode.contains Mode.LRA) = true ↔ ¬∀ e ∈ es, e.mode.contains Mode.LRA = true := by
    simp
  by_cases ha : ∀ e ∈ es, e.mode.contains Mode.LRA = true
  · rw [if_pos ha, if_neg (fun h' => hiff.1 h' ha), loudnessRangeMultiple_eq E hp hp' (by
      intro k hk
      obtain ⟨e, he, rfl⟩ := List.mem_map.1 hk
      exact (h e he).stHist)]
  · rw [if_neg ha, if_pos (hiff.2 ha)]

end Verif
