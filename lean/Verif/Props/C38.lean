import Verif.Props.C37
/-!
# C38: loudness range in histogram mode
-/

namespace Verif
open Spec Fl
variable {m : Libm F64} {bs : BSearch} {t : Target}
variable {D S : Type}

/-! ### The expanded list -/

theorem notBelow_expand (A : Arith D) (g : D) (v : Nat → D) (c : Nat → Nat) (bins : List Nat) :
    notBelow A g (expand v c bins) = expand v c (bins.filter fun i => !A.lt (v i) g) := by
  unfold notBelow expand
  induction bins with
  | nil => rfl
  | cons i l ih =>
    rw [List.flatMap_cons, List.filter_append, ih, List.filter_replicate]
    cases hv : A.lt (v i) g
    · rw [List.filter_cons_of_pos (by simp [hv]), List.flatMap_cons]
      rfl
    · rw [List.filter_cons_of_neg (by simp [hv])]
      rfl

theorem expand_congr {v w : Nat → D} {c : Nat → Nat} {bins : List Nat} (h : ∀ i ∈ bins, v i = w i) :
    expand v c bins = expand w c bins := by
  unfold expand
  induction bins with
  | nil => rfl
  | cons i l ih =>
    rw [List.flatMap_cons, List.flatMap_cons, h i (List.mem_cons_self ..), ih fun j hj => h j (List.mem_cons_of_mem _ hj)]

/-- The bins from `s` on hold what is left of the list after the blocks of the earlier bins. -/
theorem expand_from (v : Nat → D) {c : List Nat} (n s : Nat) (hc : c.length = n) :
    expand v (fun i => c.getD i 0) ((List.range n).filter fun i => decide (s ≤ i)) =
      (expand v (fun i => c.getD i 0) (List.range n)).drop (c.take s).sum := by
  rw [← drop_range]
  conv => rhs; rw [← List.take_append_drop s (List.range n)]
  have happ : ∀ a b : List Nat, expand v (fun i => c.getD i 0) (a ++ b) =
      expand v (fun i => c.getD i 0) a ++ expand v (fun i => c.getD i 0) b := fun a b => List.flatMap_append
  rw [happ]
  have hl : (expand v (fun i => c.getD i 0) ((List.range n).take s)).length = (c.take s).sum := by
    rw [expand_length]
    unfold binCount
    congr 1
    rw [List.map_take]
    congr 1
    apply List.ext_getElem
    · rw [List.length_map, List.length_range, hc]
    · intro i h1 h2
      rw [List.getElem_map, List.getElem_range, List.getD_eq_getElem?_getD, List.getElem?_eq_getElem h2,
        Option.getD_some]
  rw [← hl, List.drop_left]

theorem prefixSums_shift (a : Nat) (h : List Nat) : prefixSums a h = (prefixSums 0 h).map (a + ·) := by
  induction h generalizing a with
  | nil => rfl
  | cons x xs ih =>
    simp only [prefixSums, List.map_cons]
    rw [ih (a + x), ih (0 + x), List.map_map]
    congr 1
    · omega
    · apply List.map_congr_left
      intro y _
      simp only [Function.comp_apply]
      omega

theorem binOf_cons (x : Nat) (xs : List Nat) (p : Nat) :
    binOf (x :: xs) p = if p < x then 0 else binOf xs (p - x) + 1 := by
  unfold binOf
  simp only [prefixSums, Nat.zero_add]
  rw [prefixSums_shift x xs]
  split
  · next h =>
    rw [List.countP_eq_zero]
    intro y hy
    rw [decide_eq_true_eq]
    rcases List.mem_cons.1 hy with rfl | hy
    · omega
    · obtain ⟨z, -, rfl⟩ := List.mem_map.1 hy
      omega
  · next h =>
    rw [List.countP_cons_of_pos (by simpa using h), List.countP_map]
    congr 2
    funext y
    simp only [Function.comp_apply, decide_eq_decide]
    omega

/-- The `p`-th entry of the expanded list is the value of the bin the cumulative search finds. -/
theorem expand_get (v : Nat → D) (c : List Nat) (p : Nat) (hp : p < c.sum) :
    (expand v (fun i => c.getD i 0) (List.range c.length))[p]? = some (v (binOf c p)) := by
  induction c generalizing v p with
  | nil => simp at hp
  | cons x xs ih =>
    have h1 : expand v (fun i => (x :: xs).getD i 0) (List.range (x :: xs).length) =
        List.replicate x (v 0) ++ expand (fun i => v (i + 1)) (fun i => xs.getD i 0) (List.range xs.length) := by
      unfold expand
      rw [List.length_cons, List.range_succ_eq_map, List.flatMap_cons, List.flatMap_map]
      rfl
    rw [h1, binOf_cons]
    rw [List.sum_cons] at hp
    split
    · next h => rw [List.getElem?_append_left (by rwa [List.length_replicate]), List.getElem?_replicate, if_pos h]
    · next h =>
      rw [List.getElem?_append_right (by rw [List.length_replicate]; omega), List.length_replicate]
      exact ih (fun i => v (i + 1)) (p - x) (by omega)

theorem histPower_eq (E : Env D S) {c : List Nat} (hc : c.length = 1000) :
    histPower E c = binTotal E.f64 (binEnergy E) (fun i => c.getD i 0) allBins := by
  unfold histPower binTotal
  rw [zip_energies E hc, List.foldl_map]

theorem start_nan : startP (ieeeEnv m bs t) .nan = 0 := by
  have h1 : (ieeeEnv m bs t).f64.lt .nan (gate0 (ieeeEnv m bs t)) = false := rfl
  obtain ⟨f1, -⟩ := findP_spec (ieeeEnv m bs t) .nan
  have hf : findP (ieeeEnv m bs t) .nan = 0 := by
    rcases f1 with f1 | f1
    · exact f1
    · have h2 : Fl.le (boundary (ieeeEnv m bs t) (findP (ieeeEnv m bs t) .nan)) .nan = true := f1
      rw [Fl.le_nan] at h2
      cases h2
  unfold startP
  rw [h1, if_neg Bool.false_ne_true, hf, if_neg]
  intro h
  have h2 : Fl.lt (binEnergy (ieeeEnv m bs t) 0) .nan = true := h
  cases hb : binEnergy (ieeeEnv m bs t) 0 with
  | nan => rw [hb] at h2; cases h2
  | num s k hk => rw [hb] at h2; cases h2

/-- The start index separates the bins below the gate from the others, NaN gates included. -/
theorem start_notBelow (g : F64) {i : Nat} (hi : i < 1000) :
    decide (startP (ieeeEnv m bs t) g ≤ i) = !Fl.lt (centre i) g := by
  cases hg : g.isNan with
  | true =>
    have : g = .nan := by
      cases g with
      | nan => rfl
      | num => cases hg
    subst this
    rw [start_nan]
    cases hb : centre i <;> rfl
  | false =>
    have h := ieee_order (m := m) (bs := bs) (t := t) |>.start hg hi
    rw [binEnergy_centre hi] at h
    have h' : startP (ieeeEnv m bs t) g ≤ i ↔ Fl.le g (centre i) = true := h
    rw [Bool.eq_iff_iff, decide_eq_true_eq, h', Bool.not_eq_true', Fl.not_lt (centre_not_nan i) hg]

/-- Selecting by the cumulative counts is selecting from the expanded list. -/
theorem hist_select {c : List Nat} (hl : c.sum ≤ 2 ^ 46) (before : Nat) {L : List F64} (hlen : L.length = c.sum)
    (w : Nat → F64) (hget : ∀ p < c.sum, L[p]? = some (w (binOf c p))) :
    (if c.sum = 0 then (ieeeEnv m bs t).f64.zero
    else if c.sum - before = 0 then (ieeeEnv m bs t).f64.zero
    else
      (ieeeEnv m bs t).f64.sub
        (energyToLoudness (ieeeEnv m bs t)
          (w (binOf c (percentile (ieeeEnv m bs t) u64Max (c.sum - before - 1) 95 100 + before))))
        (energyToLoudness (ieeeEnv m bs t)
          (w (binOf c (percentile (ieeeEnv m bs t) u64Max (c.sum - before - 1) 1 10 + before))))) =
      spread (ieeeEnv m bs t) (L.drop before) := by
  have hk : (L.drop before).length = c.sum - before := by rw [List.length_drop, hlen]
  rw [← spread_eq (max := u64Max) (by rw [hk]; omega) (by rw [hk]; unfold u64Max; omega) (zero false)]
  by_cases h0 : c.sum - before = 0
  · rw [if_pos (List.length_eq_zero_iff.1 (by rw [hk, h0])), if_pos h0, ite_self]
  · rw [if_neg (by omega), if_neg h0, if_neg (fun h => h0 (by rw [← hk, h]; rfl)), hk]
    have hsel : ∀ k, k ≤ c.sum - before - 1 → w (binOf c (k + before)) = (L.drop before).getD k (zero false) := by
      intro k hk'
      rw [List.getD_eq_getElem?_getD, List.getElem?_drop, Nat.add_comm _ k, hget _ (by omega), Option.getD_some]
    obtain ⟨p1, p2⟩ := percentile_le (E := ieeeEnv m bs t) (max := u64Max) rfl (by unfold u64Max; omega)
      (c.sum - before - 1)
    rw [hsel _ p1, hsel _ p2]

theorem histPower_ieee {c : List Nat} (hc : c.length = 1000) :
    histPower (ieeeEnv m bs t) c = binTotal (Fl.arith Fmt.b64) centre (fun i => c.getD i 0) allBins := by
  have hv : ∀ i < 1000, binEnergy (ieeeEnv m bs t) i = centre i := fun i hi => binEnergy_centre hi
  rw [histPower_eq _ hc, binTotal_congr _ _ (fun i hi => hv i (mem_allBins.1 hi)), ieee_f64]

theorem histGate_ieee {c : List Nat} (hc : c.length = 1000) :
    histGate (ieeeEnv m bs t) c = startP (ieeeEnv m bs t) ((ieeeEnv m bs t).f64.mul
      (hundredth (ieeeEnv m bs t)) (binMean (ieeeEnv m bs t).f64 centre fun i => c.getD i 0)) := by
  have h1 : histGate (ieeeEnv m bs t) c = startP (ieeeEnv m bs t) ((ieeeEnv m bs t).f64.mul
      (gateFactor (ieeeEnv m bs t) (-20)) ((ieeeEnv m bs t).f64.div (histPower (ieeeEnv m bs t) c)
        ((ieeeEnv m bs t).f64.ofInt c.sum))) := histGate.eq_1 ..
  have h2 : binMean (ieeeEnv m bs t).f64 centre (fun i => c.getD i 0) = (ieeeEnv m bs t).f64.div
      (binTotal (ieeeEnv m bs t).f64 centre (fun i => c.getD i 0) allBins)
        ((ieeeEnv m bs t).f64.ofInt (binCount (fun i => c.getD i 0) allBins)) := binMean.eq_1 ..
  rw [h1, h2, gateFactor_hundredth, histPower_ieee hc, sum_range c hc, ieee_f64]

theorem histRangeP_num {c : List Nat} (hn : (histPower (ieeeEnv m bs t) c).isNan = false) :
    histRangeP (ieeeEnv m bs t) c = if c.sum = 0 then (ieeeEnv m bs t).f64.zero
    else if c.sum - (c.take (histGate (ieeeEnv m bs t) c)).sum = 0 then (ieeeEnv m bs t).f64.zero
    else
      (ieeeEnv m bs t).f64.sub
        (energyToLoudness (ieeeEnv m bs t) (binEnergy (ieeeEnv m bs t) (binOf c
          (percentile (ieeeEnv m bs t) u64Max (c.sum - (c.take (histGate (ieeeEnv m bs t) c)).sum - 1) 95 100 +
            (c.take (histGate (ieeeEnv m bs t) c)).sum))))
        (energyToLoudness (ieeeEnv m bs t) (binEnergy (ieeeEnv m bs t) (binOf c
          (percentile (ieeeEnv m bs t) u64Max (c.sum - (c.take (histGate (ieeeEnv m bs t) c)).sum - 1) 1 10 +
            (c.take (histGate (ieeeEnv m bs t) c)).sum)))) := by
  have hn' : (ieeeEnv m bs t).f64.isNan (histPower (ieeeEnv m bs t) c) = false := hn
  unfold histRangeP
  rw [hn', if_neg Bool.false_ne_true]

theorem histRange_eq {c : List Nat} (hc : c.length = 1000) (hl : c.sum ≤ 2 ^ 46) :
    histRangeP (ieeeEnv m bs t) c = binRange (ieeeEnv m bs t) centre (fun i => c.getD i 0) := by
  have hlen : (expand centre (fun i => c.getD i 0) allBins).length = c.sum := by
    rw [expand_length, sum_range c hc]
  have hget : ∀ p < c.sum, (expand centre (fun i => c.getD i 0) allBins)[p]? =
      some (binEnergy (ieeeEnv m bs t) (binOf c p)) := by
    intro p hp
    have := expand_get centre c p hp
    rw [hc, ← allBins_eq] at this
    rw [this, binEnergy_centre (percentileEnergy_eq (ieeeEnv m bs t) hc (Nat.zero_le 1000) hp).2]
  rw [histRangeP_num (by rw [histPower_ieee hc]; exact (binTotal_nonneg (fun i => c.getD i 0) range_lt).not_nan),
    hist_select hl _ hlen (binEnergy (ieeeEnv m bs t)) hget, histGate_ieee hc]
  unfold binRange
  rw [notBelow_expand]
  generalize (ieeeEnv m bs t).f64.mul (hundredth (ieeeEnv m bs t))
    (binMean (ieeeEnv m bs t).f64 centre fun i => c.getD i 0) = g
  have hbins : (allBins.filter fun i => !(ieeeEnv m bs t).f64.lt (centre i) g) =
      allBins.filter fun i => decide (startP (ieeeEnv m bs t) g ≤ i) := by
    apply List.filter_congr
    intro i hi
    exact (start_notBelow g (mem_allBins.1 hi)).symm
  rw [hbins, allBins_eq, expand_from centre 1000 _ hc]

theorem st_hist_length {E : Env D S} {e : Ebu D S} (hr : Reachable E e) {c : List Nat}
    (hc : e.shortTermBlockEnergyHistory = .histogram c) : c.length = 1000 := by
  have := hr.inv.stHist
  rw [hc] at this
  exact this

/-- **C38.** In histogram mode the loudness range is the same percentile difference, computed on the expanded
ascending list of bin centres, whose mean is formed bin by bin. -/
theorem C38_range {e : Ebu F64 F32} (ht : t.usizeMax ≤ 2 ^ 64) (hr : Reachable (ieeeEnv m bs t) e)
    (hL : e.mode.contains Mode.LRA = true) {c : List Nat} (hc : e.shortTermBlockEnergyHistory = .histogram c)
    (hl : c.sum ≤ 2 ^ 46) :
    e.loudnessRange (ieeeEnv m bs t) =
      .done (.ok (binRange (ieeeEnv m bs t) centre fun i => c.getD i 0)) := by
  rw [Ebu.loudnessRange_eq (percentile_le rfl ht) (percentile_le rfl (by unfold u64Max; omega)) hr.inv, if_pos hL, hc]
  congr 2
  exact histRange_eq (st_hist_length hr hc) hl

theorem expand_ascending (c : Nat → Nat) {bins : List Nat} (hb : ∀ i ∈ bins, i < 1000)
    (hs : bins.Pairwise (· < ·)) : Ascending (expand centre c bins) := by
  unfold expand Ascending
  rw [List.pairwise_flatMap]
  refine ⟨fun i _ => List.pairwise_replicate.2 (.inr (Fl.le_refl (centre_not_nan i))), ?_⟩
  refine hs.imp_of_mem ?_
  intro i j hi hj hij x hx y hy
  rw [(List.mem_replicate.1 hx).2, (List.mem_replicate.1 hy).2]
  have h1 := hb i hi
  have h2 := hb j hj
  exact Fl.le_trans (Fl.le_of_lt (C30_tables h1).2) (Fl.le_trans (bnd_le hij h2.le) (Fl.le_of_lt (C30_tables h2).1))

/-- **C38.** The list is in ascending order, so its entries selected by rank are percentiles. -/
theorem C38_ascending (c : Nat → Nat) : Ascending (expand centre c allBins) := by
  refine expand_ascending c range_lt ?_
  rw [allBins_eq]
  exact List.pairwise_lt_range

/-- **C38.** With a `log10` that keeps the order the range is never negative. -/
theorem C38_sign (hm : MonotoneLog m) (c : Nat → Nat) :
    Fl.lt (binRange (ieeeEnv m bs t) centre c) (zero false) = false := by
  unfold binRange
  refine spread_not_neg hm (List.Pairwise.sublist List.filter_sublist (C38_ascending c)) fun x hx => ?_
  have hx := List.mem_of_mem_filter hx
  unfold expand at hx
  rw [List.mem_flatMap] at hx
  obtain ⟨i, hi, hx⟩ := hx
  rw [(List.mem_replicate.1 hx).2]
  obtain ⟨k, hk, e, -⟩ := Fl.centre_pos (mem_allBins.1 hi)
  rw [e]
  rfl

/-! ### Cases -/

/-- Three blocks in bin 100, one in bin 400, six in bin 500: second smallest and largest of the ten. -/
example : spread (Demo.envReal false) (expand centre (fun i => if i = 100 then 3 else if i = 400 then 1 else 6)
    [100, 400, 500]) = Fl.sub (lufsD (Demo.envReal false) (centre 500)) (lufsD (Demo.envReal false) (centre 100)) := by
  decide +kernel

/-- Number of blocks in a histogram (none in queue mode). -/
def Demo.stored : History F64 → Nat
  | .histogram c => c.sum
  | .queue _ _ => 0

theorem Demo.st_hist_report : (Demo.after (Demo.envReal false) 30 (Mode.LRA ||| Mode.HISTOGRAM)
    [.addFrames (.i16 (List.replicate 90 5000))]).map (fun e =>
    decide (Demo.stored e.shortTermBlockEnergyHistory = 1) && e.mode.contains Mode.LRA) = some true := by
  decide +kernel

/-- An analyzer in histogram mode with a short-term block stored. -/
example : ∃ (e : Ebu F64 F32) (c : List Nat), Reachable (Demo.envReal false) e ∧ e.mode.contains Mode.LRA = true ∧
    e.shortTermBlockEnergyHistory = .histogram c ∧ c.sum = 1 := by
  obtain ⟨e, hr, hp⟩ := Demo.after_spec (by decide) (by decide) (by decide) Demo.st_hist_report
  simp only [Bool.and_eq_true, decide_eq_true_eq] at hp
  obtain ⟨h1, h2⟩ := hp
  cases hb : e.shortTermBlockEnergyHistory with
  | queue q max => rw [hb] at h1; cases h1
  | histogram c => rw [hb] at h1; exact ⟨e, c, hr, h2, hb, h1⟩

end Verif
