import Verif.Props.C38
/-!
# C39: queries over several analyzers
-/

set_option linter.unusedSimpArgs false

namespace Verif
open Spec Fl
variable {m : Libm F64} {bs : BSearch} {t : Target} {u : Nat}
variable {D S : Type}

/-! ## Integrated loudness -/

/-- **C39.** Of one analyzer: its own integrated loudness. -/
theorem C39_one {E : Env D S} {e : Ebu D S} (hr : Reachable E e) :
    loudnessGlobalMultiple E [e] = e.loudnessGlobal E := by
  rw [loudnessGlobalMultiple_eq (by intro x hx; rw [List.mem_singleton.1 hx]; exact hr.inv),
    Ebu.loudnessGlobal_eq hr.inv]
  simp

/-- **C39.** Of none: minus infinity. -/
theorem C39_none (E : Env D S) : loudnessGlobalMultiple E [] = .done (.ok (E.f64.neg E.f64.inf)) := by
  rw [loudnessGlobalMultiple_eq (by simp), if_pos (by simp)]
  rfl

/-- **C39.** The query fails exactly if an analyzer does not integrate, with `InvalidMode`. -/
theorem C39_mode {E : Env D S} {es : List (Ebu D S)} (hr : ∀ e ∈ es, Reachable E e) :
    (∃ e ∈ es, e.mode.contains Mode.I = false) ∧ loudnessGlobalMultiple E es = .done (.error .invalidMode) ∨
    (∀ e ∈ es, e.mode.contains Mode.I = true) ∧ ∃ x, loudnessGlobalMultiple E es = .done (.ok x) := by
  rw [loudnessGlobalMultiple_eq fun e he => (hr e he).inv]
  by_cases h : ∀ e ∈ es, e.mode.contains Mode.I = true
  · right
    rw [if_pos h]
    exact ⟨h, _, rfl⟩
  · left
    rw [if_neg h]
    simp only [not_forall, Bool.not_eq_true] at h
    obtain ⟨e, he, h⟩ := h
    exact ⟨⟨e, he, h⟩, rfl⟩

/-- Integrated loudness of several lists of block energies: the gate is 10 dB below the mean over all, for which
each list is summed on its own; the loudness is that of the mean of the blocks of the concatenation at or above
the gate. -/
def Spec.integratedAll (E : Env D S) (qs : List (List D)) : D :=
  let sum := total E.f64 (qs.map (total E.f64))
  let gate := E.f64.mul (E.f64.div sum (E.f64.ofInt qs.flatten.length)) (tenth E)
  let kept := qs.flatten.filter fun x => E.f64.le gate x
  if qs.flatten = [] then E.f64.neg E.f64.inf
  else if E.f64.isNan sum then E.f64.nan
  else if kept = [] then E.f64.neg E.f64.inf
  else lufsD E (mean E.f64 kept)

theorem totals_queues (E : Env D S) (qs : List (List D × Nat)) :
    totals E (qs.map fun q => History.queue q.1 q.2) =
      ((qs.map Prod.fst).flatten.length, total E.f64 ((qs.map Prod.fst).map (total E.f64))) := by
  unfold totals
  have : ∀ (n : Nat) (s : D), (qs.map fun q => History.queue q.1 q.2).foldl (fun acc h =>
      (acc.1 + (h.calcRelativeThreshold E).1, E.f64.add acc.2 (h.calcRelativeThreshold E).2)) (n, s) =
      (n + (qs.map Prod.fst).flatten.length, ((qs.map Prod.fst).map (total E.f64)).foldl E.f64.add s) := by
    induction qs with
    | nil => intro n s; rfl
    | cons q qs ih =>
      intro n s
      rw [List.map_cons, List.foldl_cons, ih]
      simp only [History.calcRelativeThreshold, List.map_cons, List.flatten_cons, List.length_append, List.foldl_cons]
      rw [Nat.add_assoc]
      rfl
  rw [this, Nat.zero_add]
  rfl

theorem gated_queues (E : Env D S) (s : Nat) (g : D) (qs : List (List D × Nat)) :
    ((qs.map fun q => History.queue q.1 q.2).map (History.gatedP E s g)).flatten =
      ((qs.map Prod.fst).flatten.filter fun x => E.f64.le g x).map fun x => (1, x) := by
  induction qs with
  | nil => rfl
  | cons q qs ih =>
    rw [List.map_cons, List.map_cons, List.flatten_cons, ih, List.map_cons, List.flatten_cons, List.filter_append,
      List.map_append]
    rfl

/-- **C39.** Of several integrating analyzers in queue mode: the gate over the concatenation of their histories. -/
theorem C39_queues {es : List (Ebu F64 F32)} (hr : ∀ e ∈ es, Reachable (ieeeEnv m bs t) e)
    (hI : ∀ e ∈ es, e.mode.contains Mode.I = true) {qs : List (List F64 × Nat)}
    (hq : es.map Ebu.blockEnergyHistory = qs.map fun q => .queue q.1 q.2) :
    loudnessGlobalMultiple (ieeeEnv m bs t) es =
      .done (.ok (integratedAll (ieeeEnv m bs t) (qs.map Prod.fst))) := by
  rw [loudnessGlobalMultiple_eq fun e he => (hr e he).inv, if_pos hI, hq]
  congr 2
  unfold gatedLoudnessP gatingMultP iterP integratedAll
  rw [totals_queues]
  dsimp only
  have hg : relGate (ieeeEnv m bs t) (-10) ((qs.map Prod.fst).flatten.length,
      total (ieeeEnv m bs t).f64 ((qs.map Prod.fst).map (total (ieeeEnv m bs t).f64))) =
      (ieeeEnv m bs t).f64.mul ((ieeeEnv m bs t).f64.div
        (total (ieeeEnv m bs t).f64 ((qs.map Prod.fst).map (total (ieeeEnv m bs t).f64)))
        ((ieeeEnv m bs t).f64.ofInt (qs.map Prod.fst).flatten.length)) (tenth (ieeeEnv m bs t)) := by
    unfold relGate
    rw [gateFactor_tenth]
  rw [hg]
  generalize total (ieeeEnv m bs t).f64 ((qs.map Prod.fst).map (total (ieeeEnv m bs t).f64)) = sum
  by_cases h0 : (qs.map Prod.fst).flatten = []
  · rw [if_pos h0, if_pos (by rw [h0]; rfl)]
  rw [if_neg h0, if_neg (fun h => h0 (List.length_eq_zero_iff.1 h))]
  by_cases h1 : (ieeeEnv m bs t).f64.isNan sum = true
  · rw [if_pos h1, if_pos h1]
  rw [if_neg h1, if_neg h1, gated_queues]
  dsimp only
  rw [sumItems_ones]
  dsimp only
  generalize (qs.map Prod.fst).flatten.filter _ = kept
  by_cases h2 : kept = []
  · rw [if_pos h2, if_pos (by rw [h2]; rfl)]
  · rw [if_neg h2, if_neg (fun h => h2 (List.length_eq_zero_iff.1 h))]
    rfl

/-! ### Exact arithmetic, any mixture of queues and histograms -/

/-- The blocks of a history, one by one; blocks of a histogram have the energy of their bin. -/
noncomputable def Spec.blocks : History ℝ → List ℝ
  | .queue q _ => q
  | .histogram c => expand centreR (fun i => c.getD i 0) allBins

theorem blocks_calc {h : History ℝ} (hi : h.Inv) :
    h.calcRelativeThreshold (exactEnv bs u) = ((blocks h).length, (blocks h).sum) := by
  cases h with
  | queue q max =>
    show (q.length, total exactArith q) = _
    rw [exact_total]
    rfl
  | histogram c =>
    have hc : c.length = 1000 := hi
    rw [calc_hist _ hc, binTotal_congr _ _ (fun i hi => exact_energy (mem_allBins.1 hi)), exact_f64, exact_binTotal]
    show _ = ((expand _ _ _).length, _)
    rw [expand_length, sum_range c hc]
    rfl

theorem sumItems_exact (l : List (Nat × ℝ)) :
    sumItems (exactEnv bs u) l = ((l.map Prod.fst).sum, (l.map Prod.snd).sum) := by
  have : ∀ (n : Nat) (s : ℝ), l.foldl (fun acc (x : Nat × ℝ) => (acc.1 + x.1, (exactEnv bs u).f64.add acc.2 x.2)) (n, s) =
      (n + (l.map Prod.fst).sum, s + (l.map Prod.snd).sum) := by
    induction l with
    | nil => intro n s; simp
    | cons x l ih =>
      intro n s
      rw [List.foldl_cons, ih, List.map_cons, List.map_cons, List.sum_cons, List.sum_cons]
      show (n + x.1 + _, s + x.2 + _) = _
      rw [Nat.add_assoc, add_assoc]
  unfold sumItems
  rw [this, Nat.zero_add]
  show (_, (0 : ℝ) + _) = _
  rw [_root_.zero_add]

theorem blocks_gated {h : History ℝ} (hi : h.Inv) (g : ℝ) :
    sumItems (exactEnv bs u) (h.gatedP (exactEnv bs u) (startP (exactEnv bs u) g) g) =
      (((blocks h).filter fun x => (exactEnv bs u).f64.le g x).length,
        ((blocks h).filter fun x => (exactEnv bs u).f64.le g x).sum) := by
  cases h with
  | queue q max =>
    simp only [History.gatedP, blocks]
    rw [sumItems_ones, exact_f64, exact_total]
  | histogram c =>
    have hc : c.length = 1000 := hi
    have hv : ∀ i < 1000, binEnergy (exactEnv bs u) i = centreR i := fun i hi => exact_energy hi
    rw [sumItems_hist _ hc, exact_order.bins trivial, binsFrom_congr _ hv,
      binTotal_congr _ _ (fun i hi => hv i (mem_binsFrom.1 hi).1), exact_f64, exact_binTotal]
    simp only [blocks]
    rw [expand_filter, expand_length]
    rfl

theorem exact_several {hs : List (History ℝ)} (hi : ∀ h ∈ hs, h.Inv) (max : Nat) :
    gatingMultP (exactEnv bs u) hs = gatingMultP (exactEnv bs u) [.queue (hs.flatMap blocks) max] := by
  have ht : ∀ hs : List (History ℝ), (∀ h ∈ hs, h.Inv) → totals (exactEnv bs u) hs =
      ((hs.flatMap blocks).length, (hs.flatMap blocks).sum) := by
    intro hs hi
    unfold totals
    have : ∀ (n : Nat) (s : ℝ), hs.foldl (fun acc h => (acc.1 + (h.calcRelativeThreshold (exactEnv bs u)).1,
        (exactEnv bs u).f64.add acc.2 (h.calcRelativeThreshold (exactEnv bs u)).2)) (n, s) =
        (n + (hs.flatMap blocks).length, s + (hs.flatMap blocks).sum) := by
      induction hs with
      | nil => intro n s; simp
      | cons h hs ih =>
        intro n s
        rw [List.foldl_cons, ih fun h hh => hi h (List.mem_cons_of_mem _ hh), blocks_calc (hi h (List.mem_cons_self ..)),
          List.flatMap_cons, List.length_append, List.sum_append]
        show (n + _ + _, s + _ + _) = _
        rw [Nat.add_assoc, add_assoc]
    rw [this, Nat.zero_add]
    show (_, (0 : ℝ) + _) = _
    rw [_root_.zero_add]
  have hg : ∀ (g : ℝ) (hs : List (History ℝ)), (∀ h ∈ hs, h.Inv) →
      sumItems (exactEnv bs u) (hs.map (History.gatedP (exactEnv bs u) (startP (exactEnv bs u) g) g)).flatten =
      (((hs.flatMap blocks).filter fun x => (exactEnv bs u).f64.le g x).length,
        ((hs.flatMap blocks).filter fun x => (exactEnv bs u).f64.le g x).sum) := by
    intro g hs hi
    rw [sumItems_exact]
    induction hs with
    | nil => rfl
    | cons h hs ih =>
      have h1 := blocks_gated (bs := bs) (u := u) (hi h (List.mem_cons_self ..)) g
      have h2 := ih fun h hh => hi h (List.mem_cons_of_mem _ hh)
      rw [sumItems_exact] at h1
      rw [Prod.mk.injEq] at h1 h2
      rw [List.map_cons, List.flatten_cons, List.map_append, List.map_append, List.sum_append, List.sum_append, h1.1,
        h1.2, h2.1, h2.2, List.flatMap_cons, List.filter_append, List.length_append, List.sum_append]
  have hq : ∀ h ∈ [History.queue (hs.flatMap blocks) max], h.Inv := by
    intro h hh; rw [List.mem_singleton.1 hh]; trivial
  have hb : [History.queue (hs.flatMap blocks) max].flatMap blocks = hs.flatMap blocks := by
    rw [List.flatMap_cons, List.flatMap_nil, List.append_nil]
    rfl
  have t1 := ht hs hi
  have t2 := ht _ hq
  rw [hb] at t2
  unfold gatingMultP iterP
  rw [t1, t2]
  dsimp only
  split
  · next h => split at h
              · injection h with h; rw [if_pos (by assumption)]; rw [← h]
              · split at h
                · injection h with h; rw [if_neg (by assumption), if_pos (by assumption)]; rw [← h]
                · cases h
  · next items h =>
    split at h
    · cases h
    · next h0 =>
      split at h
      · cases h
      · next h1 =>
        injection h with h
        rw [if_neg h0, if_neg h1, ← h]
        dsimp only
        rw [hg _ hs hi, hg _ _ hq, hb]

/-- **C39.** In exact arithmetic the count and energy of the gated blocks of any histories, queues and histograms
mixed, are those of the concatenation of their blocks. -/
theorem C39_exact {hs : List (History ℝ)} (hi : ∀ h ∈ hs, h.Inv) (max : Nat) :
    gatingMultiple (exactEnv bs u) hs = gatingMultiple (exactEnv bs u) [.queue (hs.flatMap blocks) max] := by
  rw [gatingMultiple_eq _ hi, gatingMultiple_eq _ (by intro h hh; rw [List.mem_singleton.1 hh]; trivial)]
  rw [exact_several hi max]

/-- **C39.** Likewise the loudness. -/
theorem C39_exact_loudness {hs : List (History ℝ)} (hi : ∀ h ∈ hs, h.Inv) (max : Nat) :
    gatedLoudnessMultiple (exactEnv bs u) hs =
      gatedLoudnessMultiple (exactEnv bs u) [.queue (hs.flatMap blocks) max] := by
  rw [gatedLoudnessMultiple_eq _ hi, gatedLoudnessMultiple_eq _ (by intro h hh; rw [List.mem_singleton.1 hh]; trivial)]
  unfold gatedLoudnessP
  rw [exact_several hi max]

/-! ## Loudness range -/

/-- **C39.** Of one analyzer: its own loudness range. -/
theorem C39_range_one (ht : t.usizeMax ≤ 2 ^ 64) {e : Ebu F64 F32} (hr : Reachable (ieeeEnv m bs t) e) :
    ebuLoudnessRangeMultiple (ieeeEnv m bs t) [e] = e.loudnessRange (ieeeEnv m bs t) := by
  have p1 : PctOk (ieeeEnv m bs t) (ieeeEnv m bs t).usizeMax := percentile_le rfl ht
  have p2 : PctOk (ieeeEnv m bs t) u64Max := percentile_le rfl (by unfold u64Max; omega)
  rw [ebuLoudnessRangeMultiple_eq p1 p2 (by intro x hx; rw [List.mem_singleton.1 hx]; exact hr.inv),
    Ebu.loudnessRange_eq p1 p2 hr.inv, List.map_cons, List.map_nil, rangeMultP_one]
  simp

/-- **C39.** Of none: zero. -/
theorem C39_range_none (E : Env D S) : ebuLoudnessRangeMultiple E [] = .done (.ok E.f64.zero) := rfl

/-- **C39.** Of several analyzers in queue mode: the loudness range of the concatenation. -/
theorem C39_range_queues (ht : t.usizeMax ≤ 2 ^ 64) {es : List (Ebu F64 F32)}
    (hr : ∀ e ∈ es, Reachable (ieeeEnv m bs t) e) (hL : ∀ e ∈ es, e.mode.contains Mode.LRA = true)
    {qs : List (List F64 × Nat)} (hq : es.map Ebu.shortTermBlockEnergyHistory = qs.map fun q => .queue q.1 q.2)
    (hn : .nan ∉ (qs.map Prod.fst).flatten) {s : List F64} (hp : s.Perm (qs.map Prod.fst).flatten) (hs : Ascending s)
    (hl : (qs.map Prod.fst).flatten.length ≤ 2 ^ 46) (hmax : (qs.map Prod.fst).flatten.length ≤ t.usizeMax + 1) :
    ebuLoudnessRangeMultiple (ieeeEnv m bs t) es = .done (.ok (rangeOf (ieeeEnv m bs t) s)) := by
  have p1 : PctOk (ieeeEnv m bs t) (ieeeEnv m bs t).usizeMax := percentile_le rfl ht
  have p2 : PctOk (ieeeEnv m bs t) u64Max := percentile_le rfl (by unfold u64Max; omega)
  rw [ebuLoudnessRangeMultiple_eq p1 p2 fun e he => (hr e he).inv, if_pos hL, hq]
  congr 1
  have hnn : ∀ x ∈ (qs.map Prod.fst).flatten, x.Nonneg := by
    intro x hx
    obtain ⟨l, hl, hx'⟩ := List.mem_flatten.1 hx
    obtain ⟨q, hqm, rfl⟩ := List.mem_map.1 hl
    have hm : History.queue q.1 q.2 ∈ es.map Ebu.shortTermBlockEnergyHistory := by
      rw [hq]; exact List.mem_map.2 ⟨q, hqm, rfl⟩
    obtain ⟨e, he, heq⟩ := List.mem_map.1 hm
    have := (C32_stored (hr e he)).2 heq x hx'
    cases x with
    | nan => exact absurd hx hn
    | num => exact this
  cases qs with
  | nil =>
    have : s = [] := hp.eq_nil
    subst this
    rfl
  | cons q qs =>
    have hc := combineQueues_eq (q :: qs)
    have ha : ¬ (2 ≤ ((q :: qs).map Prod.fst).flatten.length ∧
        ((q :: qs).map Prod.fst).flatten.any (ieeeEnv m bs t).f64.isNan = true) := by
      rintro ⟨-, h⟩
      obtain ⟨x, hx, hxn⟩ := List.any_eq_true.1 h
      cases x with
      | nan => exact hn hx
      | num => cases hxn
    have := queueRange_eq (m := m) (bs := bs) hnn hp hs hl hmax
    rw [← this]
    generalize ((q :: qs).map Prod.fst).flatten = L at *
    rw [List.map_cons] at hc ⊢
    unfold rangeMultP
    dsimp only
    rw [hc]
    dsimp only
    rw [if_neg ha]

/-- **C39.** NaN if one of two or more energies is NaN. -/
theorem C39_range_nan (ht : t.usizeMax ≤ 2 ^ 64) {es : List (Ebu F64 F32)}
    (hr : ∀ e ∈ es, Reachable (ieeeEnv m bs t) e) (hL : ∀ e ∈ es, e.mode.contains Mode.LRA = true)
    {qs : List (List F64 × Nat)} (hq : es.map Ebu.shortTermBlockEnergyHistory = qs.map fun q => .queue q.1 q.2)
    (hn : .nan ∈ (qs.map Prod.fst).flatten) (hl : 2 ≤ (qs.map Prod.fst).flatten.length) :
    ebuLoudnessRangeMultiple (ieeeEnv m bs t) es = .done (.ok .nan) := by
  have p1 : PctOk (ieeeEnv m bs t) (ieeeEnv m bs t).usizeMax := percentile_le rfl ht
  have p2 : PctOk (ieeeEnv m bs t) u64Max := percentile_le rfl (by unfold u64Max; omega)
  rw [ebuLoudnessRangeMultiple_eq p1 p2 fun e he => (hr e he).inv, if_pos hL, hq]
  congr 1
  cases qs with
  | nil => cases hn
  | cons q qs =>
    have hc := combineQueues_eq (q :: qs)
    have ha : 2 ≤ ((q :: qs).map Prod.fst).flatten.length ∧
        ((q :: qs).map Prod.fst).flatten.any (ieeeEnv m bs t).f64.isNan = true :=
      ⟨hl, List.any_eq_true.2 ⟨.nan, hn, rfl⟩⟩
    generalize ((q :: qs).map Prod.fst).flatten = L at *
    rw [List.map_cons] at hc ⊢
    unfold rangeMultP
    dsimp only
    rw [hc]
    dsimp only
    rw [if_pos ha]
    rfl

theorem zipWith_counts {a b : List Nat} (h : a.length = b.length) (i : Nat) :
    (List.zipWith (· + ·) a b).getD i 0 = a.getD i 0 + b.getD i 0 := by
  simp only [List.getD_eq_getElem?_getD, List.getElem?_zipWith]
  rcases Nat.lt_or_ge i a.length with h1 | h1
  · rw [List.getElem?_eq_getElem h1, List.getElem?_eq_getElem (by omega)]
    rfl
  · rw [List.getElem?_eq_none h1, List.getElem?_eq_none (by omega)]
    rfl

theorem combined_counts {hs : List (List Nat)} (hl : ∀ h ∈ hs, h.length = 1000) {acc : List Nat}
    (ha : acc.length = 1000) : (hs.foldl (List.zipWith (· + ·)) acc).length = 1000 ∧
      ∀ i, (hs.foldl (List.zipWith (· + ·)) acc).getD i 0 = acc.getD i 0 + (hs.map fun h => h.getD i 0).sum := by
  induction hs generalizing acc with
  | nil => exact ⟨ha, fun i => rfl⟩
  | cons h hs ih =>
    have h1 := hl h (List.mem_cons_self ..)
    obtain ⟨h2, h3⟩ := ih (fun k hk => hl k (List.mem_cons_of_mem _ hk)) (acc := List.zipWith (· + ·) acc h)
      (by rw [List.length_zipWith]; omega)
    refine ⟨h2, fun i => ?_⟩
    rw [List.foldl_cons, h3, zipWith_counts (by omega), List.map_cons, List.sum_cons, Nat.add_assoc]

theorem zeros_add {h : List Nat} (hl : h.length = 1000) : List.zipWith (· + ·) (List.replicate 1000 0) h = h := by
  apply List.ext_getElem
  · rw [List.length_zipWith, List.length_replicate]; omega
  · intro i h1 h2
    rw [List.getElem_zipWith, List.getElem_replicate, Nat.zero_add]

theorem zeros_sum : (List.replicate 1000 0).sum = 0 := by
  rw [List.sum_replicate, smul_zero]

theorem histRangeP_empty (E : Env D S) {c : List Nat} (h : c.sum = 0) : histRangeP E c = E.f64.zero := by
  unfold histRangeP
  rw [if_pos h]

/-- **C39.** Of several analyzers in histogram mode: the loudness range of the histogram with all their blocks. -/
theorem C39_range_histograms (ht : t.usizeMax ≤ 2 ^ 64) {es : List (Ebu F64 F32)}
    (hr : ∀ e ∈ es, Reachable (ieeeEnv m bs t) e) (hL : ∀ e ∈ es, e.mode.contains Mode.LRA = true)
    {hs : List (List Nat)} (hh : es.map Ebu.shortTermBlockEnergyHistory = hs.map .histogram)
    (hl : (hs.map List.sum).sum ≤ 2 ^ 46) :
    ebuLoudnessRangeMultiple (ieeeEnv m bs t) es =
      .done (.ok (binRange (ieeeEnv m bs t) centre fun i => (hs.map fun h => h.getD i 0).sum)) := by
  have p1 : PctOk (ieeeEnv m bs t) (ieeeEnv m bs t).usizeMax := percentile_le rfl ht
  have p2 : PctOk (ieeeEnv m bs t) u64Max := percentile_le rfl (by unfold u64Max; omega)
  rw [ebuLoudnessRangeMultiple_eq p1 p2 fun e he => (hr e he).inv, if_pos hL, hh]
  have hlen : ∀ h ∈ hs, h.length = 1000 := by
    intro h hm
    have hm' : History.histogram h ∈ es.map Ebu.shortTermBlockEnergyHistory := by
      rw [hh]; exact List.mem_map.2 ⟨h, hm, rfl⟩
    obtain ⟨e, he, heq⟩ := List.mem_map.1 hm'
    exact st_hist_length (hr e he) heq
  obtain ⟨c1, c2⟩ := combined_counts hlen (acc := List.replicate 1000 0) List.length_replicate
  have hsum : (hs.foldl (List.zipWith (· + ·)) (List.replicate 1000 0)).sum = (hs.map List.sum).sum := by
    have key : ∀ (hs : List (List Nat)), (∀ h ∈ hs, h.length = 1000) → ∀ acc : List Nat, acc.length = 1000 →
        (hs.foldl (List.zipWith (· + ·)) acc).sum = acc.sum + (hs.map List.sum).sum := by
      intro hs hlen
      induction hs with
      | nil => intro acc _; rfl
      | cons h hs ih =>
        intro acc ha
        have h1 := hlen h (List.mem_cons_self ..)
        have h2 : ∀ a b : List Nat, a.length = b.length → (List.zipWith (· + ·) a b).sum = a.sum + b.sum := by
          intro a
          induction a with
          | nil => intro b hb; cases b <;> simp at hb ⊢
          | cons x a ih =>
            intro b hb
            cases b with
            | nil => simp at hb
            | cons y b =>
              rw [List.zipWith_cons_cons, List.sum_cons, List.sum_cons, List.sum_cons, ih b (by simpa using hb)]
              omega
        rw [List.foldl_cons, ih (fun k hk => hlen k (List.mem_cons_of_mem _ hk)) _ (by rw [List.length_zipWith]; omega),
          h2 _ _ (by omega), List.map_cons, List.sum_cons, Nat.add_assoc]
    rw [key hs hlen _ List.length_replicate, zeros_sum, Nat.zero_add]
  have hv : (fun i => (hs.foldl (List.zipWith (· + ·)) (List.replicate 1000 0)).getD i 0) =
      fun i => (hs.map fun h => h.getD i 0).sum := by
    funext i
    rw [c2]
    have : (List.replicate 1000 0).getD i 0 = 0 := by
      rw [List.getD_eq_getElem?_getD, List.getElem?_replicate]
      split <;> rfl
    rw [this, Nat.zero_add]
  congr 1
  rw [← hv, ← histRange_eq c1 (by rw [hsum]; exact hl)]
  match hs, hlen with
  | [], _ =>
    show Except.ok _ = Except.ok _
    rw [List.foldl_nil, histRangeP_empty _ zeros_sum]
  | [h], hlen =>
    show Except.ok (histRangeP _ h) = Except.ok _
    rw [List.foldl_cons, List.foldl_nil, zeros_add (hlen h (List.mem_cons_self ..))]
  | h :: k :: hs, hlen =>
    have hc := combineHists_eq (D := F64) (h :: k :: hs) hlen
    rw [List.map_cons, List.map_cons] at hc ⊢
    unfold rangeMultP
    dsimp only
    rw [hc]

/-- **C39.** The range query fails exactly if an analyzer lacks mode LRA or queues and histograms are mixed, with
`InvalidMode`. -/
theorem C39_range_mode (ht : t.usizeMax ≤ 2 ^ 64) {es : List (Ebu F64 F32)}
    (hr : ∀ e ∈ es, Reachable (ieeeEnv m bs t) e) :
    ((∃ e ∈ es, e.mode.contains Mode.LRA = false) ∨
      (∃ e ∈ es, ∃ c, e.shortTermBlockEnergyHistory = .histogram c) ∧
        (∃ e ∈ es, ∃ q max, e.shortTermBlockEnergyHistory = .queue q max)) ∧
      ebuLoudnessRangeMultiple (ieeeEnv m bs t) es = .done (.error .invalidMode) ∨
    ((∀ e ∈ es, e.mode.contains Mode.LRA = true) ∧
      ((∀ e ∈ es, ∃ c, e.shortTermBlockEnergyHistory = .histogram c) ∨
        (∀ e ∈ es, ∃ q max, e.shortTermBlockEnergyHistory = .queue q max))) ∧
      ∃ x, ebuLoudnessRangeMultiple (ieeeEnv m bs t) es = .done (.ok x) := by
  have p1 : PctOk (ieeeEnv m bs t) (ieeeEnv m bs t).usizeMax := percentile_le rfl ht
  have p2 : PctOk (ieeeEnv m bs t) u64Max := percentile_le rfl (by unfold u64Max; omega)
  rw [ebuLoudnessRangeMultiple_eq p1 p2 fun e he => (hr e he).inv]
  by_cases hL : ∀ e ∈ es, e.mode.contains Mode.LRA = true
  · rw [if_pos hL]
    by_cases hH : ∀ e ∈ es, ∃ c, e.shortTermBlockEnergyHistory = .histogram c
    · right
      refine ⟨⟨hL, .inl hH⟩, ?_⟩
      obtain ⟨hs, hh⟩ : ∃ hs : List (List Nat), es.map Ebu.shortTermBlockEnergyHistory = hs.map .histogram := by
        clear hL hr
        induction es with
        | nil => exact ⟨[], rfl⟩
        | cons e es ih =>
          obtain ⟨c, hc⟩ := hH e (List.mem_cons_self ..)
          obtain ⟨hs, hh⟩ := ih fun x hx => hH x (List.mem_cons_of_mem _ hx)
          exact ⟨c :: hs, by rw [List.map_cons, List.map_cons, hc, hh]⟩
      have hlen : ∀ h ∈ hs, h.length = 1000 := by
        intro h hm
        have hm' : History.histogram h ∈ es.map Ebu.shortTermBlockEnergyHistory := by
          rw [hh]; exact List.mem_map.2 ⟨h, hm, rfl⟩
        obtain ⟨e, he, heq⟩ := List.mem_map.1 hm'
        exact st_hist_length (hr e he) heq
      rw [hh]
      match hs, hlen with
      | [], _ => exact ⟨_, rfl⟩
      | [h], _ => exact ⟨_, rfl⟩
      | h :: k :: hs, hlen =>
        have hc := combineHists_eq (D := F64) (h :: k :: hs) hlen
        rw [List.map_cons, List.map_cons] at hc ⊢
        unfold rangeMultP
        dsimp only
        rw [hc]
        exact ⟨_, rfl⟩
    · by_cases hQ : ∀ e ∈ es, ∃ q max, e.shortTermBlockEnergyHistory = .queue q max
      · right
        refine ⟨⟨hL, .inr hQ⟩, ?_⟩
        obtain ⟨qs, hq⟩ : ∃ qs : List (List F64 × Nat),
            es.map Ebu.shortTermBlockEnergyHistory = qs.map fun q => .queue q.1 q.2 := by
          clear hL hr hH
          induction es with
          | nil => exact ⟨[], rfl⟩
          | cons e es ih =>
            obtain ⟨q, max, hq⟩ := hQ e (List.mem_cons_self ..)
            obtain ⟨qs, hqs⟩ := ih fun x hx => hQ x (List.mem_cons_of_mem _ hx)
            exact ⟨(q, max) :: qs, by rw [List.map_cons, List.map_cons, hq, hqs]⟩
        rw [hq]
        cases qs with
        | nil => exact ⟨_, rfl⟩
        | cons q qs =>
          have hc := combineQueues_eq (q :: qs)
          generalize ((q :: qs).map Prod.fst).flatten = L at *
          rw [List.map_cons] at hc ⊢
          unfold rangeMultP
          dsimp only
          rw [hc]
          dsimp only
          split
          · exact ⟨_, rfl⟩
          · exact ⟨_, rfl⟩
      · left
        simp only [not_forall] at hH hQ
        obtain ⟨a, ha, hna⟩ := hH
        obtain ⟨b, hb, hnb⟩ := hQ
        obtain ⟨q, max, hqa⟩ : ∃ q max, a.shortTermBlockEnergyHistory = .queue q max := by
          cases h : a.shortTermBlockEnergyHistory with
          | queue q max => exact ⟨q, max, rfl⟩
          | histogram c => exact absurd ⟨c, h⟩ hna
        obtain ⟨c, hcb⟩ : ∃ c, b.shortTermBlockEnergyHistory = .histogram c := by
          cases h : b.shortTermBlockEnergyHistory with
          | queue q max => exact absurd ⟨q, max, h⟩ hnb
          | histogram c => exact ⟨c, rfl⟩
        refine ⟨.inr ⟨⟨b, hb, c, hcb⟩, ⟨a, ha, q, max, hqa⟩⟩, ?_⟩
        have m1 : ∃ h ∈ es.map Ebu.shortTermBlockEnergyHistory, h.isHist = false :=
          ⟨_, List.mem_map.2 ⟨a, ha, rfl⟩, by rw [hqa]; rfl⟩
        have m2 : ∃ h ∈ es.map Ebu.shortTermBlockEnergyHistory, h.isHist = true :=
          ⟨_, List.mem_map.2 ⟨b, hb, rfl⟩, by rw [hcb]; rfl⟩
        generalize es.map Ebu.shortTermBlockEnergyHistory = hs at *
        have n1 := combineHists_mixed m1
        have n2 := combineQueues_mixed m2
        congr 1
        match hs with
        | [] => obtain ⟨_, h, _⟩ := m1; cases h
        | [.histogram c] =>
          obtain ⟨h, hm, hk⟩ := m1
          rw [List.mem_singleton.1 hm] at hk
          cases hk
        | .histogram c :: k :: rest =>
          unfold rangeMultP
          dsimp only
          rw [n1]
        | .queue q max :: rest =>
          unfold rangeMultP
          dsimp only
          rw [n2]
  · left
    rw [if_neg hL]
    simp only [not_forall, Bool.not_eq_true] at hL
    obtain ⟨e, he, h⟩ := hL
    exact ⟨.inl ⟨e, he, h⟩, rfl⟩

/-! ## Cases -/

/-- Three blocks in two histories, the quiet one below the common gate. -/
example : integratedAll (Demo.envReal false) [[Fl.lit _ 1 4], [Fl.lit _ 1 2, Fl.lit _ 1 1000]] =
    lufsD (Demo.envReal false) (Fl.lit _ 3 8) := by decide +kernel

/-- On its own the quiet block would count, so the result is not a mean of the separate results. -/
example : integrated (Demo.envReal false) [Fl.lit _ 1 1000] = lufsD (Demo.envReal false) (Fl.lit _ 1 1000) := by
  decide +kernel

/-- An analyzer that has stored blocks, asked together with itself and with an analyzer of the other kind. -/
example : ∃ (e f : Ebu F64 F32) (q : List F64) (max : Nat) (c : List Nat), Reachable (Demo.envReal false) e ∧
    Reachable (Demo.envReal false) f ∧ e.mode.contains Mode.LRA = true ∧ f.mode.contains Mode.LRA = true ∧
    e.shortTermBlockEnergyHistory = .queue q max ∧ f.shortTermBlockEnergyHistory = .histogram c ∧ q.length = 2 ∧
    c.sum = 1 ∧
    (∃ x, ebuLoudnessRangeMultiple (Demo.envReal false) [e, e] = .done (.ok x)) ∧
    ebuLoudnessRangeMultiple (Demo.envReal false) [e, f] = .done (.error .invalidMode) := by
  obtain ⟨e, he, hp⟩ := Demo.after_spec (by decide) (by decide) (by decide) Demo.range_queue
  rw [Bool.and_eq_true] at hp
  obtain ⟨h1, h2⟩ := hp
  obtain ⟨-, h3, -⟩ := Demo.twoDown_spec h1
  obtain ⟨max, hq⟩ := Demo.queueOf_eq (h := e.shortTermBlockEnergyHistory) rfl (by
    intro h; rw [h] at h3; cases h3)
  obtain ⟨f, hf, hp⟩ := Demo.after_spec (by decide) (by decide) (by decide) Demo.st_hist_report
  simp only [Bool.and_eq_true, decide_eq_true_eq] at hp
  obtain ⟨h4, h5⟩ := hp
  obtain ⟨c, hc, hs⟩ : ∃ c, f.shortTermBlockEnergyHistory = .histogram c ∧ c.sum = 1 := by
    cases hb : f.shortTermBlockEnergyHistory with
    | queue q max => rw [hb] at h4; cases h4
    | histogram c => rw [hb] at h4; exact ⟨c, rfl, h4⟩
  refine ⟨e, f, _, max, c, he, hf, h2, h5, hq, hc, h3, hs, ?_, ?_⟩
  · rcases C39_range_mode (m := Demo.series) (t := ⟨true, false, 2 ^ 64 - 1⟩) (bs := Demo.bsearch) (by decide)
      (es := [e, e]) (by intro x hx; simp at hx; rw [hx]; exact he) with ⟨h, -⟩ | ⟨-, h⟩
    · rcases h with ⟨x, hx, h⟩ | ⟨⟨x, hx, c', h⟩, -⟩
      · simp at hx; rw [hx, h2] at h; cases h
      · simp at hx; rw [hx, hq] at h; cases h
    · exact h
  · rcases C39_range_mode (m := Demo.series) (t := ⟨true, false, 2 ^ 64 - 1⟩) (bs := Demo.bsearch) (by decide)
      (es := [e, f]) (by intro x hx; simp at hx; rcases hx with rfl | rfl <;> assumption) with ⟨-, h⟩ | ⟨⟨-, h⟩, -⟩
    · exact h
    · rcases h with h | h
      · obtain ⟨c', h⟩ := h e (by simp)
        rw [hq] at h; cases h
      · obtain ⟨q', max', h⟩ := h f (by simp)
        rw [hc] at h; cases h

end Verif
