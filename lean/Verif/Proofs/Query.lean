import Verif.Proofs.Safe
/-! # Queries as total functions -/

set_option linter.unusedSimpArgs false

namespace Verif
variable {D S T : Type} {Sm : Type → Type}

/-! ## Gating -/

/-- The bin centre. -/
def binEnergy (E : Env D S) (i : Nat) : D := (energies E).getD i E.f64.zero

/-- `startIndex` without faults. -/
def startP (E : Env D S) (x : D) : Nat :=
  if E.f64.lt x (gate0 E) then 0
  else if E.f64.lt (binEnergy E (findP E x)) x then findP E x + 1 else findP E x

theorem startIndex_eq (E : Env D S) (x : D) :
    startIndex E x = .done (startP E x) ∧ startP E x ≤ 1000 := by
  have hf := find_eq E x
  have hl : findP E x < (energies E).length := by rw [energies_length]; exact hf.2
  unfold startP
  constructor
  · simp only [startIndex, Run.bind_eq, index_b0, Run.done_bind, hf.1, Run.index_lt hl, binEnergy,
      List.getD_eq_getElem?_getD, List.getElem?_eq_getElem hl, Option.getD_some]
    split <;> rfl
  · split
    · omega
    · split <;> omega

/-- The items one history contributes. -/
def History.gatedP (E : Env D S) (start : Nat) (thr : D) : History D → List (Nat × D)
  | .histogram h => (List.zip (h.drop start) ((energies E).drop start)).map fun x =>
      (x.1, E.f64.mul (E.f64.ofInt x.1) x.2)
  | .queue q _ => (q.filter fun e => E.f64.le thr e).map fun e => (1, e)

theorem History.gated_eq (E : Env D S) {start : Nat} (hs : start ≤ 1000) (thr : D) {h : History D}
    (hi : h.Inv) : h.gated E start thr = .done (h.gatedP E start thr) := by
  cases h with
  | queue q max => rfl
  | histogram l =>
    have : start ≤ l.length := by rw [show l.length = 1000 from hi]; exact hs
    simp only [History.gated, Run.bind_eq, Run.assert_true this, Run.done_bind]
    rfl

/-- Count and energy sum over several histories. -/
def totals (E : Env D S) (s : List (History D)) : Nat × D :=
  s.foldl (fun acc h =>
    (acc.1 + (h.calcRelativeThreshold E).1, E.f64.add acc.2 (h.calcRelativeThreshold E).2))
    ((0 : Nat), E.f64.zero)

/-- The relative gate of several histories. -/
def relGate (E : Env D S) (x : Int) (t : Nat × D) : D :=
  E.f64.mul (E.f64.div t.2 (E.f64.ofInt t.1)) (gateFactor E x)

/-- `iter_gating_block_count_and_energy` without faults. -/
def iterP (E : Env D S) (s : List (History D)) : Except HistoryError (List (Nat × D)) :=
  if (totals E s).1 = 0 then .error .noBlocksAboveThreshold
  else if E.f64.isNan (totals E s).2 then .error .relativeThresholdIsNan
  else .ok (s.map (History.gatedP E (startP E (relGate E (-10) (totals E s)))
    (relGate E (-10) (totals E s)))).flatten

theorem iterGating_eq (E : Env D S) {s : List (History D)} (hs : ∀ h ∈ s, h.Inv) :
    iterGating E s = .done (iterP E s) := by
  simp only [iterGating, Run.bind_eq]
  show (if (totals E s).1 = 0 then _ else if E.f64.isNan (totals E s).2 then _ else _) = _
  unfold iterP
  split
  · rfl
  · split
    · rfl
    · rw [(startIndex_eq E _).1]
      simp only [Run.done_bind]
      have := Run.forL_done (f := History.gated E (startP E (relGate E (-10) (totals E s)))
        (relGate E (-10) (totals E s)))
        (g := History.gatedP E (startP E (relGate E (-10) (totals E s))) (relGate E (-10) (totals E s)))
        (l := s) (fun h hh => History.gated_eq E (startIndex_eq E _).2 _ (hs h hh))
      show Run.bind (Run.forL (History.gated E (startP E (relGate E (-10) (totals E s)))
        (relGate E (-10) (totals E s))) s) _ = _
      rw [this]
      rfl

/-- Sum of counts and energies. -/
def sumItems (E : Env D S) (items : List (Nat × D)) : Nat × D :=
  items.foldl (fun acc (x : Nat × D) => (acc.1 + x.1, E.f64.add acc.2 x.2)) ((0 : Nat), E.f64.zero)

/-- `gating_block_count_and_energy_multiple` without faults. -/
def gatingMultP (E : Env D S) (s : List (History D)) : Except HistoryError (Nat × D) :=
  match iterP E s with
  | .error x => .error x
  | .ok items =>
    if (sumItems E items).1 = 0 then .error .noBlocksAboveThreshold else .ok (sumItems E items)

theorem gatingMultiple_eq (E : Env D S) {s : List (History D)} (hs : ∀ h ∈ s, h.Inv) :
    gatingMultiple E s = .done (gatingMultP E s) := by
  simp only [gatingMultiple, Run.bind_eq, iterGating_eq E hs, Run.done_bind, gatingMultP]
  cases iterP E s with
  | error x => rfl
  | ok items =>
    simp only
    show (if (sumItems E items).1 = 0 then _ else _) = _
    split <;> rfl

/-- `gated_loudness_multiple` without faults. -/
def gatedLoudnessP (E : Env D S) (s : List (History D)) : D :=
  match gatingMultP E s with
  | .ok (n, e) => energyToLoudness E (E.f64.div e (E.f64.ofInt n))
  | .error .noBlocksAboveThreshold => E.f64.neg E.f64.inf
  | .error .relativeThresholdIsNan => E.f64.nan

theorem gatedLoudnessMultiple_eq (E : Env D S) {s : List (History D)} (hs : ∀ h ∈ s, h.Inv) :
    gatedLoudnessMultiple E s = .done (gatedLoudnessP E s) := by
  simp only [gatedLoudnessMultiple, Run.bind_eq, gatingMultiple_eq E hs, Run.done_bind, gatedLoudnessP]
  rcases gatingMultP E s with (_ | _) | ⟨n, x⟩ <;> rfl

/-! ## Queries on one analyzer -/

theorem Ebu.loudnessGlobal_eq {E : Env D S} {e : Ebu D S} (h : e.Inv E) :
    e.loudnessGlobal E = .done (if e.mode.contains Mode.I then
      .ok (gatedLoudnessP E [e.blockEnergyHistory]) else .error .invalidMode) := by
  unfold Ebu.loudnessGlobal
  cases hm : e.mode.contains Mode.I
  · rfl
  · simp only [Bool.not_true, Bool.false_eq_true, if_false, if_true, Run.bind_eq]
    rw [gatedLoudnessMultiple_eq E (by simpa using h.hist)]
    rfl

theorem loudnessGlobalMultiple_eq {E : Env D S} {es : List (Ebu D S)} (h : ∀ e ∈ es, e.Inv E) :
    loudnessGlobalMultiple E es = .done (if ∀ e ∈ es, e.mode.contains Mode.I = true then
      .ok (gatedLoudnessP E (es.map Ebu.blockEnergyHistory)) else .error .invalidMode) := by
  unfold loudnessGlobalMultiple
  by_cases ha : ∀ e ∈ es, e.mode.contains Mode.I = true
  · rw [if_pos ha, if_neg]
    · simp only [Run.bind_eq]
      rw [gatedLoudnessMultiple_eq E]
      · rfl
      · intro x hx
        obtain ⟨e, he, rfl⟩ := List.mem_map.1 hx
        exact (h e he).hist
    · simp only [Bool.not_eq_true, List.any_eq_false, Bool.not_eq_eq_eq_not, Bool.not_true]
      intro e he
      rw [ha e he]; simp
  · rw [if_neg ha, if_pos]
    rw [List.any_eq_true]
    by_cases hx : ∃ e, e ∈ es ∧ (!e.mode.contains Mode.I) = true
    · exact hx
    · refine absurd (fun e he => ?_) ha
      cases hm : e.mode.contains Mode.I
      · exact absurd ⟨e, he, by rw [hm]; rfl⟩ hx
      · rfl

theorem Ebu.loudnessWindow_eq {E : Env D S} {e : Ebu D S} (h : e.Inv E) (w : Nat) :
    e.loudnessWindow E w = .done (if E.usizeMax < e.rate * w ∨ e.ring < e.rate * w / 1000 then
      .error .invalidMode else .ok (windowLoudness E (e.energyP E (e.rate * w / 1000)))) := by
  unfold Ebu.loudnessWindow
  by_cases h1 : E.usizeMax < e.rate * w
  · rw [if_pos h1, if_pos (.inl h1)]
  · rw [if_neg h1]
    simp only [Run.bind_eq, Ebu.energyInInterval_eq h, Run.done_bind]
    by_cases h2 : e.ring < e.rate * w / 1000
    · rw [if_pos h2, if_pos (.inr h2)]
    · rw [if_neg h2, if_neg (by omega)]

theorem Ebu.loudnessMomentary_eq {E : Env D S} {e : Ebu D S} (h : e.Inv E) :
    e.loudnessMomentary E = .done (if e.ring < e.samplesIn100ms * 4 then
      .error .invalidMode else .ok (windowLoudness E (e.energyP E (e.samplesIn100ms * 4)))) := by
  simp only [Ebu.loudnessMomentary, Run.bind_eq, Ebu.energyInInterval_eq h, Run.done_bind]
  by_cases hc : e.ring < e.samplesIn100ms * 4
  · simp only [if_pos hc]
  · simp only [if_neg hc]

theorem Ebu.loudnessShortterm_eq {E : Env D S} {e : Ebu D S} (h : e.Inv E) :
    e.loudnessShortterm E = .done (if e.ring < e.samplesIn100ms * 30 then
      .error .invalidMode else .ok (windowLoudness E (e.energyP E (e.samplesIn100ms * 30)))) := by
  simp only [Ebu.loudnessShortterm, Ebu.energyShortterm, Run.bind_eq, Ebu.energyInInterval_eq h,
    Run.done_bind]
  by_cases hc : e.ring < e.samplesIn100ms * 30
  · simp only [if_pos hc]
  · simp only [if_neg hc]

/-- A per-channel query. -/
def peakQuery (present : Bool) (channels n : Nat) (v : D) : Except Error D :=
  if !present then .error .invalidMode
  else if channels ≤ n then .error .invalidChannelIndex
  else .ok v

theorem Ebu.getSamplePeak_eq {E : Env D S} {e : Ebu D S} (h : e.Inv E) (n : Nat) :
    e.getSamplePeak n = .done (peakQuery (e.mode.contains Mode.SAMPLE_PEAK) e.channels n
      (e.samplePeak.getD n E.f64.zero)) := by
  unfold Ebu.getSamplePeak peakQuery
  split
  · rfl
  · split
    · rfl
    · have : n < e.samplePeak.length := by rw [h.samplePeak]; omega
      simp [Run.index_lt this, List.getD_eq_getElem?_getD, this]

theorem Ebu.getPrevSamplePeak_eq {E : Env D S} {e : Ebu D S} (h : e.Inv E) (n : Nat) :
    e.getPrevSamplePeak n = .done (peakQuery (e.mode.contains Mode.SAMPLE_PEAK) e.channels n
      (e.filter.samplePeak.getD n E.f64.zero)) := by
  unfold Ebu.getPrevSamplePeak peakQuery
  split
  · rfl
  · split
    · rfl
    · have : n < e.filter.samplePeak.length := by rw [h.filter.samplePeak]; omega
      simp [Run.index_lt this, List.getD_eq_getElem?_getD, this]

theorem Ebu.getTruePeak_eq {E : Env D S} {e : Ebu D S} (h : e.Inv E) (n : Nat) :
    e.getTruePeak E n = .done (peakQuery (e.mode.contains Mode.TRUE_PEAK) e.channels n
      (maxBy E.f64.lt (e.truePeak.getD n E.f64.zero) (e.samplePeak.getD n E.f64.zero))) := by
  unfold Ebu.getTruePeak peakQuery
  split
  · rfl
  · split
    · rfl
    · have h1 : n < e.samplePeak.length := by rw [h.samplePeak]; omega
      have h2 : n < e.truePeak.length := by rw [h.truePeak]; omega
      simp [Run.index_lt h1, Run.index_lt h2, List.getD_eq_getElem?_getD, h1, h2, maxBy]

theorem Ebu.getPrevTruePeak_eq {E : Env D S} {e : Ebu D S} (h : e.Inv E) (n : Nat) :
    e.getPrevTruePeak E n = .done (peakQuery (e.mode.contains Mode.TRUE_PEAK) e.channels n
      (maxBy E.f64.lt (e.filter.truePeak.getD n E.f64.zero)
        (e.filter.samplePeak.getD n E.f64.zero))) := by
  unfold Ebu.getPrevTruePeak peakQuery
  split
  · rfl
  · split
    · rfl
    · have h1 : n < e.filter.samplePeak.length := by rw [h.filter.samplePeak]; omega
      have h2 : n < e.filter.truePeak.length := by rw [h.filter.truePeak]; omega
      simp [Run.index_lt h1, Run.index_lt h2, List.getD_eq_getElem?_getD, h1, h2, maxBy]

theorem Ebu.gatingCount_eq {E : Env D S} {e : Ebu D S} (h : e.Inv E) :
    e.gatingBlockCountAndEnergy E = .done (match gatingMultP E [e.blockEnergyHistory] with
      | .ok r => some r
      | .error _ => none) := by
  unfold Ebu.gatingBlockCountAndEnergy
  rw [gatingMultiple_eq E (by simpa using h.hist)]
  simp only [Run.bind_eq, Run.done_bind]
  rcases gatingMultP E [e.blockEnergyHistory] with _ | _ <;> rfl

end Verif
