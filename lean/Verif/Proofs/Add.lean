import Verif.Proofs.Config
/-! # Adding frames -/

set_option linter.unusedSimpArgs false

namespace Verif
variable {D S T : Type} {Sm : Type → Type}

/-! ## Energy of the last frames -/

/-- Energy of the last `n` frames of the ring buffer. -/
def Ebu.energyP (E : Env D S) (e : Ebu D S) (n : Nat) : D :=
  gatingP E n e.rows e.audioDataIndex e.channelMap

theorem Ebu.calc_eq {E : Env D S} {e : Ebu D S} (h : e.Inv E) {n : Nat} (hn : n ≤ e.ring) :
    calcGatingBlock E n e.audioData e.audioDataIndex e.channelMap = .done (e.energyP E n) := by
  obtain ⟨h1, h2, h3⟩ := h.rows_spec
  have hp := h.ring_pos
  have := calcGatingBlock_eq E (fpb := n) (idx := e.audioDataIndex) (cm := e.channelMap) h.ch1 h1 h2
    (by omega) h.map h.idx hn
  rwa [h3] at this

theorem Ebu.stride_eq {E : Env D S} {e : Ebu D S} (h : e.Inv E) :
    e.audioData.length / e.channels = e.ring := by
  rw [h.data, Nat.mul_div_cancel_left _ h.ch1]

theorem Ebu.energyInInterval_eq {E : Env D S} {e : Ebu D S} (h : e.Inv E) (n : Nat) :
    e.energyInInterval E n =
      .done (if e.ring < n then .error .invalidMode else .ok (e.energyP E n)) := by
  have hc : e.channels ≠ 0 := by have := h.ch1; omega
  simp only [Ebu.energyInInterval, Run.bind_eq, Run.assert_true hc, Run.done_bind, Ebu.stride_eq h]
  split
  · rfl
  · rw [Ebu.calc_eq h (by omega)]; rfl

theorem foldL_ne_hang {σ β : Type} {f : σ → β → Run σ} (h : ∀ s x, f s x ≠ .hang) (s : σ)
    (l : List β) : Run.foldL f s l ≠ .hang := by
  induction l generalizing s with
  | nil => intro hh; cases hh
  | cons x xs ih => exact Run.bind_ne_hang (h s x) fun s => ih s

theorem assert_ne_hang (c : Prop) [Decidable c] : Run.assert c ≠ .hang := by
  unfold Run.assert; split <;> (intro h; cases h)

theorem channelEnergy_ne_hang (A : Arith D) (fpb idx : Nat) (ch : Channel) (row : List D) :
    channelEnergy A fpb idx ch row ≠ .hang := by
  unfold channelEnergy
  refine Run.bind_ne_hang (assert_ne_hang _) fun _ => ?_
  split
  · refine Run.bind_ne_hang (assert_ne_hang _) fun _ => ?_
    intro h; cases h
  · intro h; cases h

theorem calcGatingBlock_ne_hang (E : Env D S) (fpb : Nat) (l : List D) (idx : Nat)
    (cm : List Channel) : calcGatingBlock E fpb l idx cm ≠ .hang := by
  unfold calcGatingBlock
  simp only [Run.bind_eq]
  refine Run.bind_ne_hang (assert_ne_hang _) fun _ => ?_
  refine Run.bind_ne_hang (assert_ne_hang _) fun _ => ?_
  refine Run.bind_ne_hang (assert_ne_hang _) fun _ => ?_
  refine Run.bind_ne_hang (foldL_ne_hang ?_ _ _) fun _ => ?_
  · intro s x
    split
    · intro h; cases h
    · refine Run.bind_ne_hang (channelEnergy_ne_hang _ _ _ _ _) fun _ => ?_
      intro h; cases h
  · intro h; cases h

/-! ## One chunk -/

/-- Filtering a chunk into the ring and advancing the counters. -/
def Ebu.advanceP (E : Env D S) (ops : SampleOps D S T) (e : Ebu D S) (fs : List (List T)) : Ebu D S :=
  { e with
    filter := e.filter.processP E ops fs e.channelMap
    audioData := (rowsP E ops e.filter fs e.rows e.audioDataIndex e.channelMap).flatten
    audioDataIndex := e.audioDataIndex + fs.length
    neededFrames := e.neededFrames - fs.length
    shortTermFrameCounter :=
      if e.mode.contains Mode.LRA then e.shortTermFrameCounter + fs.length
      else e.shortTermFrameCounter }

/-- Recording a gating block. -/
def Ebu.gateP (E : Env D S) (e : Ebu D S) : Ebu D S :=
  { e with blockEnergyHistory :=
      if e.mode.contains Mode.I then e.blockEnergyHistory.addP E (e.energyP E (e.samplesIn100ms * 4))
      else e.blockEnergyHistory }

/-- Recording a short-term block if one is due. -/
def Ebu.shortP (E : Env D S) (e : Ebu D S) : Ebu D S :=
  if e.mode.contains Mode.LRA = true ∧ e.shortTermFrameCounter = e.samplesIn100ms * 30 then
    { e with
      shortTermBlockEnergyHistory :=
        e.shortTermBlockEnergyHistory.addP E (e.energyP E (e.samplesIn100ms * 30))
      shortTermFrameCounter := e.samplesIn100ms * 20 }
  else e

/-- Everything done when a 100 ms step is complete. -/
def Ebu.completeP (E : Env D S) (e : Ebu D S) : Ebu D S := ((e.gateP E).shortP E).wrap

theorem Ebu.processChunk_eq [Samples Sm] [LawfulSamples Sm] {E : Env D S} (ops : SampleOps D S T)
    {e : Ebu D S} (h : e.Inv E) {src : Sm T} (hw : LawfulSamples.WF src)
    (hn : Samples.channels src = e.channels)
    (hi : e.audioDataIndex + (LawfulSamples.toFrames src).length ≤ e.ring) :
    e.processChunk E ops src = .done { e with
      filter := e.filter.processP E ops (LawfulSamples.toFrames src) e.channelMap
      audioData := (rowsP E ops e.filter (LawfulSamples.toFrames src) e.rows e.audioDataIndex
        e.channelMap).flatten } := by
  obtain ⟨h1, h2, h3⟩ := h.rows_spec
  have hp := h.ring_pos
  have := Filter.process_eq E ops h.filter hw hn h1 h2 (by omega) h.map hi
  rw [h3] at this
  simp only [Ebu.processChunk, Run.bind_eq, this, Run.done_bind]

/-- Outside the ring the chunk is refused by an assertion. -/
theorem Ebu.processChunk_panic [Samples Sm] [LawfulSamples Sm] {E : Env D S} (ops : SampleOps D S T)
    {e : Ebu D S} (h : e.Inv E) {src : Sm T} (hw : LawfulSamples.WF src)
    (hi : Samples.channels src = e.channels →
      e.ring < e.audioDataIndex + (LawfulSamples.toFrames src).length) :
    e.processChunk E ops src = .panic := by
  have hc := h.ch1
  have a1 : e.filter.channels ≠ 0 ∧ e.audioData.length % e.filter.channels = 0 := by
    rw [h.filter.channels, h.data]; exact ⟨by omega, Nat.mul_mod_right ..⟩
  have a2 : e.channelMap.length = e.filter.channels := by rw [h.filter.channels, h.map]
  have a4 : e.filter.filterState.length = e.filter.channels := by
    rw [h.filter.channels, h.filter.state]
  have a5 : e.filter.samplePeak.length = e.filter.channels := by
    rw [h.filter.channels, h.filter.samplePeak]
  by_cases hn : Samples.channels src = e.channels
  · have a3 : Samples.channels src = e.filter.channels := by rw [h.filter.channels, hn]
    have hstride : e.audioData.length / e.filter.channels = e.ring := by
      rw [h.filter.channels, Ebu.stride_eq h]
    have a7 : ¬ e.audioDataIndex + Samples.frames src ≤ e.ring := by
      rw [LawfulSamples.frames_eq hw]; have := hi hn; omega
    have hpk : ∃ l, e.filter.processPeaks E ops src = Run.done l := by
      unfold Filter.processPeaks
      split
      · simp only [Run.bind_eq, Run.assert_true a5, Run.done_bind]
        refine ⟨_, Run.forL_done (g := fun pc => maxBy E.f64p.lt pc.1 (E.f64p.div (chanMax E ops
          (column pc.2 (LawfulSamples.toFrames src))) ops.maxAmp)) ?_⟩
        rintro ⟨pk, c⟩ hx
        have hx' := List.mem_zipIdx hx
        have hc : c < Samples.channels src := by
          rw [hn, ← h.filter.samplePeak]; simpa using hx'.2.1
        simp only [peakChannel, Run.bind_eq, Run.assert_true hc, Run.done_bind,
          LawfulSamples.sample_eq hw c hc]
      · exact ⟨_, rfl⟩
    obtain ⟨l, hpk⟩ := hpk
    have hf : Run.assert (e.audioDataIndex + Samples.frames src ≤ e.ring) = .panic := if_neg a7
    simp only [Ebu.processChunk, Filter.process, Run.bind_eq, Run.assert_true a1, Run.assert_true a2,
      Run.assert_true a3, Run.assert_true a4, Run.done_bind, hpk, hstride, hf, Run.panic_bind]
  · have hf : Run.assert (Samples.channels src = e.filter.channels) = .panic :=
      if_neg (by rw [h.filter.channels]; exact hn)
    simp only [Ebu.processChunk, Filter.process, Run.bind_eq, Run.assert_true a1, Run.assert_true a2,
      Run.done_bind, hf, Run.panic_bind]

theorem Ebu.advanceP_inv {E : Env D S} (ops : SampleOps D S T) {e : Ebu D S} (h : e.Inv E)
    {fs : List (List T)} (hf : RectF e.channels fs) (hi : e.audioDataIndex + fs.length ≤ e.ring)
    {k : Nat} (hk : 1 ≤ k) :
    ({ e.advanceP E ops fs with neededFrames := k }).Inv E ∧ e.SameCfg (e.advanceP E ops fs) := by
  obtain ⟨h1, h2, h3⟩ := h.rows_spec
  refine ⟨?_, ⟨rfl, rfl, rfl, rfl, rfl, rfl, rfl⟩⟩
  exact { h with
    data := by
      simp only [Ebu.advanceP, Ebu.ring]
      rw [length_flatten_of (rowsP_rows E ops hf h.map h2 hi),
        rowsP_length E ops h.filter.state fs h.map h1]
      rfl
    idx := hi
    needed := hk
    filter := (Filter.processP_inv E ops h.filter h.rect hf h.map).1
    rect := (Filter.processP_inv E ops h.filter h.rect hf h.map).2
    fresh := by
      simp only [Ebu.advanceP]
      rw [Filter.resetP_processP E ops h.filter h.rect hf h.map, h.fresh] }

theorem Ebu.tailStep_eq [Samples Sm] [LawfulSamples Sm] {E : Env D S} (ops : SampleOps D S T)
    {e : Ebu D S} (h : e.Inv E) {src : Sm T} (hw : LawfulSamples.WF src)
    (hn : Samples.channels src = e.channels)
    (hi : e.audioDataIndex + (LawfulSamples.toFrames src).length ≤ e.ring) :
    e.tailStep E ops src (LawfulSamples.toFrames src).length =
      .done (e.advanceP E ops (LawfulSamples.toFrames src)) := by
  simp only [Ebu.tailStep, Run.bind_eq, Ebu.processChunk_eq ops h hw hn hi, Run.done_bind,
    Ebu.advanceP]

/-! ## Completing a step -/

theorem Ebu.recordGating_cases {E : Env D S} {e : Ebu D S} (h : e.Inv E) :
    e.recordGating E = .panic ∨ ∃ hist : History D, e.recordGating E =
      .done { e with blockEnergyHistory := hist } ∧ hist.Inv ∧
        hist.isHist = e.blockEnergyHistory.isHist := by
  unfold Ebu.recordGating
  split
  · simp only [Run.bind_eq]
    cases hc : calcGatingBlock E (e.samplesIn100ms * 4) e.audioData e.audioDataIndex e.channelMap with
    | hang => exact (calcGatingBlock_ne_hang _ _ _ _ _ hc).elim
    | panic => exact .inl rfl
    | done x =>
      right
      simp only [Run.done_bind, History.add_eq E h.hist]
      exact ⟨_, rfl, History.addP_inv E h.hist x, History.addP_isHist E _ x⟩
  · exact .inr ⟨e.blockEnergyHistory, rfl, h.hist, rfl⟩

theorem Ebu.recordShortTerm_cases {E : Env D S} {e : Ebu D S} (h : e.Inv E) (k : Nat) :
    ∃ (hist : History D) (c : Nat) (r : Except Error Unit), e.recordShortTerm E k =
      .done ({ e with shortTermBlockEnergyHistory := hist, shortTermFrameCounter := c }, r) ∧
        hist.Inv ∧ hist.isHist = e.shortTermBlockEnergyHistory.isHist := by
  unfold Ebu.recordShortTerm
  split
  · have h' : ({ e with shortTermFrameCounter := e.shortTermFrameCounter + k } : Ebu D S).Inv E :=
      { h with }
    simp only [Run.bind_eq]
    split
    · simp only [Ebu.energyShortterm, Ebu.energyInInterval_eq h', Run.done_bind]
      split
      · exact ⟨_, _, _, rfl, h.stHist, rfl⟩
      · simp only [History.add_eq E h.stHist, Run.done_bind]
        exact ⟨_, _, _, rfl, History.addP_inv E h.stHist _, History.addP_isHist E _ _⟩
    · exact ⟨_, _, _, rfl, h.stHist, rfl⟩
  · exact ⟨_, _, _, rfl, h.stHist, rfl⟩

theorem Ebu.wrap_inv {E : Env D S} {e : Ebu D S} (h : e.Inv E) : e.wrap.Inv E :=
  { h with
    idx := by
      have := h.idx
      simp only [Ebu.wrap, Ebu.ring] at this ⊢
      split
      · exact Nat.zero_le _
      · exact this
    needed := by
      have := s100_pos h.rate16
      simp only [Ebu.wrap, h.s100]; omega }

theorem Ebu.blockStep_cases [Samples Sm] [LawfulSamples Sm] {E : Env D S} (ops : SampleOps D S T)
    {e : Ebu D S} (h : e.Inv E) {src : Sm T} (hw : LawfulSamples.WF src)
    (hl : (LawfulSamples.toFrames src).length = e.neededFrames) :
    e.blockStep E ops src = .panic ∨ (Samples.channels src = e.channels ∧
      ∃ e' r, e.blockStep E ops src = .done (e', r) ∧ e'.Inv E ∧ e.SameCfg e') := by
  by_cases hi : Samples.channels src = e.channels →
      e.ring < e.audioDataIndex + (LawfulSamples.toFrames src).length
  · left
    simp only [Ebu.blockStep, Run.bind_eq, Ebu.processChunk_panic ops h hw hi, Run.panic_bind]
  · have hn : Samples.channels src = e.channels := by
      by_cases hn : Samples.channels src = e.channels
      · exact hn
      · exact absurd (fun h => absurd h hn) hi
    have hi' : e.audioDataIndex + (LawfulSamples.toFrames src).length ≤ e.ring := by
      by_cases hlt : e.ring < e.audioDataIndex + (LawfulSamples.toFrames src).length
      · exact absurd (fun _ => hlt) hi
      · omega
    have hrect : RectF e.channels (LawfulSamples.toFrames src) := by
      rw [← hn]; exact LawfulSamples.rect hw
    simp only [Ebu.blockStep, Run.bind_eq, Ebu.processChunk_eq ops h hw hn hi', Run.done_bind]
    have hb := (Ebu.advanceP_inv ops h hrect hi' h.needed).1
    have hb2 : ({ e with
        filter := e.filter.processP E ops (LawfulSamples.toFrames src) e.channelMap
        audioData := (rowsP E ops e.filter (LawfulSamples.toFrames src) e.rows e.audioDataIndex
          e.channelMap).flatten
        audioDataIndex := e.audioDataIndex + e.neededFrames } : Ebu D S).Inv E :=
      { hb with idx := by rw [← hl]; exact hb.idx }
    rcases Ebu.recordGating_cases hb2 with hg | ⟨hist, hg, hgi, hgk⟩
    · left; rw [hg]; rfl
    · right
      refine ⟨hn, ?_⟩
      rw [hg]
      simp only [Run.done_bind]
      have hb3 : ({ e with
          filter := e.filter.processP E ops (LawfulSamples.toFrames src) e.channelMap
          audioData := (rowsP E ops e.filter (LawfulSamples.toFrames src) e.rows e.audioDataIndex
            e.channelMap).flatten
          audioDataIndex := e.audioDataIndex + e.neededFrames
          blockEnergyHistory := hist } : Ebu D S).Inv E :=
        { hb2 with hist := hgi, histKind := hgk.trans hb2.histKind }
      obtain ⟨hist', c, r, hs, hsi, hsk⟩ := Ebu.recordShortTerm_cases hb3 e.neededFrames
      rw [hs]
      simp only [Run.done_bind]
      have hb4 : ({ e with
          filter := e.filter.processP E ops (LawfulSamples.toFrames src) e.channelMap
          audioData := (rowsP E ops e.filter (LawfulSamples.toFrames src) e.rows e.audioDataIndex
            e.channelMap).flatten
          audioDataIndex := e.audioDataIndex + e.neededFrames
          blockEnergyHistory := hist
          shortTermBlockEnergyHistory := hist'
          shortTermFrameCounter := c } : Ebu D S).Inv E :=
        { hb3 with stHist := hsi, stHistKind := hsk.trans hb3.stHistKind }
      cases r with
      | error x => exact ⟨_, _, rfl, hb4, ⟨rfl, rfl, rfl, rfl, rfl, rfl, rfl⟩⟩
      | ok u => exact ⟨_, _, rfl, Ebu.wrap_inv hb4, ⟨rfl, rfl, rfl, rfl, rfl, rfl, rfl⟩⟩

/-- Whatever the configuration: the loop ends, by a panic or with the invariant intact. -/
theorem Ebu.addLoop_cases [Samples Sm] [LawfulSamples Sm] {E : Env D S} (ops : SampleOps D S T)
    (fuel : Nat) {e : Ebu D S} (h : e.Inv E) {src : Sm T} (hw : LawfulSamples.WF src)
    (hfuel : (LawfulSamples.toFrames src).length < fuel) :
    e.addLoop E ops fuel src = .panic ∨
      ∃ e' r, e.addLoop E ops fuel src = .done (e', r) ∧ e'.Inv E ∧ e.SameCfg e' := by
  induction fuel generalizing e src with
  | zero => omega
  | succ fuel ih =>
    simp only [Ebu.addLoop, LawfulSamples.frames_eq hw]
    by_cases h0 : (LawfulSamples.toFrames src).length = 0
    · rw [if_pos h0]; exact .inr ⟨_, _, rfl, h, Ebu.SameCfg.refl e⟩
    · rw [if_neg h0]
      by_cases hle : e.neededFrames ≤ (LawfulSamples.toFrames src).length
      · rw [if_pos hle]
        obtain ⟨a, b, hs, ha, hb, hca, hcb, hfa, hfb⟩ := LawfulSamples.split_eq hw _ hle
        simp only [Run.bind_eq, hs, Run.done_bind]
        have hla : (LawfulSamples.toFrames a).length = e.neededFrames := by
          rw [hfa, List.length_take]; omega
        rcases Ebu.blockStep_cases ops h ha hla with hp | ⟨hn, e', r, hd, hi, hsame⟩
        · left; rw [hp]; rfl
        · rw [hd]
          simp only [Run.done_bind]
          cases r with
          | error x => exact .inr ⟨_, _, rfl, hi, hsame⟩
          | ok u =>
            have hlb : (LawfulSamples.toFrames b).length < fuel := by
              rw [hfb, List.length_drop]; have := h.needed; omega
            rcases ih hi hb hlb with hp | ⟨e'', r, hd, hi, hs2⟩
            · exact .inl hp
            · exact .inr ⟨_, _, hd, hi, hsame.trans hs2⟩
      · rw [if_neg hle]
        obtain ⟨a, b, hs, ha, hb, hca, hcb, hfa, hfb⟩ :=
          LawfulSamples.split_eq hw _ (Nat.le_refl (LawfulSamples.toFrames src).length)
        rw [List.take_length] at hfa
        rw [List.drop_length] at hfb
        simp only [Run.bind_eq, hs, Run.done_bind]
        rw [← hfa]
        by_cases hi : Samples.channels a = e.channels →
            e.ring < e.audioDataIndex + (LawfulSamples.toFrames a).length
        · left
          simp only [Ebu.tailStep, Run.bind_eq, Ebu.processChunk_panic ops h ha hi, Run.panic_bind]
        · have hn : Samples.channels a = e.channels := by
            by_cases hn : Samples.channels a = e.channels
            · exact hn
            · exact absurd (fun h => absurd h hn) hi
          have hi' : e.audioDataIndex + (LawfulSamples.toFrames a).length ≤ e.ring := by
            by_cases hlt : e.ring < e.audioDataIndex + (LawfulSamples.toFrames a).length
            · exact absurd (fun _ => hlt) hi
            · omega
          rw [Ebu.tailStep_eq ops h ha hn hi']
          simp only [Run.done_bind]
          have hrect : RectF e.channels (LawfulSamples.toFrames a) := by
            rw [← hn]; exact LawfulSamples.rect ha
          have hadv := Ebu.advanceP_inv ops h hrect hi'
            (k := e.neededFrames - (LawfulSamples.toFrames a).length) (by rw [hfa]; omega)
          rcases ih hadv.1 hb (by rw [hfb]; simp; omega) with hp | ⟨e'', r, hd, hi, hs2⟩
          · exact .inl hp
          · exact .inr ⟨_, _, hd, hi, hadv.2.trans hs2⟩

theorem Ebu.updatePeaks_inv {E : Env D S} {e : Ebu D S} (h : e.Inv E) :
    (e.updatePeaks E).Inv E ∧ e.SameCfg (e.updatePeaks E) :=
  ⟨{ h with
    samplePeak := by
      simp [Ebu.updatePeaks, Ebu.updatePeaks.updatePeak, h.samplePeak, h.filter.samplePeak]
    truePeak := by
      simp [Ebu.updatePeaks, Ebu.updatePeaks.updatePeak, h.truePeak, h.filter.truePeak] },
   ⟨rfl, rfl, rfl, rfl, rfl, rfl, rfl⟩⟩

theorem Ebu.resetPeaks_inv {E : Env D S} {e : Ebu D S} (h : e.Inv E) :
    ({ e with filter := e.filter.resetPeaks E } : Ebu D S).Inv E :=
  { h with
    filter := (Filter.resetPeaks_inv E h.filter h.rect).1
    rect := (Filter.resetPeaks_inv E h.filter h.rect).2
    fresh := by simp only; rw [Filter.resetP_resetPeaks, h.fresh] }

theorem Ebu.addFrames_cases [Samples Sm] [LawfulSamples Sm] {E : Env D S} (ops : SampleOps D S T)
    {e : Ebu D S} (h : e.Inv E) {src : Sm T} (hw : LawfulSamples.WF src) :
    e.addFrames E ops src = .panic ∨
      ∃ e' r, e.addFrames E ops src = .done (e', r) ∧ e'.Inv E ∧ e.SameCfg e' := by
  unfold Ebu.addFrames
  split
  · exact .inr ⟨_, _, rfl, h, Ebu.SameCfg.refl e⟩
  · rw [if_neg (by have := h.ch1; omega)]
    simp only [Run.bind_eq]
    rcases Ebu.addLoop_cases ops (2 * Samples.frames src + 2) (Ebu.resetPeaks_inv h) hw
      (by rw [LawfulSamples.frames_eq hw]; omega) with hp | ⟨e', r, hd, hi, hs⟩
    · left; rw [hp]; rfl
    · right
      rw [hd]
      simp only [Run.done_bind]
      have hs' : e.SameCfg e' := ⟨hs.mode, hs.rate, hs.channels, hs.map, hs.s100, hs.window, hs.history⟩
      cases r with
      | error x => exact ⟨_, _, rfl, hi, hs'⟩
      | ok u => exact ⟨_, _, rfl, (Ebu.updatePeaks_inv hi).1, hs'.trans (Ebu.updatePeaks_inv hi).2⟩

end Verif
