import Verif.Proofs.Good
/-! # Adding frames one at a time

With hardware flush-to-zero (`noFtz = false`) the state without the peaks is a fold over the frames. -/

set_option linter.unusedSimpArgs false

namespace Verif
variable {D S T : Type} {Sm : Type → Type}

/-- Everything but the peaks. -/
def Ebu.strip (e : Ebu D S) : Ebu D S :=
  { e with filter := e.filter.strip, samplePeak := [], truePeak := [] }

/-- The shapes the loudness path relies on. -/
structure Ebu.Shape (e : Ebu D S) : Prop where
  data : e.audioData.length = e.channels * e.ring
  ring : 0 < e.ring
  map : e.channelMap.length = e.channels
  state : e.filter.filterState.length = e.channels

theorem Ebu.Inv.shape {E : Env D S} {e : Ebu D S} (h : e.Inv E) : e.strip.Shape :=
  ⟨h.data, h.ring_pos, h.map, h.filter.state⟩

theorem Ebu.Shape.rows_spec {e : Ebu D S} (h : e.Shape) :
    e.rows.length = e.channels ∧ (∀ r ∈ e.rows, r.length = e.ring) ∧ e.rows.flatten = e.audioData := by
  have hp := h.ring
  have := chunksExact_rect (n := e.ring) (by omega) e.audioData (by rw [h.data]; simp)
  refine ⟨?_, this.1, this.2.1⟩
  rw [Ebu.rows, this.2.2, h.data, Nat.mul_div_cancel _ hp]

/-- `advanceP` without the peaks. -/
def Ebu.advanceC (E : Env D S) (ops : SampleOps D S T) (e : Ebu D S) (fs : List (List T)) : Ebu D S :=
  { e with
    filter := e.filter.coreP E ops fs e.channelMap
    audioData := (rowsP E ops e.filter fs e.rows e.audioDataIndex e.channelMap).flatten
    audioDataIndex := e.audioDataIndex + fs.length
    neededFrames := e.neededFrames - fs.length
    shortTermFrameCounter :=
      if e.mode.contains Mode.LRA then e.shortTermFrameCounter + fs.length
      else e.shortTermFrameCounter }

theorem Ebu.strip_advanceP {E : Env D S} (ops : SampleOps D S T) {e : Ebu D S} (h : e.Inv E)
    (fs : List (List T)) : (e.advanceP E ops fs).strip = e.strip.advanceC E ops fs := by
  have := Filter.strip_processP E ops h.filter fs e.channelMap
  simp only [Ebu.strip, Ebu.advanceP, Ebu.advanceC, this]
  rfl

theorem Ebu.strip_completeP (E : Env D S) (e : Ebu D S) :
    (e.completeP E).strip = e.strip.completeP E := by
  simp only [Ebu.completeP, Ebu.shortP]
  by_cases hc : (e.gateP E).mode.contains Mode.LRA = true ∧
      (e.gateP E).shortTermFrameCounter = (e.gateP E).samplesIn100ms * 30
  · rw [if_pos hc, if_pos (by exact hc)]; rfl
  · rw [if_neg hc, if_neg (by exact hc)]; rfl

theorem Ebu.rows_advanceC {E : Env D S} (ops : SampleOps D S T) {e : Ebu D S} (h : e.Shape)
    {fs : List (List T)} (hf : RectF e.channels fs) (hi : e.audioDataIndex + fs.length ≤ e.ring) :
    (e.advanceC E ops fs).rows = rowsP E ops e.filter fs e.rows e.audioDataIndex e.channelMap := by
  have hp := h.ring
  have h2 := rowsP_rows E ops (f := e.filter) hf h.map h.rows_spec.2.1 hi
  show chunksExact e.ring (rowsP E ops e.filter fs e.rows e.audioDataIndex e.channelMap).flatten = _
  rw [chunksExact_flatten (by omega) h2]

theorem Ebu.advanceC_shape {E : Env D S} (ops : SampleOps D S T) {e : Ebu D S} (h : e.Shape)
    {fs : List (List T)} (hf : RectF e.channels fs) (hi : e.audioDataIndex + fs.length ≤ e.ring) :
    (e.advanceC E ops fs).Shape where
  data := by
    show (rowsP E ops e.filter fs e.rows e.audioDataIndex e.channelMap).flatten.length = e.channels * e.ring
    rw [length_flatten_of (rowsP_rows E ops hf h.map h.rows_spec.2.1 hi),
        rowsP_length E ops h.state fs h.map h.rows_spec.1]
  ring := h.ring
  map := h.map
  state := statesP_length E ops h.state fs h.map

theorem Ebu.advanceC_append {E : Env D S} (hz : E.noFtz = false) (ops : SampleOps D S T) {e : Ebu D S}
    (h : e.Shape) {fs : List (List T)} (hf : RectF e.channels fs) (gs : List (List T))
    (hi : e.audioDataIndex + fs.length ≤ e.ring) :
    e.advanceC E ops (fs ++ gs) = (e.advanceC E ops fs).advanceC E ops gs := by
  have h1 := Filter.coreP_append hz ops e.filter fs gs e.channelMap
  have h2 := rowsP_append hz ops e.filter hf gs h.map h.rows_spec.2.1 hi
  have h3 := Ebu.rows_advanceC (E := E) ops h hf hi
  have h4 : (e.advanceC E ops fs).advanceC E ops gs =
      { e.advanceC E ops fs with
        filter := (e.advanceC E ops fs).filter.coreP E ops gs e.channelMap
        audioData := (rowsP E ops (e.advanceC E ops fs).filter gs (e.advanceC E ops fs).rows
          (e.audioDataIndex + fs.length) e.channelMap).flatten
        audioDataIndex := e.audioDataIndex + fs.length + gs.length
        neededFrames := e.neededFrames - fs.length - gs.length
        shortTermFrameCounter :=
          if e.mode.contains Mode.LRA then (e.advanceC E ops fs).shortTermFrameCounter + gs.length
          else (e.advanceC E ops fs).shortTermFrameCounter } := rfl
  rw [h4, h3]
  simp only [Ebu.advanceC, h1, h2, List.length_append]
  congr 1
  · omega
  · omega
  · split <;> omega

/-- One frame. -/
def Ebu.tickC (E : Env D S) (ops : SampleOps D S T) (e : Ebu D S) (f : List T) : Ebu D S :=
  let e := e.advanceC E ops [f]
  if e.neededFrames = 0 then e.completeP E else e

theorem Ebu.foldl_tickC_lt {E : Env D S} (hz : E.noFtz = false) (ops : SampleOps D S T)
    (fs : List (List T)) {e : Ebu D S} (h : e.Shape) (hf : RectF e.channels fs) (hfs : fs ≠ [])
    (hi : e.audioDataIndex + fs.length ≤ e.ring) (hn : fs.length < e.neededFrames) :
    fs.foldl (Ebu.tickC E ops) e = e.advanceC E ops fs := by
  induction fs generalizing e with
  | nil => exact absurd rfl hfs
  | cons f fs ih =>
    have hf1 : RectF e.channels [f] := fun g hg => hf g (by simp at hg; simp [hg])
    have hf2 : RectF e.channels fs := fun g hg => hf g (by simp [hg])
    simp only [List.length_cons] at hi hn
    have ht : Ebu.tickC E ops e f = e.advanceC E ops [f] := by
      unfold Ebu.tickC
      have : ¬ (e.advanceC E ops [f]).neededFrames = 0 := by
        show ¬ e.neededFrames - 1 = 0
        omega
      simp only [this, if_false]
    rw [List.foldl_cons, ht]
    cases fs with
    | nil => rfl
    | cons g gs =>
      rw [ih (Ebu.advanceC_shape ops h hf1 (by simp; omega)) hf2 (by simp)
        (by show e.audioDataIndex + 1 + _ ≤ e.ring; omega)
        (by show _ < e.neededFrames - 1; omega),
        ← Ebu.advanceC_append hz ops h hf1 _ (by simp; omega)]
      rfl

theorem Ebu.foldl_tickC_eq {E : Env D S} (hz : E.noFtz = false) (ops : SampleOps D S T)
    {fs : List (List T)} {e : Ebu D S} (h : e.Shape) (hf : RectF e.channels fs) (hfs : fs ≠ [])
    (hi : e.audioDataIndex + fs.length ≤ e.ring) (hn : fs.length = e.neededFrames) :
    fs.foldl (Ebu.tickC E ops) e = (e.advanceC E ops fs).completeP E := by
  obtain ⟨gs, f, rfl⟩ : ∃ gs f, fs = gs ++ [f] :=
    ⟨fs.dropLast, fs.getLast hfs, (List.dropLast_concat_getLast hfs).symm⟩
  simp only [List.length_append, List.length_singleton] at hi hn
  have hg : RectF e.channels gs := fun g hg => hf g (by simp [hg])
  have key : gs.foldl (Ebu.tickC E ops) e = if gs = [] then e else e.advanceC E ops gs := by
    by_cases hg0 : gs = []
    · rw [if_pos hg0, hg0]; rfl
    · rw [if_neg hg0, Ebu.foldl_tickC_lt hz ops gs h hg hg0 (by omega) (by omega)]
  rw [List.foldl_append, key, List.foldl_cons, List.foldl_nil]
  by_cases hg0 : gs = []
  · subst hg0
    rw [if_pos rfl, List.nil_append]
    unfold Ebu.tickC
    have : (e.advanceC E ops [f]).neededFrames = 0 := by
      show e.neededFrames - 1 = 0
      simp at hn
      omega
    simp only [this, if_true]
  · rw [if_neg hg0, Ebu.advanceC_append hz ops h hg _ (by omega)]
    unfold Ebu.tickC
    have : ((e.advanceC E ops gs).advanceC E ops [f]).neededFrames = 0 := by
      show e.neededFrames - gs.length - 1 = 0
      omega
    simp only [this, if_true]

/-- The loop, frame by frame. -/
theorem Ebu.strip_addLoopP {E : Env D S} (hz : E.noFtz = false) (ops : SampleOps D S T) (fuel : Nat)
    {e : Ebu D S} (h : e.Inv E) (hg : e.Good) {n : Nat} (hp : e.PosAt n) {fs : List (List T)}
    (hf : RectF e.channels fs) (hfuel : fs.length < fuel) :
    (e.addLoopP E ops fuel fs).strip = fs.foldl (Ebu.tickC E ops) e.strip := by
  induction fuel generalizing e fs n with
  | zero => omega
  | succ fuel ih =>
    have hroom := h.idx_room hg hp
    have hneed := h.needed
    simp only [Ebu.addLoopP]
    by_cases h0 : fs.length = 0
    · rw [if_pos h0, List.eq_nil_of_length_eq_zero h0]; rfl
    · rw [if_neg h0]
      by_cases hle : e.neededFrames ≤ fs.length
      · rw [if_pos hle]
        have hla : (fs.take e.neededFrames).length = e.neededFrames := by
          rw [List.length_take]; omega
        have hft := hf.take e.neededFrames
        have hadv := Ebu.advanceP_inv ops h hft (by omega) (k := 1) (Nat.le_refl 1)
        have hinv := Ebu.completeP_inv hadv.1
        have hsame := hadv.2.trans (Ebu.completeP_sameCfg E (e.advanceP E ops (fs.take e.neededFrames)))
        have hpos := Ebu.completeP_pos ops h hg hp hft hla
        rw [ih hinv (hg.of_same hsame) hpos (by rw [hsame.channels]; exact hf.drop _)
          (by rw [List.length_drop]; omega), Ebu.strip_completeP, Ebu.strip_advanceP ops h]
        have hne : fs.take e.neededFrames ≠ [] := fun hn => by rw [hn] at hla; simp at hla; omega
        rw [← Ebu.foldl_tickC_eq hz ops (e := e.strip) h.shape hft hne
          (by rw [hla]; exact hroom) hla, ← List.foldl_append, List.take_append_drop]
      · rw [if_neg hle, Ebu.strip_advanceP ops h]
        exact (Ebu.foldl_tickC_lt hz ops (e := e.strip) fs h.shape hf
          (fun hn => h0 (by rw [hn]; rfl)) (by show e.audioDataIndex + fs.length ≤ e.ring; omega)
          (by show fs.length < e.neededFrames; omega)).symm

/-- `add_frames`, frame by frame. -/
theorem Ebu.strip_addP {E : Env D S} (hz : E.noFtz = false) (ops : SampleOps D S T)
    {e : Ebu D S} (h : e.Inv E) (hg : e.Good) {n : Nat} (hp : e.PosAt n) {fs : List (List T)}
    (hf : RectF e.channels fs) :
    (e.addP E ops fs).strip = fs.foldl (Ebu.tickC E ops) e.strip := by
  unfold Ebu.addP
  by_cases h0 : fs.length = 0
  · rw [if_pos h0, List.eq_nil_of_length_eq_zero h0]; rfl
  · rw [if_neg h0]
    have hp' : ({ e with filter := e.filter.resetPeaks E } : Ebu D S).PosAt n := ⟨hp.idx, hp.needed, hp.stc⟩
    have hg' : ({ e with filter := e.filter.resetPeaks E } : Ebu D S).Good := ⟨hg.gate, hg.short⟩
    have := Ebu.strip_addLoopP hz ops (2 * fs.length + 2) (Ebu.resetPeaks_inv h) hg' hp' hf (by omega)
    exact this

end Verif
