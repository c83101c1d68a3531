import Verif.Proofs.Step
/-!
# The filter after a feeding call

Whatever the configuration, a call of `add_frames` runs the filter over consecutive pieces of the
input: over all of it if the call succeeds, over a prefix if it reports an error.
-/

namespace Verif
variable {D S T : Type} {Sm : Type → Type}

theorem Ebu.recordGating_keeps {E : Env D S} {e e' : Ebu D S} (h : e.recordGating E = .done e') :
    e'.filter = e.filter ∧ e'.samplePeak = e.samplePeak ∧ e'.truePeak = e.truePeak := by
  unfold Ebu.recordGating at h
  split at h
  · simp only [Run.bind_eq] at h
    obtain ⟨a, _, h⟩ := Run.bind_done h
    obtain ⟨b, _, h⟩ := Run.bind_done h
    cases h; exact ⟨rfl, rfl, rfl⟩
  · cases h; exact ⟨rfl, rfl, rfl⟩

theorem Ebu.recordShortTerm_keeps {E : Env D S} {e e' : Ebu D S} {k : Nat} {r : Except Error Unit}
    (h : e.recordShortTerm E k = .done (e', r)) :
    e'.filter = e.filter ∧ e'.samplePeak = e.samplePeak ∧ e'.truePeak = e.truePeak := by
  unfold Ebu.recordShortTerm at h
  split at h
  · dsimp only at h
    split at h
    · simp only [Run.bind_eq] at h
      obtain ⟨a, _, h⟩ := Run.bind_done h
      cases a with
      | error x => cases h; exact ⟨rfl, rfl, rfl⟩
      | ok v =>
        obtain ⟨b, _, h⟩ := Run.bind_done h
        cases h; exact ⟨rfl, rfl, rfl⟩
    · cases h; exact ⟨rfl, rfl, rfl⟩
  · cases h; exact ⟨rfl, rfl, rfl⟩

theorem Ebu.blockStep_keeps [Samples Sm] [LawfulSamples Sm] {E : Env D S} (ops : SampleOps D S T)
    {e e' : Ebu D S} (h : e.Inv E) {src : Sm T} (hw : LawfulSamples.WF src)
    (hn : Samples.channels src = e.channels)
    {r : Except Error Unit} (hs : e.blockStep E ops src = .done (e', r)) :
    e'.filter = e.filter.processP E ops (LawfulSamples.toFrames src) e.channelMap ∧
      e'.samplePeak = e.samplePeak ∧ e'.truePeak = e.truePeak := by
  by_cases hi : e.audioDataIndex + (LawfulSamples.toFrames src).length ≤ e.ring
  · simp only [Ebu.blockStep, Run.bind_eq, Ebu.processChunk_eq ops h hw hn hi, Run.done_bind] at hs
    obtain ⟨e1, h1, hs⟩ := Run.bind_done hs
    obtain ⟨⟨e2, r2⟩, h2, hs⟩ := Run.bind_done hs
    have k1 := Ebu.recordGating_keeps h1
    have k2 := Ebu.recordShortTerm_keeps h2
    have key : e2.filter = e.filter.processP E ops (LawfulSamples.toFrames src) e.channelMap ∧
        e2.samplePeak = e.samplePeak ∧ e2.truePeak = e.truePeak :=
      ⟨k2.1.trans k1.1, k2.2.1.trans k1.2.1, k2.2.2.trans k1.2.2⟩
    cases r2 with
    | error x => cases hs; exact key
    | ok u => cases hs; exact key
  · rw [show e.blockStep E ops src = .panic by
      simp only [Ebu.blockStep, Run.bind_eq, Ebu.processChunk_panic ops h hw (fun _ => by omega),
        Run.panic_bind]] at hs
    cases hs

/-- Running the filter over consecutive pieces. -/
def Filter.pieces (E : Env D S) (ops : SampleOps D S T) (cm : List Channel) (f : Filter D S)
    (ps : List (List (List T))) : Filter D S :=
  ps.foldl (fun f p => f.processP E ops p cm) f

theorem Ebu.addLoop_pieces [Samples Sm] [LawfulSamples Sm] {E : Env D S} (ops : SampleOps D S T)
    (fuel : Nat) {e e' : Ebu D S} (h : e.Inv E) {src : Sm T} (hw : LawfulSamples.WF src)
    (hn : Samples.channels src = e.channels) {r : Except Error Unit}
    (hs : e.addLoop E ops fuel src = .done (e', r)) :
    ∃ ps rest, LawfulSamples.toFrames src = ps.flatten ++ rest ∧ (r = .ok () → rest = []) ∧
      e'.filter = e.filter.pieces E ops e.channelMap ps ∧
      e'.samplePeak = e.samplePeak ∧ e'.truePeak = e.truePeak := by
  induction fuel generalizing e src with
  | zero => simp [Ebu.addLoop] at hs
  | succ fuel ih =>
    simp only [Ebu.addLoop, LawfulSamples.frames_eq hw] at hs
    by_cases h0 : (LawfulSamples.toFrames src).length = 0
    · rw [if_pos h0] at hs
      cases hs
      exact ⟨[], [], by simpa using h0, fun _ => rfl, rfl, rfl, rfl⟩
    · rw [if_neg h0] at hs
      by_cases hle : e.neededFrames ≤ (LawfulSamples.toFrames src).length
      · rw [if_pos hle] at hs
        obtain ⟨a, b, hsp, ha, hb, hca, hcb, hfa, hfb⟩ := LawfulSamples.split_eq hw _ hle
        simp only [Run.bind_eq, hsp, Run.done_bind] at hs
        obtain ⟨⟨e1, r1⟩, h1, hs⟩ := Run.bind_done hs
        have hla : (LawfulSamples.toFrames a).length = e.neededFrames := by
          rw [hfa, List.length_take]; omega
        have k := Ebu.blockStep_keeps ops h ha (hca.trans hn) h1
        have hfs : LawfulSamples.toFrames src = LawfulSamples.toFrames a ++ LawfulSamples.toFrames b := by
          rw [hfa, hfb, List.take_append_drop]
        rcases Ebu.blockStep_cases ops h ha hla with hp | ⟨_, e2, r2, hd, hi, hsame⟩
        · rw [hp] at h1; cases h1
        · rw [hd] at h1
          cases h1
          cases r1 with
          | error x =>
            cases hs
            exact ⟨[LawfulSamples.toFrames a], LawfulSamples.toFrames b, by simpa using hfs, (fun hx => by cases hx), k.1, k.2⟩
          | ok u =>
            obtain ⟨ps, rest, g1, g2, g3, g4, g5⟩ := ih hi hb (by rw [hcb, hn, hsame.channels]) hs
            refine ⟨LawfulSamples.toFrames a :: ps, rest, ?_, g2, ?_, g4.trans k.2.1, g5.trans k.2.2⟩
            · rw [hfs, g1]; simp
            · rw [g3, k.1, hsame.map]; rfl
      · rw [if_neg hle] at hs
        obtain ⟨a, b, hsp, ha, hb, hca, hcb, hfa, hfb⟩ :=
          LawfulSamples.split_eq hw _ (Nat.le_refl (LawfulSamples.toFrames src).length)
        rw [List.take_length] at hfa
        rw [List.drop_length] at hfb
        simp only [Run.bind_eq, hsp, Run.done_bind] at hs
        rw [← hfa] at hs
        by_cases hi : e.audioDataIndex + (LawfulSamples.toFrames a).length ≤ e.ring
        · rw [Ebu.tailStep_eq ops h ha (hca.trans hn) hi] at hs
          simp only [Run.done_bind] at hs
          have hrect : RectF e.channels (LawfulSamples.toFrames a) := by
            rw [← hn, ← hca]; exact LawfulSamples.rect ha
          have hadv := Ebu.advanceP_inv ops h hrect hi
            (k := e.neededFrames - (LawfulSamples.toFrames a).length) (by rw [hfa]; omega)
          obtain ⟨ps, rest, g1, g2, g3, g4, g5⟩ := ih hadv.1 hb (by rw [hcb, hn]; rfl) hs
          refine ⟨LawfulSamples.toFrames a :: ps, rest, ?_, g2, g3, g4, g5⟩
          rw [← hfa, List.flatten_cons, List.append_assoc, ← g1, hfb, List.append_nil]
        · rw [show e.tailStep E ops a (LawfulSamples.toFrames a).length = .panic by
            simp only [Ebu.tailStep, Run.bind_eq, Ebu.processChunk_panic ops h ha (fun _ => by omega),
              Run.panic_bind]] at hs
          cases hs

/-- What a feeding call with at least one frame does to filter and peaks: `e` before, `e'` after, `r` the
result, `fs` the frames. -/
def Ebu.FedBy (E : Env D S) (ops : SampleOps D S T) (e e' : Ebu D S) (r : Except Error Unit)
    (fs : List (List T)) : Prop :=
  ∃ ps rest, fs = ps.flatten ++ rest ∧ (r = .ok () → rest = []) ∧
    e'.filter = (e.filter.resetPeaks E).pieces E ops e.channelMap ps ∧
    match r with
    | .ok _ => e'.samplePeak = Ebu.updatePeaks.updatePeak E e.samplePeak e'.filter.samplePeak ∧
        e'.truePeak = Ebu.updatePeaks.updatePeak E e.truePeak e'.filter.truePeak
    | .error _ => e'.samplePeak = e.samplePeak ∧ e'.truePeak = e.truePeak

theorem Ebu.addFrames_pieces [Samples Sm] [LawfulSamples Sm] {E : Env D S} (ops : SampleOps D S T)
    {e e' : Ebu D S} (h : e.Inv E) {src : Sm T} (hw : LawfulSamples.WF src)
    (hn : Samples.channels src = e.channels) (h0 : LawfulSamples.toFrames src ≠ []) {r : Except Error Unit}
    (hs : e.addFrames E ops src = .done (e', r)) :
    Ebu.FedBy E ops e e' r (LawfulSamples.toFrames src) := by
  unfold Ebu.addFrames at hs
  rw [LawfulSamples.frames_eq hw, if_neg (by simpa using h0),
    if_neg (by have := h.ch1; omega)] at hs
  simp only [Run.bind_eq] at hs
  obtain ⟨⟨e1, r1⟩, h1, hs⟩ := Run.bind_done hs
  obtain ⟨ps, rest, g1, g2, g3, g4, g5⟩ := Ebu.addLoop_pieces ops _ (Ebu.resetPeaks_inv h) hw (by exact hn) h1
  cases r1 with
  | error x =>
    cases hs
    exact ⟨ps, rest, g1, g2, g3, g4, g5⟩
  | ok u =>
    cases hs
    refine ⟨ps, rest, g1, fun _ => g2 rfl, g3, ?_, ?_⟩
    · simp only [Ebu.updatePeaks]; rw [g4]
    · simp only [Ebu.updatePeaks]; rw [g5]

/-- The same for the public entry points. -/
theorem Ebu.addInput_pieces {E : Env D S} {e e' : Ebu D S} (h : e.Inv E) {x : Input D S}
    (hx : x.Ok e.channels) (hw : x.width e.channels = e.channels) {r : Except Error Unit}
    (h0 : (x.decode E e.channels).frames ≠ []) (hs : e.addInput E x = .done (e', r)) :
    Ebu.FedBy E (x.decode E e.channels).ops e e' r (x.decode E e.channels).frames := by
  have inter : ∀ {T : Type} (ops : SampleOps D S T) (l : List T), interOk e.channels l →
      interFrames e.channels l ≠ [] → e.addInterleaved E ops l = .done (e', r) →
      Ebu.FedBy E ops e e' r (interFrames e.channels l) := by
    intro T ops l hl h0 hs
    simp only [Ebu.addInterleaved, (interleaved_new_eq _ _).1 hl] at hs
    exact Ebu.addFrames_pieces ops h (interOk_wf hl) rfl h0 hs
  have plan : ∀ {T : Type} (ops : SampleOps D S T) (l : List (List T)), planarOk l →
      l.length = e.channels → planarFrames l ≠ [] → e.addPlanar E ops l = .done (e', r) →
      Ebu.FedBy E ops e e' r (planarFrames l) := by
    intro T ops l hl hc h0 hs
    simp only [Ebu.addPlanar, (planar_new_eq _).1 hl] at hs
    have := Ebu.addFrames_pieces ops h (planarOk_wf hl) hc (by rw [planar_toFrames]; exact h0) hs
    rw [planar_toFrames] at this
    exact this
  cases x
  · exact inter _ _ hx h0 hs
  · exact inter _ _ hx h0 hs
  · exact inter _ _ hx h0 hs
  · exact inter _ _ hx h0 hs
  · exact plan _ _ hx hw h0 hs
  · exact plan _ _ hx hw h0 hs
  · exact plan _ _ hx hw h0 hs
  · exact plan _ _ hx hw h0 hs

end Verif
