import Verif.Proofs.Safe
/-! # Only the frames matter, not the layout they come in -/

set_option linter.unusedSimpArgs false

namespace Verif
variable {D S T : Type} {Sm Sm' : Type → Type}

theorem Ebu.processChunk_congr [Samples Sm] [LawfulSamples Sm] [Samples Sm'] [LawfulSamples Sm']
    {E : Env D S} (ops : SampleOps D S T) {e : Ebu D S} (h : e.Inv E) {src : Sm T} {src' : Sm' T}
    (hw : LawfulSamples.WF src) (hw' : LawfulSamples.WF src')
    (hn : Samples.channels src = Samples.channels src')
    (hf : LawfulSamples.toFrames src = LawfulSamples.toFrames src') :
    e.processChunk E ops src = e.processChunk E ops src' := by
  by_cases hi : Samples.channels src = e.channels ∧
      e.audioDataIndex + (LawfulSamples.toFrames src).length ≤ e.ring
  · rw [Ebu.processChunk_eq ops h hw hi.1 hi.2,
      Ebu.processChunk_eq ops h hw' (hn.symm.trans hi.1) (hf ▸ hi.2), hf]
  · rw [Ebu.processChunk_panic ops h hw (fun h1 => ?_), Ebu.processChunk_panic ops h hw' (fun h1 => ?_)]
    · rw [← hn] at h1
      rw [← hf]
      by_cases h2 : e.audioDataIndex + (LawfulSamples.toFrames src).length ≤ e.ring
      · exact absurd ⟨h1, h2⟩ hi
      · omega
    · by_cases h2 : e.audioDataIndex + (LawfulSamples.toFrames src).length ≤ e.ring
      · exact absurd ⟨h1, h2⟩ hi
      · omega

theorem Ebu.addLoop_congr [Samples Sm] [LawfulSamples Sm] [Samples Sm'] [LawfulSamples Sm']
    {E : Env D S} (ops : SampleOps D S T) (fuel : Nat) {e : Ebu D S} (h : e.Inv E) {src : Sm T}
    {src' : Sm' T} (hw : LawfulSamples.WF src) (hw' : LawfulSamples.WF src')
    (hn : Samples.channels src = Samples.channels src')
    (hf : LawfulSamples.toFrames src = LawfulSamples.toFrames src') :
    e.addLoop E ops fuel src = e.addLoop E ops fuel src' := by
  induction fuel generalizing e src src' with
  | zero => rfl
  | succ fuel ih =>
    simp only [Ebu.addLoop, LawfulSamples.frames_eq hw, LawfulSamples.frames_eq hw', hf, Run.bind_eq]
    split
    · rfl
    · split
      · next hle =>
        obtain ⟨a, b, hs, ha, hb, hca, hcb, hfa, hfb⟩ := LawfulSamples.split_eq hw _ (hf ▸ hle)
        obtain ⟨a', b', hs', ha', hb', hca', hcb', hfa', hfb'⟩ := LawfulSamples.split_eq hw' _ hle
        simp only [hs, hs', Run.done_bind]
        have hpc := Ebu.processChunk_congr ops h ha ha' (by rw [hca, hca', hn]) (by rw [hfa, hfa', hf])
        have hbs : e.blockStep E ops a = e.blockStep E ops a' := by
          simp only [Ebu.blockStep, hpc]
        rw [hbs]
        cases hr : e.blockStep E ops a' with
        | panic => rfl
        | hang => rfl
        | done r =>
          obtain ⟨e1, r1⟩ := r
          cases r1 with
          | error x => rfl
          | ok u =>
            have hl' : (LawfulSamples.toFrames a').length = e.neededFrames := by
              rw [hfa', List.length_take]; omega
            rcases Ebu.blockStep_cases ops h ha' hl' with h1 | ⟨-, e2, r2, h1, h2, -⟩
            · rw [hr] at h1; cases h1
            · rw [hr] at h1; cases h1
              exact ih h2 hb hb' (by rw [hcb, hcb', hn]) (by rw [hfb, hfb', hf])
      · obtain ⟨a, b, hs, ha, hb, hca, hcb, hfa, hfb⟩ :=
          LawfulSamples.split_eq hw _ (Nat.le_refl (LawfulSamples.toFrames src).length)
        obtain ⟨a', b', hs', ha', hb', hca', hcb', hfa', hfb'⟩ :=
          LawfulSamples.split_eq hw' _ (Nat.le_refl (LawfulSamples.toFrames src').length)
        rw [hf] at hs
        simp only [hs, hs', Run.done_bind]
        have hpc := Ebu.processChunk_congr ops h ha ha' (by rw [hca, hca', hn]) (by rw [hfa, hfa', hf])
        have hts : ∀ n, e.tailStep E ops a n = e.tailStep E ops a' n := by
          intro n; simp only [Ebu.tailStep, hpc]
        rw [hts]
        refine congrArg (Run.bind _) (funext fun e1 => ?_)
        have hb0 : Samples.frames b = 0 := by
          rw [LawfulSamples.frames_eq hb, hfb, List.drop_length]; rfl
        have hb0' : Samples.frames b' = 0 := by
          rw [LawfulSamples.frames_eq hb', hfb', List.drop_length]; rfl
        cases fuel with
        | zero => rfl
        | succ fuel => simp only [Ebu.addLoop, hb0, hb0', if_true]

theorem Ebu.addFrames_congr [Samples Sm] [LawfulSamples Sm] [Samples Sm'] [LawfulSamples Sm']
    {E : Env D S} (ops : SampleOps D S T) {e : Ebu D S} (h : e.Inv E) {src : Sm T}
    {src' : Sm' T} (hw : LawfulSamples.WF src) (hw' : LawfulSamples.WF src')
    (hn : Samples.channels src = Samples.channels src')
    (hf : LawfulSamples.toFrames src = LawfulSamples.toFrames src') :
    e.addFrames E ops src = e.addFrames E ops src' := by
  have hfr : Samples.frames src = Samples.frames src' := by
    rw [LawfulSamples.frames_eq hw, LawfulSamples.frames_eq hw', hf]
  simp only [Ebu.addFrames, hfr, Ebu.addLoop_congr ops _ (Ebu.resetPeaks_inv h) hw hw' hn hf]

theorem Ebu.seedFrames_congr [Samples Sm] [LawfulSamples Sm] [Samples Sm'] [LawfulSamples Sm']
    {E : Env D S} (ops : SampleOps D S T) {e : Ebu D S} (h : e.Inv E) {src : Sm T}
    {src' : Sm' T} (hw : LawfulSamples.WF src) (hw' : LawfulSamples.WF src')
    (hn : Samples.channels src = Samples.channels src')
    (hf : LawfulSamples.toFrames src = LawfulSamples.toFrames src') :
    e.seedFrames E ops src = e.seedFrames E ops src' := by
  by_cases hc : Samples.channels src = e.channels
  · rw [Ebu.seedFrames_eq ops h hw hc, Ebu.seedFrames_eq ops h hw' (hn.symm.trans hc), hf]
  · rw [Ebu.seedFrames_panic ops h hc, Ebu.seedFrames_panic ops h (hn ▸ hc)]

/-! ## Errors of adding frames -/

theorem Ebu.addLoop_ne_noMem [Samples Sm] {E : Env D S} (ops : SampleOps D S T) (fuel : Nat)
    (e : Ebu D S) (src : Sm T) (e' : Ebu D S) :
    e.addLoop E ops fuel src ≠ .done (e', .error .noMem) := by
  have hrs : ∀ (e e' : Ebu D S) k, e.recordShortTerm E k ≠ .done (e', .error .noMem) := by
    intro e e' k h
    unfold Ebu.recordShortTerm at h
    split at h
    · dsimp only at h
      split at h
      · obtain ⟨r, hr, h⟩ := Run.bind_done h
        cases r with
        | ok v =>
          obtain ⟨x, -, h⟩ := Run.bind_done h
          cases h
        | error x =>
          cases h
          unfold Ebu.energyShortterm Ebu.energyInInterval at hr
          obtain ⟨-, -, hr⟩ := Run.bind_done hr
          split at hr
          · cases hr
          · obtain ⟨y, -, hr⟩ := Run.bind_done hr
            cases hr
      · cases h
    · cases h
  have hbs : ∀ (e e' : Ebu D S) (src : Sm T), e.blockStep E ops src ≠ .done (e', .error .noMem) := by
    intro e e' src h
    unfold Ebu.blockStep at h
    obtain ⟨e1, -, h⟩ := Run.bind_done h
    obtain ⟨e2, -, h⟩ := Run.bind_done h
    obtain ⟨⟨e3, r⟩, hr, h⟩ := Run.bind_done h
    cases r with
    | error x => cases h; exact hrs _ _ _ hr
    | ok u => cases h
  induction fuel generalizing e src with
  | zero => intro h; cases h
  | succ fuel ih =>
    intro h
    simp only [Ebu.addLoop] at h
    split at h
    · cases h
    · split at h
      · obtain ⟨⟨a, b⟩, -, h⟩ := Run.bind_done h
        obtain ⟨⟨e1, r⟩, hr, h⟩ := Run.bind_done h
        cases r with
        | error x => cases h; exact hbs _ _ _ hr
        | ok u => exact ih _ _ h
      · obtain ⟨⟨a, b⟩, -, h⟩ := Run.bind_done h
        obtain ⟨e1, -, h⟩ := Run.bind_done h
        exact ih _ _ h

theorem Ebu.addInput_ne_noMem {E : Env D S} {e e' : Ebu D S} (h : e.Inv E) {x : Input D S}
    (hx : x.Ok e.channels) : step E e (.addFrames x) ≠ .done (e', .error .noMem) := by
  have key : ∀ {T : Type} {Sm : Type → Type} [Samples Sm] (ops : SampleOps D S T) (src : Sm T),
      e.addFrames E ops src ≠ .done (e', .error .noMem) := by
    intro T Sm _ ops src hh
    unfold Ebu.addFrames at hh
    split at hh
    · cases hh
    · split at hh
      · next hc => have := h.ch1; omega
      · obtain ⟨⟨e1, r⟩, hr, hh⟩ := Run.bind_done hh
        cases r with
        | error x => cases hh; exact Ebu.addLoop_ne_noMem _ _ _ _ _ hr
        | ok u => cases hh
  cases x <;>
  first
  | (simp only [step, Ebu.addInput, Ebu.addInterleaved, (interleaved_new_eq _ _).1 hx]; exact key _ _)
  | (simp only [step, Ebu.addInput, Ebu.addPlanar, (planar_new_eq _).1 hx]; exact key _ _)

end Verif
