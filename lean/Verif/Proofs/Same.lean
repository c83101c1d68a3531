import Verif.Proofs.Safe
import Verif.Proofs.Query
import Verif.Proofs.Tick
/-!
# States that differ in the peaks of the last call only

No call and no query except `prev_sample_peak` and `prev_true_peak` can tell them apart.
-/

set_option linter.unusedSimpArgs false

namespace Verif
variable {D S T : Type} {Sm : Type → Type}

/-- `e'` is `e` but for the peaks of the last `add_frames` call. -/
def Spec.SameButPrev (e e' : Ebu D S) : Prop :=
  ∃ s t, e' = { e with filter := { e.filter with samplePeak := s, truePeak := t } }

/-- Queries other than those for the last call's peaks. -/
def Spec.NotPrev : Query → Prop
  | .prevSamplePeak _ | .prevTruePeak _ => False
  | _ => True

open Spec

theorem Spec.SameButPrev.refl (e : Ebu D S) : SameButPrev e e := ⟨_, _, rfl⟩

theorem Spec.SameButPrev.symm {e e' : Ebu D S} (h : SameButPrev e e') : SameButPrev e' e := by
  obtain ⟨s, t, rfl⟩ := h
  exact ⟨_, _, rfl⟩

theorem Spec.SameButPrev.trans {e e' e'' : Ebu D S} (h : SameButPrev e e') (h' : SameButPrev e' e'') :
    SameButPrev e e'' := by
  obtain ⟨s, t, rfl⟩ := h
  obtain ⟨s', t', rfl⟩ := h'
  exact ⟨s', t', rfl⟩

theorem Spec.SameButPrev.of_strip {e e' : Ebu D S} (h1 : e'.strip = e.strip) (h2 : e'.samplePeak = e.samplePeak)
    (h3 : e'.truePeak = e.truePeak) : SameButPrev e e' := by
  refine ⟨e'.filter.samplePeak, e'.filter.truePeak, ?_⟩
  have h4 : e' = { e'.strip with
    filter := { e'.strip.filter with samplePeak := e'.filter.samplePeak, truePeak := e'.filter.truePeak }
    samplePeak := e'.samplePeak
    truePeak := e'.truePeak } := rfl
  rw [h1, h2, h3] at h4
  exact h4

/-- Every other query gives the same answer. -/
theorem Spec.SameButPrev.ask {E : Env D S} {e e' : Ebu D S} (h : SameButPrev e e') {q : Query} (hq : NotPrev q) :
    Verif.ask E e q = Verif.ask E e' q := by
  obtain ⟨s, t, rfl⟩ := h
  cases q <;> first | rfl | exact absurd hq id

theorem Spec.SameButPrev.blocks {E : Env D S} {e e' : Ebu D S} (h : SameButPrev e e') :
    e.gatingBlockCountAndEnergy E = e'.gatingBlockCountAndEnergy E := by
  obtain ⟨s, t, rfl⟩ := h
  rfl

theorem Spec.SameButPrev.reset {E : Env D S} {e e' : Ebu D S} (hi : e.Inv E) (hi' : e'.Inv E)
    (h : SameButPrev e e') :
    ({ e' with filter := e'.filter.resetPeaks E } : Ebu D S) = { e with filter := e.filter.resetPeaks E } := by
  have h1 := hi.filter.samplePeak
  have h2 := hi.filter.truePeak
  have h3 := hi'.filter.samplePeak
  have h4 := hi'.filter.truePeak
  obtain ⟨s, t, rfl⟩ := h
  simp only [Filter.resetPeaks, map_const_eq] at *
  rw [h1, h2, h3, h4]

theorem Spec.SameButPrev.addFrames [Samples Sm] {E : Env D S} {e e' : Ebu D S} (hi : e.Inv E) (hi' : e'.Inv E)
    (h : SameButPrev e e') (ops : SampleOps D S T) (src : Sm T) :
    e'.addFrames E ops src = e.addFrames E ops src ∨
      (e'.addFrames E ops src = .done (e', .ok ()) ∧ e.addFrames E ops src = .done (e, .ok ())) := by
  unfold Ebu.addFrames
  by_cases h0 : Samples.frames src = 0
  · rw [if_pos h0, if_pos h0]; exact .inr ⟨rfl, rfl⟩
  · left
    have h1 : e.channels ≠ 0 := by have := hi.ch1; omega
    have h2 : e'.channels ≠ 0 := by have := hi'.ch1; omega
    rw [if_neg h0, if_neg h0, if_neg h1, if_neg h2]
    simp only [h.reset hi hi']

theorem Spec.SameButPrev.addInput {E : Env D S} {e e' : Ebu D S} (hi : e.Inv E) (hi' : e'.Inv E)
    (h : SameButPrev e e') (x : Input D S) :
    e'.addInput E x = e.addInput E x ∨
      ∃ r, e'.addInput E x = .done (e', r) ∧ e.addInput E x = .done (e, r) := by
  have hc : e'.channels = e.channels := by obtain ⟨s, t, rfl⟩ := h; rfl
  have inter : ∀ {T : Type} (ops : SampleOps D S T) (l : List T),
      e'.addInterleaved E ops l = e.addInterleaved E ops l ∨
        ∃ r, e'.addInterleaved E ops l = .done (e', r) ∧ e.addInterleaved E ops l = .done (e, r) := by
    intro T ops l
    simp only [Ebu.addInterleaved, hc]
    cases Interleaved.new l e.channels with
    | error x => exact .inr ⟨_, rfl, rfl⟩
    | ok src =>
      rcases h.addFrames hi hi' ops src with h1 | ⟨h1, h2⟩
      · exact .inl h1
      · exact .inr ⟨_, h1, h2⟩
  have plan : ∀ {T : Type} (ops : SampleOps D S T) (l : List (List T)),
      e'.addPlanar E ops l = e.addPlanar E ops l ∨
        ∃ r, e'.addPlanar E ops l = .done (e', r) ∧ e.addPlanar E ops l = .done (e, r) := by
    intro T ops l
    simp only [Ebu.addPlanar]
    cases Planar.new l with
    | error x => exact .inr ⟨_, rfl, rfl⟩
    | ok src =>
      rcases h.addFrames hi hi' ops src with h1 | ⟨h1, h2⟩
      · exact .inl h1
      · exact .inr ⟨_, h1, h2⟩
  cases x <;> first | exact inter _ _ | exact plan _ _

/-- Calls keep the relation and return the same. -/
theorem Spec.SameButPrev.step {E : Env D S} {e e' e1 : Ebu D S} (hi : e.Inv E) (hi' : e'.Inv E)
    (h : SameButPrev e e') {op : Op D S} {r : Except Error Unit} (hs : Verif.step E e op = .done (e1, r)) :
    ∃ e1', Verif.step E e' op = .done (e1', r) ∧ SameButPrev e1 e1' := by
  cases op with
  | setChannel n v =>
    obtain ⟨s, t, rfl⟩ := h
    simp only [Verif.step, Ebu.setChannel] at hs ⊢
    split at hs
    · next h1 => rw [if_pos h1]; cases hs; exact ⟨_, rfl, _, _, rfl⟩
    · next h1 =>
      rw [if_neg h1]
      split at hs
      · next h1 => rw [if_pos h1]; cases hs; exact ⟨_, rfl, _, _, rfl⟩
      · next h1 =>
        rw [if_neg h1]
        split at hs
        · next h1 => rw [if_pos h1]; cases hs; exact ⟨_, rfl, _, _, rfl⟩
        · cases hs
  | setChannelMap m =>
    obtain ⟨s, t, rfl⟩ := h
    simp only [Verif.step, Ebu.setChannelMap] at hs ⊢
    split at hs
    · next h1 => rw [if_pos h1]; cases hs; exact ⟨_, rfl, _, _, rfl⟩
    · next h1 =>
      rw [if_neg h1]
      split at hs
      · next h1 => rw [if_pos h1]; cases hs; exact ⟨_, rfl, _, _, rfl⟩
      · next h1 =>
        rw [if_neg h1]
        split at hs
        · next h1 => rw [if_pos h1]; cases hs; exact ⟨_, rfl, _, _, rfl⟩
        · cases hs
  | changeParameters c w =>
    obtain ⟨s, t, rfl⟩ := h
    simp only [Verif.step] at hs ⊢
    rw [Ebu.changeParameters_eq hi] at hs
    rw [Ebu.changeParameters_eq hi']
    split at hs
    · next h1 => rw [if_pos h1]; cases hs; exact ⟨_, rfl, _, _, rfl⟩
    · next h1 =>
      rw [if_neg h1]
      split at hs
      · next h1 => rw [if_pos h1]; cases hs; exact ⟨_, rfl, _, _, rfl⟩
      · next h1 =>
        rw [if_neg h1]
        obtain ⟨z, hz, hs⟩ := Run.bind_done hs
        simp only [Run.bind_eq]
        rw [hz, Run.done_bind]
        cases z with
        | error x => cases hs; exact ⟨_, rfl, _, _, rfl⟩
        | ok x => cases hs; exact ⟨_, rfl, _, _, rfl⟩
  | setMaxWindow w =>
    obtain ⟨s, t, rfl⟩ := h
    simp only [Verif.step, Ebu.setMaxWindow, Run.bind_eq] at hs ⊢
    split at hs
    · next h1 => rw [if_pos h1]; cases hs; exact ⟨_, rfl, _, _, rfl⟩
    · next h1 =>
      rw [if_neg h1]
      obtain ⟨z, hz, hs⟩ := Run.bind_done hs
      rw [hz, Run.done_bind]
      cases z with
      | error x => cases hs; exact ⟨_, rfl, _, _, rfl⟩
      | ok x => cases hs; exact ⟨_, rfl, _, _, rfl⟩
  | setMaxHistory w =>
    obtain ⟨s, t, rfl⟩ := h
    simp only [Verif.step, Ebu.setMaxHistory] at hs ⊢
    split at hs
    · next h1 => rw [if_pos h1]; cases hs; exact ⟨_, rfl, _, _, rfl⟩
    · next h1 => rw [if_neg h1]; cases hs; exact ⟨_, rfl, _, _, rfl⟩
  | reset =>
    have h1 := hi.filter.samplePeak
    have h2 := hi.filter.truePeak
    have h3 := hi'.filter.samplePeak
    have h4 := hi'.filter.truePeak
    obtain ⟨s, t, rfl⟩ := h
    simp only [Verif.step, Ebu.reset, Run.bind_eq] at hs ⊢
    have hf : Filter.reset E { e.filter with samplePeak := s, truePeak := t } = Filter.reset E e.filter := by
      simp only [Filter.reset, Filter.resetPeaks, map_const_eq] at *
      rw [h1, h2, h3, h4]
    rw [hf]
    obtain ⟨z, hz, hs⟩ := Run.bind_done hs
    obtain ⟨f, hf, hz⟩ := Run.bind_done hz
    cases hz; cases hs
    rw [hf]
    exact ⟨_, rfl, _, _, rfl⟩
  | addFrames x =>
    rcases h.addInput hi hi' x with h1 | ⟨r', h1, h2⟩
    · exact ⟨e1, h1.trans hs, SameButPrev.refl e1⟩
    · have : e.addInput E x = .done (e1, r) := hs
      rw [h2] at this
      cases this
      exact ⟨_, h1, h⟩
  | seedFrames x =>
    have hc : e'.channels = e.channels := by obtain ⟨s, t, rfl⟩ := h; rfl
    have hs' : e.seedInput E x = .done (e1, r) := hs
    show ∃ e1', e'.seedInput E x = .done (e1', r) ∧ _
    by_cases hx : x.Ok e.channels
    · by_cases hw : x.width e.channels = e.channels
      · rw [Ebu.seedInput_eq hi hx hw] at hs'
        rw [Ebu.seedInput_eq hi' (by rwa [hc]) (by rwa [hc])]
        cases hs'
        refine ⟨_, rfl, ?_⟩
        obtain ⟨s, t, rfl⟩ := h
        exact ⟨s, t, rfl⟩
      · rw [Ebu.seedInput_wrong hi hx hw] at hs'; cases hs'
    · rw [(Ebu.addInput_err hx).2] at hs'
      rw [(Ebu.addInput_err (by rwa [hc])).2]
      cases hs'
      exact ⟨_, rfl, h⟩

end Verif
