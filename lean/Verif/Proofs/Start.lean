import Verif.Proofs.Feed
/-! # Starting points of a measurement -/

set_option linter.unusedSimpArgs false

namespace Verif
variable {D S T : Type} {Sm : Type → Type}
open Spec

/-- No frames were fed since `new`, `reset` or an effective `change_parameters`.  Configuration calls in
between do not matter. -/
inductive Started (E : Env D S) : Ebu D S → Prop
  | new {channels rate : Nat} {mode : Mode} {e : Ebu D S}
      (h : Ebu.new E channels rate mode = .done (.ok e)) : Started E e
  | reset {e e' : Ebu D S} {r : Except Error Unit} (h : Reachable E e)
      (hs : step E e .reset = .done (e', r)) : Started E e'
  | change {e e' : Ebu D S} {channels rate : UInt32} (h : Reachable E e)
      (hne : ¬ (e.channels = channels.toNat ∧ e.rate = rate.toNat))
      (hs : step E e (.changeParameters channels rate) = .done (e', .ok ())) : Started E e'
  | config {e e' : Ebu D S} {op : Op D S} {r : Except Error Unit} (h : Started E e) (hop : ¬ Feed op)
      (hs : step E e op = .done (e', r)) : Started E e'

theorem Started.reachable {E : Env D S} {e : Ebu D S} (h : Started E e) : Reachable E e := by
  induction h with
  | new h => exact reachable_new h
  | reset h hs => exact h.step hs
  | change h _ hs => exact h.step hs
  | config _ _ hs ih => exact ih.step hs

/-- Buffer, counters and filter state of an analyzer that received nothing. -/
structure Ebu.Blank (E : Env D S) (e : Ebu D S) : Prop where
  data : e.audioData = List.replicate (e.channels * e.ring) E.f64.zero
  idx : e.audioDataIndex = 0
  needed : e.neededFrames = e.samplesIn100ms * 4
  stc : e.shortTermFrameCounter = 0
  state : e.filter.filterState = List.replicate e.channels (zeroV5 E)
  tp : e.filter.tp = if e.mode.contains Mode.TRUE_PEAK then Scanner.initP E e.rate e.channels else none

theorem Ebu.Inv.coef {E : Env D S} {e : Ebu D S} (h : e.Inv E) :
    e.filter.b = (filterCoefficients E (E.f64.ofInt e.rate)).1 ∧
      e.filter.a = (filterCoefficients E (E.f64.ofInt e.rate)).2 :=
  ⟨congrArg (·.b) h.fresh, congrArg (·.a) h.fresh⟩

theorem Ebu.resetP_blank {E : Env D S} {e : Ebu D S} (h : e.Inv E) : (e.resetP E).Blank E where
  data := by simp only [Ebu.resetP, map_const_eq, h.data]; rfl
  idx := rfl
  needed := rfl
  stc := rfl
  state := congrArg (·.filterState) h.fresh
  tp := congrArg (·.tp) h.fresh

theorem Ebu.changeP_blank {E : Env D S} (e : Ebu D S) (channels rate : Nat) :
    (e.changeP E channels rate).Blank E where
  data := by simp only [Ebu.changeP, Ebu.ring, Nat.mul_comm]
  idx := rfl
  needed := rfl
  stc := rfl
  state := rfl
  tp := rfl

theorem Started.blank {E : Env D S} {e : Ebu D S} (h : Started E e) : e.Blank E := by
  induction h with
  | new h =>
    obtain ⟨rfl, -⟩ := Ebu.new_ok h
    exact ⟨by simp only [Ebu.init, Ebu.ring, Nat.mul_comm], rfl, rfl, rfl, rfl, rfl⟩
  | reset h hs =>
    have hi := h.inv
    simp only [step, Run.bind_eq, (Ebu.reset_eq hi).1, Run.done_bind] at hs
    cases hs
    exact Ebu.resetP_blank hi
  | @change e e' c r h hne hs =>
    have hi := h.inv
    simp only [step] at hs
    rw [Ebu.changeParameters_eq hi] at hs
    split at hs
    · cases hs
    · rw [if_neg (fun hh => hne ⟨hh.2, hh.1⟩)] at hs
      obtain ⟨a, ha, hs⟩ := Run.bind_done hs
      cases a with
      | error x => cases hs
      | ok l => cases hs; exact Ebu.changeP_blank e _ _
  | @config e e' op r h hop hs ih =>
    have hi := h.reachable.inv
    cases op with
    | addFrames x => exact absurd trivial hop
    | seedFrames x => exact absurd trivial hop
    | setChannel n v =>
      simp only [step, Ebu.setChannel] at hs
      split at hs
      · cases hs; exact ih
      · split at hs
        · cases hs; exact ih
        · split at hs
          · cases hs; exact ⟨ih.data, ih.idx, ih.needed, ih.stc, ih.state, ih.tp⟩
          · cases hs
    | setChannelMap m =>
      simp only [step, Ebu.setChannelMap] at hs
      split at hs
      · cases hs; exact ih
      · split at hs
        · cases hs; exact ih
        · split at hs
          · cases hs; exact ⟨ih.data, ih.idx, ih.needed, ih.stc, ih.state, ih.tp⟩
          · cases hs
    | changeParameters c w =>
      simp only [step] at hs
      rw [Ebu.changeParameters_eq hi] at hs
      split at hs
      · cases hs; exact ih
      · split at hs
        · cases hs; exact ih
        · obtain ⟨a, ha, hs⟩ := Run.bind_done hs
          cases a with
          | error x => cases hs; exact ih
          | ok l => cases hs; exact Ebu.changeP_blank e _ _
    | setMaxWindow w =>
      simp only [step, Ebu.setMaxWindow] at hs
      split at hs
      · cases hs; exact ih
      · simp only [Run.bind_eq] at hs
        obtain ⟨a, ha, hs⟩ := Run.bind_done hs
        cases a with
        | error x => cases hs; exact ih
        | ok l =>
          cases hs
          have hl := allocate_ok ha
          exact ⟨by simp only [hl, Ebu.ring, Nat.mul_comm], rfl, rfl, rfl, ih.state, ih.tp⟩
    | setMaxHistory x =>
      simp only [step, Ebu.setMaxHistory] at hs
      split at hs
      · cases hs; exact ih
      · cases hs; exact ⟨ih.data, ih.idx, ih.needed, ih.stc, ih.state, ih.tp⟩
    | reset =>
      simp only [step, Run.bind_eq, (Ebu.reset_eq hi).1, Run.done_bind] at hs
      cases hs
      exact Ebu.resetP_blank hi

theorem Ebu.Blank.rows {E : Env D S} {e : Ebu D S} (h : e.Blank E) (hi : e.Inv E) :
    e.rows = List.replicate e.channels (List.replicate e.ring E.f64.zero) := by
  have h1 := hi.rows_spec
  rw [List.eq_replicate_iff]
  refine ⟨h1.1, fun r hr => ?_⟩
  rw [List.eq_replicate_iff]
  refine ⟨h1.2.1 r hr, fun x hx => ?_⟩
  have : x ∈ e.rows.flatten := List.mem_flatten.2 ⟨r, hr, hx⟩
  rw [h1.2.2, h.data] at this
  exact List.eq_of_mem_replicate this

theorem Ebu.Blank.tracks {E : Env D S} {e : Ebu D S} (h : e.Blank E) (hi : e.Inv E) :
    Tracks E e [] e := by
  have hs0 : 0 < e.samplesIn100ms := by rw [hi.s100]; exact s100_pos hi.rate16
  have h0 := hi.ring_pos
  have hlt : ∀ (c : Nat) (ch : Channel), e.channelMap[c]? = some ch → c < e.channels := by
    intro c ch hc
    have := (List.getElem?_eq_some_iff.1 hc).1
    rw [hi.map] at this; exact this
  have hc0 : count ([] : List (Event D)) = 0 := rfl
  refine ⟨Ebu.SameCfg.refl e, rfl, rfl, ⟨?_, ?_, ?_⟩, fun c => outs_length .., ?_, ?_, ?_, ?_⟩
  · rw [h.idx]; simp [hc0]
  · rw [h.needed, hc0, needAt, if_pos (by omega)]; omega
  · rw [h.stc, hc0, stcAt]; simp; omega
  · intro c ch hc _
    rw [h.state, List.getElem?_replicate, if_pos (hlt c ch hc)]
    rfl
  · intro c ch hc _
    rw [h.rows hi, List.getElem?_replicate, if_pos (hlt c ch hc), hc0, Nat.zero_mod, ringOf_zero]
    simp [outsOf, outs, lastN, chan, filtered]
  · have : blocksOf E e 0 (outsOf E e.filter []) = [] := by
      unfold blocksOf
      have : blockEnds e.samplesIn100ms 0 = [] := by simp [blockEnds]
      rw [this]; rfl
    rw [hc0, this]; simp
  · have : shortsOf E e 0 (outsOf E e.filter []) = [] := by
      unfold shortsOf
      have : shortEnds e.samplesIn100ms 0 = [] := by simp [shortEnds]
      rw [this]; rfl
    rw [hc0, this]; simp

/-- The state of the loudness measurement after any history of feeding calls. -/
theorem Started.tracks {E : Env D S} (hz : E.noFtz = false) {e0 e : Ebu D S} (h : Started E e0)
    (hg : Adequate e0.mode e0.rate e0.window) {ops : List (Op D S)} (hops : ∀ op ∈ ops, Feed op)
    (hrun : runOps E e0 ops = .done e) :
    Tracks E e0 (heard E e0.channels ops) e ∧ e.Inv E ∧ e.Good := by
  have hi := h.reachable.inv
  have := Tracks.run hz (h.blank.tracks hi) hi (hi.good_iff.2 hg) hops hrun
  simpa using this

theorem Traced.energy {E : Env D S} {e0 e : Ebu D S} {n : Nat} {V Y : Nat → List D} (h : Traced E e0 n V Y e)
    (hi : e.Inv E) {N : Nat} (hN : N ≤ e0.ring) :
    e.energyP E N = Spec.energy E e0.ring N (n) e0.channelMap (Y) := by
  have hring : e.ring = e0.ring := h.same.ring
  unfold Ebu.energyP Spec.energy
  rw [h.same.map]
  refine energyP_spec ?_ ?_
  · rw [hi.rows_spec.1, ← hi.map, h.same.map]
  · intro c ch row hc hu hr
    rw [h.row c ch hc hu] at hr
    cases hr
    have h0 := hi.ring_pos
    have hidx : e.audioDataIndex = n % e0.ring := by rw [← hring]; exact h.pos.idx
    have hml : n % e0.ring < e0.ring := by rw [← hring]; exact Nat.mod_lt _ h0
    rw [hidx, ringOf_window (L := e0.ring) (n := n) (lastN_length ..) hN (by omega) (.inl rfl),
      ← lastN_le _ hN]
    have : (Y c).take (n) = Y c := by
      apply List.take_of_length_le
      rw [h.len]
      exact Nat.le_refl _
    rw [this]
    rfl

end Verif
