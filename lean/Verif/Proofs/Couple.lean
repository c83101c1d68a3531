import Mathlib.Data.List.Forall2
import Verif.Proofs.Start
import Verif.Proofs.Query
import Verif.Proofs.Range
/-!
# Two analyzers fed related signals

A simulation between two analyzers, possibly with different channel layouts, on any target: if the channels
are paired so that the pairs of samples stay related through the filter and give the same squares, then both
record the same blocks and answer every loudness query alike.
-/

set_option linter.unusedSimpArgs false

namespace Verif
variable {D S T T' : Type}
open Spec

/-- The queries that are not about peaks. -/
def Spec.LoudnessQuery : Query → Prop
  | .samplePeak _ | .prevSamplePeak _ | .truePeak _ | .prevTruePeak _ => False
  | _ => True

/-- Elementwise. -/
structure Rel5 (R : D → D → Prop) (s s' : V5 D) : Prop where
  v0 : R s.v0 s'.v0
  v1 : R s.v1 s'.v1
  v2 : R s.v2 s'.v2
  v3 : R s.v3 s'.v3
  v4 : R s.v4 s'.v4

/-- What a pairing of channels and a relation between values have to satisfy. -/
structure Coupling (E : Env D S) (cm cm' : List Channel) (P : Nat → Nat → Prop) (R : D → D → Prop) : Prop where
  used : ∀ c c', P c c' → (∃ ch, cm[c]? = some ch ∧ ch ≠ .unused) ∧ ∃ ch, cm'[c']? = some ch ∧ ch ≠ .unused
  filter : ∀ b a st st' xs xs', Rel5 R st st' → List.Forall₂ R xs xs' →
    Rel5 R (runFilter E.f64p b a st xs).1 (runFilter E.f64p b a st' xs').1 ∧
      List.Forall₂ R (runFilter E.f64p b a st xs).2 (runFilter E.f64p b a st' xs').2
  flush : ∀ st st', Rel5 R st st' → Rel5 R (flushState E st) (flushState E st')
  square : ∀ x y, R x y → E.f64.mul x x = E.f64.mul y y
  sum : ∀ w w' : Nat → List D, (∀ c c', P c c' → sumSq E.f64 (w c) = sumSq E.f64 (w' c')) →
    channelSum E.f64 cm (fun c => sumSq E.f64 (w c)) = channelSum E.f64 cm' (fun c => sumSq E.f64 (w' c))

/-- The states of two analyzers fed related signals. -/
structure Coupled (P : Nat → Nat → Prop) (R : D → D → Prop) (e e' : Ebu D S) : Prop where
  mode : e'.mode = e.mode
  rate : e'.rate = e.rate
  s100 : e'.samplesIn100ms = e.samplesIn100ms
  idx : e'.audioDataIndex = e.audioDataIndex
  needed : e'.neededFrames = e.neededFrames
  stc : e'.shortTermFrameCounter = e.shortTermFrameCounter
  window : e'.window = e.window
  hist : e'.blockEnergyHistory = e.blockEnergyHistory
  short : e'.shortTermBlockEnergyHistory = e.shortTermBlockEnergyHistory
  coefB : e'.filter.b = e.filter.b
  coefA : e'.filter.a = e.filter.a
  state : ∀ c c', P c c' → ∀ s s', e.filter.filterState[c]? = some s → e'.filter.filterState[c']? = some s' →
    Rel5 R s s'
  row : ∀ c c', P c c' → ∀ r r', e.rows[c]? = some r → e'.rows[c']? = some r' → List.Forall₂ R r r'

theorem Coupled.ring {P : Nat → Nat → Prop} {R : D → D → Prop} {e e' : Ebu D S} (h : Coupled P R e e') :
    e'.ring = e.ring := by
  simp only [Ebu.ring, h.rate, h.window]

theorem Coupled.good {P : Nat → Nat → Prop} {R : D → D → Prop} {e e' : Ebu D S} (h : Coupled P R e e')
    (hg : e.Good) : e'.Good :=
  ⟨by rw [h.ring, h.s100]; exact hg.gate, by rw [h.ring, h.s100, h.mode]; exact hg.short⟩

theorem Coupled.pos {P : Nat → Nat → Prop} {R : D → D → Prop} {e e' : Ebu D S} (h : Coupled P R e e') {n : Nat}
    (hp : e.PosAt n) : e'.PosAt n :=
  ⟨by rw [h.idx, h.ring]; exact hp.idx, by rw [h.needed, h.s100]; exact hp.needed,
    by rw [h.stc, h.mode, h.s100]; exact hp.stc⟩

theorem forall2_window {R : D → D → Prop} {r r' : List D} (h : List.Forall₂ R r r') (N idx : Nat) :
    List.Forall₂ R (ringWindow N idx r) (ringWindow N idx r') := by
  unfold ringWindow
  rw [← h.length_eq]
  split
  · exact List.rel_append (List.forall₂_take _ h) (List.forall₂_drop _ h)
  · exact List.forall₂_drop _ (List.forall₂_take _ h)

theorem forall2_writeAt {R : D → D → Prop} {r r' ys ys' : List D} (h : List.Forall₂ R r r')
    (hy : List.Forall₂ R ys ys') (i : Nat) : List.Forall₂ R (writeAt r i ys) (writeAt r' i ys') := by
  unfold writeAt
  rw [← hy.length_eq]
  exact List.rel_append (List.rel_append (List.forall₂_take _ h) hy) (List.forall₂_drop _ h)

theorem Coupling.squares {E : Env D S} {cm cm' : List Channel} {P : Nat → Nat → Prop} {R : D → D → Prop}
    (hc : Coupling E cm cm' P R) {r r' : List D} (h : List.Forall₂ R r r') :
    sumSq E.f64 r = sumSq E.f64 r' := by
  unfold sumSq
  generalize E.f64.zero = z
  induction h generalizing z with
  | nil => rfl
  | cons hx _ ih => rw [List.foldl_cons, List.foldl_cons, hc.square _ _ hx, ih]

/-- Related rows give equal energies. -/
theorem Coupled.energy {E : Env D S} {P : Nat → Nat → Prop} {R : D → D → Prop} {e e' : Ebu D S}
    (hc : Coupling E e.channelMap e'.channelMap P R) (h : Coupled P R e e')
    (hl : e.rows.length = e.channelMap.length) (hl' : e'.rows.length = e'.channelMap.length) (N : Nat) :
    e'.energyP E N = e.energyP E N := by
  unfold Ebu.energyP
  have key : ∀ x : Ebu D S, x.rows.length = x.channelMap.length →
      gatingP E N x.rows x.audioDataIndex x.channelMap =
        E.f64.div (channelSum E.f64 x.channelMap fun c =>
          sumSq E.f64 (ringWindow N x.audioDataIndex (x.rows.getD c []))) (E.f64.ofInt N) := by
    intro x hx
    refine energyP_spec hx ?_
    intro c ch row _ _ hr
    rw [List.getD_eq_getElem?_getD, hr]
    rfl
  rw [key e hl, key e' hl', hc.sum _ _ (fun c c' hp => ?_)]
  obtain ⟨⟨ch, h1, -⟩, ch', h2, -⟩ := hc.used c c' hp
  have h1' := (List.getElem?_eq_some_iff.1 h1).1
  have h2' := (List.getElem?_eq_some_iff.1 h2).1
  have g1 : e.rows[c]? = some (e.rows[c]'(by omega)) := List.getElem?_eq_getElem _
  have g2 : e'.rows[c']? = some (e'.rows[c']'(by omega)) := List.getElem?_eq_getElem _
  rw [List.getD_eq_getElem?_getD, List.getD_eq_getElem?_getD, g1, g2, h.idx]
  exact hc.squares (forall2_window (h.row c c' hp _ _ g1 g2) _ _)

/-! ## Steps -/

/-- Frames whose paired channels are related. -/
def RelFrames (P : Nat → Nat → Prop) (R : D → D → Prop) (ops : SampleOps D S T) (ops' : SampleOps D S T')
    (fs : List (List T)) (fs' : List (List T')) : Prop :=
  fs'.length = fs.length ∧ ∀ c c', P c c' → ∀ (k : Nat) (f : List T) (f' : List T'), fs[k]? = some f →
    fs'[k]? = some f' → ∀ (x : T) (x' : T'), f[c]? = some x → f'[c']? = some x' → R (ops.toF64 x) (ops'.toF64 x')

theorem RelFrames.take {P : Nat → Nat → Prop} {R : D → D → Prop} {ops : SampleOps D S T}
    {ops' : SampleOps D S T'} {fs : List (List T)} {fs' : List (List T')} (h : RelFrames P R ops ops' fs fs')
    (n : Nat) : RelFrames P R ops ops' (fs.take n) (fs'.take n) := by
  refine ⟨by rw [List.length_take, List.length_take, h.1], ?_⟩
  intro c c' hp k f f' h1 h2
  rw [List.getElem?_take] at h1 h2
  split at h1
  · next hk => rw [if_pos hk] at h2; exact h.2 c c' hp k f f' h1 h2
  · cases h1

theorem RelFrames.drop {P : Nat → Nat → Prop} {R : D → D → Prop} {ops : SampleOps D S T}
    {ops' : SampleOps D S T'} {fs : List (List T)} {fs' : List (List T')} (h : RelFrames P R ops ops' fs fs')
    (n : Nat) : RelFrames P R ops ops' (fs.drop n) (fs'.drop n) := by
  refine ⟨by rw [List.length_drop, List.length_drop, h.1], ?_⟩
  intro c c' hp k f f' h1 h2
  rw [List.getElem?_drop] at h1 h2
  exact h.2 c c' hp _ f f' h1 h2

theorem RelFrames.columns {P : Nat → Nat → Prop} {R : D → D → Prop} {ops : SampleOps D S T}
    {ops' : SampleOps D S T'} {fs : List (List T)} {fs' : List (List T')} (h : RelFrames P R ops ops' fs fs')
    {n n' : Nat} (hf : RectF n fs) (hf' : RectF n' fs') {c c' : Nat} (hp : P c c') (hc : c < n) (hc' : c' < n') :
    List.Forall₂ R (colF64 ops c fs) (colF64 ops' c' fs') := by
  induction fs generalizing fs' with
  | nil =>
    have := h.1
    rw [List.length_nil, List.length_eq_zero_iff] at this
    subst this
    exact List.Forall₂.nil
  | cons f fs ih =>
    cases fs' with
    | nil => have := h.1; simp at this
    | cons f' fs' =>
      have l1 := hf f (by simp)
      have l2 := hf' f' (by simp)
      have g1 : f[c]? = some (f[c]'(by omega)) := List.getElem?_eq_getElem _
      have g2 : f'[c']? = some (f'[c']'(by omega)) := List.getElem?_eq_getElem _
      simp only [colF64, column, List.filterMap_cons, g1, g2, List.map_cons]
      refine List.Forall₂.cons (h.2 c c' hp 0 f f' rfl rfl _ _ g1 g2) ?_
      exact ih (h.drop 1) (fun g hg => hf g (by simp [hg])) (fun g hg => hf' g (by simp [hg]))

section
variable {E : Env D S} {P : Nat → Nat → Prop} {R : D → D → Prop} {e e' : Ebu D S}
  {ops : SampleOps D S T} {ops' : SampleOps D S T'} {fs : List (List T)} {fs' : List (List T')}

theorem Coupled.states (hc : Coupling E e.channelMap e'.channelMap P R) (h : Coupled P R e e') (hi : e.Inv E)
    (hi' : e'.Inv E) (hf : RectF e.channels fs) (hf' : RectF e'.channels fs')
    (hr : RelFrames P R ops ops' fs fs') (c c' : Nat) (hp : P c c') (s s' : V5 D)
    (h1 : (statesP E ops e.filter fs e.channelMap)[c]? = some s)
    (h2 : (statesP E ops' e'.filter fs' e'.channelMap)[c']? = some s') : Rel5 R s s' := by
  obtain ⟨⟨ch, u1, n1⟩, ch', u2, n2⟩ := hc.used c c' hp
  have l1 := (List.getElem?_eq_some_iff.1 u1).1
  have l2 := (List.getElem?_eq_some_iff.1 u2).1
  rw [hi.map] at l1
  rw [hi'.map] at l2
  have g1 : e.filter.filterState[c]? = some (e.filter.filterState[c]'(by rw [hi.filter.state]; exact l1)) :=
    List.getElem?_eq_getElem _
  have g2 : e'.filter.filterState[c']? = some (e'.filter.filterState[c']'(by rw [hi'.filter.state]; exact l2)) :=
    List.getElem?_eq_getElem _
  rw [statesP_get E ops e.filter fs e.channelMap u1 g1] at h1
  rw [statesP_get E ops' e'.filter fs' e'.channelMap u2 g2] at h2
  cases h1
  cases h2
  rw [chanState, chanState, if_neg n1, if_neg n2, h.coefA, h.coefB]
  exact hc.flush _ _ (hc.filter _ _ _ _ _ _ (h.state c c' hp _ _ g1 g2) (hr.columns hf hf' hp l1 l2)).1

theorem Coupled.rows (hc : Coupling E e.channelMap e'.channelMap P R) (h : Coupled P R e e') (hi : e.Inv E)
    (hi' : e'.Inv E) (hf : RectF e.channels fs) (hf' : RectF e'.channels fs')
    (hr : RelFrames P R ops ops' fs fs') (c c' : Nat) (hp : P c c') (r r' : List D)
    (h1 : (rowsP E ops e.filter fs e.rows e.audioDataIndex e.channelMap)[c]? = some r)
    (h2 : (rowsP E ops' e'.filter fs' e'.rows e'.audioDataIndex e'.channelMap)[c']? = some r') :
    List.Forall₂ R r r' := by
  obtain ⟨⟨ch, u1, n1⟩, ch', u2, n2⟩ := hc.used c c' hp
  have l1 := (List.getElem?_eq_some_iff.1 u1).1
  have l2 := (List.getElem?_eq_some_iff.1 u2).1
  rw [hi.map] at l1
  rw [hi'.map] at l2
  have g1 : e.filter.filterState[c]? = some (e.filter.filterState[c]'(by rw [hi.filter.state]; exact l1)) :=
    List.getElem?_eq_getElem _
  have g2 : e'.filter.filterState[c']? = some (e'.filter.filterState[c']'(by rw [hi'.filter.state]; exact l2)) :=
    List.getElem?_eq_getElem _
  have q1 : e.rows[c]? = some (e.rows[c]'(by rw [hi.rows_spec.1]; exact l1)) := List.getElem?_eq_getElem _
  have q2 : e'.rows[c']? = some (e'.rows[c']'(by rw [hi'.rows_spec.1]; exact l2)) := List.getElem?_eq_getElem _
  rw [rowsP_get E ops e.filter fs e.rows _ e.channelMap u1 g1 q1] at h1
  rw [rowsP_get E ops' e'.filter fs' e'.rows _ e'.channelMap u2 g2 q2] at h2
  cases h1
  cases h2
  rw [chanRow, chanRow, if_neg n1, if_neg n2, h.coefA, h.coefB, h.idx]
  exact forall2_writeAt (h.row c c' hp _ _ q1 q2)
    (hc.filter _ _ _ _ _ _ (h.state c c' hp _ _ g1 g2) (hr.columns hf hf' hp l1 l2)).2 _

theorem Ebu.rows_advanceP (hi : e.Inv E) (hf : RectF e.channels fs)
    (hroom : e.audioDataIndex + fs.length ≤ e.ring) :
    (e.advanceP E ops fs).rows = rowsP E ops e.filter fs e.rows e.audioDataIndex e.channelMap := by
  have hp := hi.ring_pos
  have h2 := rowsP_rows E ops (f := e.filter) hf hi.map hi.rows_spec.2.1 hroom
  show chunksExact e.ring (rowsP E ops e.filter fs e.rows e.audioDataIndex e.channelMap).flatten = _
  rw [chunksExact_flatten (by omega) h2]

theorem Coupled.advance (hc : Coupling E e.channelMap e'.channelMap P R) (h : Coupled P R e e') (hi : e.Inv E)
    (hi' : e'.Inv E) (hf : RectF e.channels fs) (hf' : RectF e'.channels fs')
    (hr : RelFrames P R ops ops' fs fs') (hroom : e.audioDataIndex + fs.length ≤ e.ring) :
    Coupled P R (e.advanceP E ops fs) (e'.advanceP E ops' fs') where
  mode := h.mode
  rate := h.rate
  s100 := h.s100
  idx := by show e'.audioDataIndex + fs'.length = e.audioDataIndex + fs.length; rw [h.idx, hr.1]
  needed := by show e'.neededFrames - fs'.length = e.neededFrames - fs.length; rw [h.needed, hr.1]
  stc := by
    show (if e'.mode.contains Mode.LRA then e'.shortTermFrameCounter + fs'.length else e'.shortTermFrameCounter) =
      if e.mode.contains Mode.LRA then e.shortTermFrameCounter + fs.length else e.shortTermFrameCounter
    rw [h.mode, h.stc, hr.1]
  window := h.window
  hist := h.hist
  short := h.short
  coefB := h.coefB
  coefA := h.coefA
  state := h.states hc hi hi' hf hf' hr
  row := by
    rw [Ebu.rows_advanceP hi hf hroom, Ebu.rows_advanceP hi' hf' (by rw [h.idx, hr.1, h.ring]; exact hroom)]
    exact h.rows hc hi hi' hf hf' hr

theorem Coupled.complete (hc : Coupling E e.channelMap e'.channelMap P R) (h : Coupled P R e e')
    (hl : e.rows.length = e.channelMap.length) (hl' : e'.rows.length = e'.channelMap.length)
    (hd : e.audioData.length / e.channels = e.ring) (hd' : e'.audioData.length / e'.channels = e'.ring) :
    Coupled P R (e.completeP E) (e'.completeP E) := by
  have hs := Ebu.completeP_sameCfg E e
  have hs' := Ebu.completeP_sameCfg E e'
  obtain ⟨f1, f2, f3, f4⟩ := Ebu.completeP_fields E e
  obtain ⟨f1', f2', f3', f4'⟩ := Ebu.completeP_fields E e'
  have hen := h.energy hc hl hl'
  have hidx : ∀ x : Ebu D S, (x.completeP E).audioDataIndex =
      if x.audioDataIndex = x.audioData.length / x.channels then 0 else x.audioDataIndex := by
    intro x
    have hf := Ebu.shortP_fields E (x.gateP E)
    show (if ((x.gateP E).shortP E).audioDataIndex = _ / _ then _ else _) = _
    rw [hf.2.2.2.2.1, hf.2.2.2.1, hf.2.2.1]
    rfl
  have hneed : ∀ x : Ebu D S, (x.completeP E).neededFrames = x.samplesIn100ms := by
    intro x
    exact (Ebu.shortP_fields E (x.gateP E)).2.2.2.2.2.1
  have hstc : ∀ x : Ebu D S, (x.completeP E).shortTermFrameCounter =
      if x.mode.contains Mode.LRA = true ∧ x.shortTermFrameCounter = x.samplesIn100ms * 30 then
        x.samplesIn100ms * 20 else x.shortTermFrameCounter := by
    intro x
    show ((x.gateP E).shortP E).shortTermFrameCounter = _
    unfold Ebu.shortP
    by_cases hx : x.mode.contains Mode.LRA = true ∧ x.shortTermFrameCounter = x.samplesIn100ms * 30
    · rw [if_pos hx, if_pos (by exact hx)]; rfl
    · rw [if_neg hx, if_neg (by exact hx)]; rfl
  refine ⟨?_, ?_, ?_, ?_, ?_, ?_, ?_, ?_, ?_, ?_, ?_, ?_, ?_⟩
  · rw [hs.mode, hs'.mode]; exact h.mode
  · rw [hs.rate, hs'.rate]; exact h.rate
  · rw [hs.s100, hs'.s100]; exact h.s100
  · rw [hidx, hidx, hd, hd', h.idx, h.ring]
  · rw [hneed, hneed]; exact h.s100
  · rw [hstc, hstc, h.mode, h.stc, h.s100]
  · rw [hs.window, hs'.window]; exact h.window
  · rw [f3, f3', hen, h.mode, h.s100, h.hist]
  · rw [f4, f4', hen, h.mode, h.s100, h.short, h.stc]
  · rw [f1, f1']; exact h.coefB
  · rw [f1, f1']; exact h.coefA
  · rw [f1, f1']; exact h.state
  · rw [f2, f2']; exact h.row

theorem Coupled.loop (fuel : Nat) : ∀ {e e' : Ebu D S} {fs : List (List T)} {fs' : List (List T')} {n : Nat},
    Coupling E e.channelMap e'.channelMap P R → Coupled P R e e' → e.Inv E → e'.Inv E → e.Good → e.PosAt n →
    RectF e.channels fs → RectF e'.channels fs' → RelFrames P R ops ops' fs fs' →
    Coupled P R (e.addLoopP E ops fuel fs) (e'.addLoopP E ops' fuel fs') := by
  induction fuel with
  | zero => intro e e' fs fs' n _ h _ _ _ _ _ _ _; exact h
  | succ fuel ih =>
    intro e e' fs fs' n hc h hi hi' hg hp hf hf' hr
    have hroom := hi.idx_room hg hp
    simp only [Ebu.addLoopP, hr.1, h.needed]
    by_cases h0 : fs.length = 0
    · rw [if_pos h0, if_pos h0]; exact h
    · rw [if_neg h0, if_neg h0]
      by_cases hle : e.neededFrames ≤ fs.length
      · rw [if_pos hle, if_pos hle]
        have hla : (fs.take e.neededFrames).length = e.neededFrames := by rw [List.length_take]; omega
        have hla' : (fs'.take e.neededFrames).length = e.neededFrames := by
          rw [List.length_take, hr.1]; omega
        have rt : RectF e.channels (fs.take e.neededFrames) := fun f h => hf f (List.mem_of_mem_take h)
        have rt' : RectF e'.channels (fs'.take e.neededFrames) := fun f h => hf' f (List.mem_of_mem_take h)
        have hadv := Ebu.advanceP_inv ops hi rt (by omega) (k := 1) (Nat.le_refl 1)
        have hadv' := Ebu.advanceP_inv ops' hi' rt' (by rw [h.idx, h.ring]; omega) (k := 1) (Nat.le_refl 1)
        have hsame := hadv.2.trans (Ebu.completeP_sameCfg E (e.advanceP E ops (fs.take e.neededFrames)))
        have hsame' := hadv'.2.trans (Ebu.completeP_sameCfg E (e'.advanceP E ops' (fs'.take e.neededFrames)))
        have hpos := Ebu.completeP_pos ops hi hg hp rt hla
        have hco := h.advance hc hi hi' rt rt' (hr.take e.neededFrames) (by omega)
        have hc2 : Coupling E (e.advanceP E ops (fs.take e.neededFrames)).channelMap
            (e'.advanceP E ops' (fs'.take e.neededFrames)).channelMap P R := hc
        have hco2 := Coupled.complete hc2 hco
          (by
            have := hadv.1.rows_spec.1
            have hm := hadv.1.map
            exact this.trans hm.symm)
          (by
            have := hadv'.1.rows_spec.1
            have hm := hadv'.1.map
            exact this.trans hm.symm)
          (Ebu.stride_eq hadv.1 :) (Ebu.stride_eq hadv'.1 :)
        refine ih ?_ hco2 (Ebu.completeP_inv hadv.1) (Ebu.completeP_inv hadv'.1) (hg.of_same hsame) hpos ?_ ?_
          (hr.drop _)
        · rw [hsame.map, hsame'.map]; exact hc
        · rw [hsame.channels]; exact fun f h => hf f (List.mem_of_mem_drop h)
        · rw [hsame'.channels]; exact fun f h => hf' f (List.mem_of_mem_drop h)
      · rw [if_neg hle, if_neg hle]
        exact h.advance hc hi hi' hf hf' hr (by omega)

theorem Coupled.add {n : Nat} (hc : Coupling E e.channelMap e'.channelMap P R) (h : Coupled P R e e')
    (hi : e.Inv E) (hi' : e'.Inv E) (hg : e.Good) (hp : e.PosAt n) (hf : RectF e.channels fs)
    (hf' : RectF e'.channels fs') (hr : RelFrames P R ops ops' fs fs') :
    Coupled P R (e.addP E ops fs) (e'.addP E ops' fs') := by
  unfold Ebu.addP
  rw [hr.1]
  by_cases h0 : fs.length = 0
  · rw [if_pos h0, if_pos h0]; exact h
  · rw [if_neg h0, if_neg h0]
    have h1 : Coupled P R ({ e with filter := e.filter.resetPeaks E } : Ebu D S)
        { e' with filter := e'.filter.resetPeaks E } :=
      ⟨h.mode, h.rate, h.s100, h.idx, h.needed, h.stc, h.window, h.hist, h.short, h.coefB, h.coefA, h.state, h.row⟩
    have h2 := Coupled.loop (E := E) (ops := ops) (ops' := ops') (2 * fs.length + 2) (n := n)
      (e := { e with filter := e.filter.resetPeaks E }) (e' := { e' with filter := e'.filter.resetPeaks E }) hc h1 (Ebu.resetPeaks_inv hi)
      (Ebu.resetPeaks_inv hi') ⟨hg.gate, hg.short⟩ ⟨hp.idx, hp.needed, hp.stc⟩ hf hf' hr
    exact ⟨h2.mode, h2.rate, h2.s100, h2.idx, h2.needed, h2.stc, h2.window, h2.hist, h2.short, h2.coefB, h2.coefA,
      h2.state, h2.row⟩

theorem Coupled.seed (hc : Coupling E e.channelMap e'.channelMap P R) (h : Coupled P R e e')
    (hi : e.Inv E) (hi' : e'.Inv E) (hf : RectF e.channels fs)
    (hf' : RectF e'.channels fs') (hr : RelFrames P R ops ops' fs fs') :
    Coupled P R (e.seedP E ops fs) (e'.seedP E ops' fs') where
  mode := h.mode
  rate := h.rate
  s100 := h.s100
  idx := h.idx
  needed := h.needed
  stc := h.stc
  window := h.window
  hist := h.hist
  short := h.short
  coefB := h.coefB
  coefA := h.coefA
  state := h.states hc hi hi' hf hf' hr
  row := h.row
end

/-! ## Calls -/

/-- Two lists of frames, as `f64` values, whose paired channels are related. -/
def Spec.Related (P : Nat → Nat → Prop) (R : D → D → Prop) : List (List D) → List (List D) → Prop :=
  List.Forall₂ fun f f' => ∀ c c', P c c' → ∀ x x', f[c]? = some x → f'[c']? = some x' → R x x'

/-- Two calls delivering related frames. -/
inductive Spec.Matching (E : Env D S) (n n' : Nat) (P : Nat → Nat → Prop) (R : D → D → Prop) :
    Op D S → Op D S → Prop
  | add {x x' : Input D S} (hw : WellFormed n x ↔ WellFormed n' x')
      (hr : WellFormed n x → Related P R (inputFrames E n x) (inputFrames E n' x')) :
      Matching E n n' P R (.addFrames x) (.addFrames x')
  | seed {x x' : Input D S} (hw : WellFormed n x ↔ WellFormed n' x')
      (hr : WellFormed n x → Related P R (inputFrames E n x) (inputFrames E n' x')) :
      Matching E n n' P R (.seedFrames x) (.seedFrames x')

theorem Spec.Related.frames {E : Env D S} {n n' : Nat} {P : Nat → Nat → Prop} {R : D → D → Prop}
    {x x' : Input D S} (hx : x.Ok n) (hx' : x'.Ok n')
    (h : Related P R (inputFrames E n x) (inputFrames E n' x')) :
    RelFrames P R (x.decode E n).ops (x'.decode E n').ops (x.decode E n).frames (x'.decode E n').frames := by
  rw [input_values E hx, input_values E hx'] at h
  unfold Related at h
  rw [List.forall₂_map_left_iff, List.forall₂_map_right_iff, List.forall₂_iff_get] at h
  refine ⟨h.1.symm, ?_⟩
  intro c c' hp k f f' h1 h2 y y' g1 g2
  obtain ⟨l1, rfl⟩ := List.getElem?_eq_some_iff.1 h1
  obtain ⟨l2, rfl⟩ := List.getElem?_eq_some_iff.1 h2
  have := h.2 k l1 l2 c c' hp ((x.decode E n).ops.toF64 y) ((x'.decode E n').ops.toF64 y')
  simp only [List.get_eq_getElem, List.getElem?_map] at this
  exact this (by rw [g1]; rfl) (by rw [g2]; rfl)

theorem addInput_wrong_zero {E : Env D S} {e e' : Ebu D S} {x : Input D S} {r : Except Error Unit} (hi : e.Inv E)
    (hx : x.Ok e.channels) (hw : x.width e.channels ≠ e.channels) (hs : e.addInput E x = .done (e', r)) :
    (x.decode E e.channels).frames.length = 0 := by
  have plan : ∀ {T : Type} (ops : SampleOps D S T) (l : List (List T)), planarOk l →
      l.length ≠ e.channels → e.addPlanar E ops l = .done (e', r) → (planarFrames l).length = 0 := by
    intro T ops l hl hc hs
    simp only [Ebu.addPlanar, (planar_new_eq _).1 hl] at hs
    rw [Ebu.addFrames_wrong ops hi (planarOk_wf hl) (by exact hc)] at hs
    split at hs
    · next h0 =>
      have h0' : (l.headD []).length - 0 = 0 := h0
      unfold planarFrames
      rw [show (l.headD []).length = 0 by omega]
      rfl
    · cases hs
  cases x
  · exact absurd rfl hw
  · exact absurd rfl hw
  · exact absurd rfl hw
  · exact absurd rfl hw
  · exact plan _ _ hx hw hs
  · exact plan _ _ hx hw hs
  · exact plan _ _ hx hw hs
  · exact plan _ _ hx hw hs

/-- What one call of `add_frames` that returned did. -/
theorem addInput_done {E : Env D S} {e e1 : Ebu D S} {x : Input D S} {r : Except Error Unit} (hi : e.Inv E)
    (hg : e.Good) {n : Nat} (hp : e.PosAt n) (hs : e.addInput E x = .done (e1, r)) :
    (¬ x.Ok e.channels ∧ e1 = e) ∨ (x.Ok e.channels ∧
      ((x.decode E e.channels).frames.length = 0 ∧ e1 = e ∨
        RectF e.channels (x.decode E e.channels).frames ∧
          e1 = e.addP E (x.decode E e.channels).ops (x.decode E e.channels).frames)) := by
  by_cases hx : x.Ok e.channels
  · refine Or.inr ⟨hx, ?_⟩
    by_cases hw : x.width e.channels = e.channels
    · have h1 := (Ebu.addInput_eq hi hg hp hx hw).1.symm.trans hs
      cases h1
      have := Input.decode_rect E hx
      rw [hw] at this
      exact Or.inr ⟨this, rfl⟩
    · exact Or.inl ⟨addInput_wrong_zero hi hx hw hs, (Ebu.addInput_wrong hi hx hw hs).1⟩
  · have h1 := (Ebu.addInput_err (E := E) hx).1.symm.trans hs
    cases h1
    exact Or.inl ⟨hx, rfl⟩

theorem addP_empty {E : Env D S} {e : Ebu D S} {ops : SampleOps D S T} {fs : List (List T)} (h : fs.length = 0) :
    e.addP E ops fs = e := by
  unfold Ebu.addP
  rw [if_pos h]

theorem Coupled.step {E : Env D S} {P : Nat → Nat → Prop} {R : D → D → Prop} {e e' e1 e1' : Ebu D S}
    (hc : Coupling E e.channelMap e'.channelMap P R) (h : Coupled P R e e') (hi : e.Inv E) (hi' : e'.Inv E)
    (hg : e.Good) {n : Nat} (hp : e.PosAt n) {op op' : Op D S}
    (hm : Matching E e.channels e'.channels P R op op') {r r' : Except Error Unit}
    (hs : Verif.step E e op = .done (e1, r)) (hs' : Verif.step E e' op' = .done (e1', r')) :
    Coupled P R e1 e1' := by
  cases hm with
  | @add x x' hw hr =>
    have hok : x.Ok e.channels ↔ x'.Ok e'.channels := by
      rw [wellFormed_iff hi.ch1, wellFormed_iff hi'.ch1]; exact hw
    rcases addInput_done hi hg hp hs with ⟨n1, rfl⟩ | ⟨o1, h1⟩
    · rcases addInput_done hi' (h.good hg) (h.pos hp) hs' with ⟨n2, rfl⟩ | ⟨o2, h2⟩
      · exact h
      · exact absurd (hok.2 o2) n1
    · rcases addInput_done hi' (h.good hg) (h.pos hp) hs' with ⟨n2, rfl⟩ | ⟨o2, h2⟩
      · exact absurd (hok.1 o1) n2
      · have hrel := (hr ((wellFormed_iff hi.ch1 x).1 o1)).frames o1 o2
        rcases h1 with ⟨z1, rfl⟩ | ⟨f1, rfl⟩
        · rcases h2 with ⟨z2, rfl⟩ | ⟨f2, rfl⟩
          · exact h
          · rw [addP_empty (hrel.1.trans z1)]; exact h
        · rcases h2 with ⟨z2, rfl⟩ | ⟨f2, rfl⟩
          · rw [addP_empty (hrel.1.symm.trans z2)]; exact h
          · exact h.add hc hi hi' hg hp f1 f2 hrel
  | @seed x x' hw hr =>
    have hok : x.Ok e.channels ↔ x'.Ok e'.channels := by
      rw [wellFormed_iff hi.ch1, wellFormed_iff hi'.ch1]; exact hw
    have hs2 : e.seedInput E x = .done (e1, r) := hs
    have hs2' : e'.seedInput E x' = .done (e1', r') := hs'
    by_cases hx : x.Ok e.channels
    · have hx' := hok.1 hx
      by_cases w : x.width e.channels = e.channels
      · by_cases w' : x'.width e'.channels = e'.channels
        · have g1 := (Ebu.seedInput_eq hi hx w).symm.trans hs2
          have g2 := (Ebu.seedInput_eq hi' hx' w').symm.trans hs2'
          cases g1
          cases g2
          have f1 := Input.decode_rect E hx
          have f2 := Input.decode_rect E hx'
          rw [w] at f1
          rw [w'] at f2
          exact h.seed hc hi hi' f1 f2 ((hr ((wellFormed_iff hi.ch1 x).1 hx)).frames hx hx')
        · rw [Ebu.seedInput_wrong hi' hx' w'] at hs2'; cases hs2'
      · rw [Ebu.seedInput_wrong hi hx w] at hs2; cases hs2
    · have hx' : ¬ x'.Ok e'.channels := fun hh => hx (hok.2 hh)
      have g1 := (Ebu.addInput_err (E := E) hx).2.symm.trans hs2
      have g2 := (Ebu.addInput_err (E := E) hx').2.symm.trans hs2'
      cases g1
      cases g2
      exact h

theorem feed_sameCfg {E : Env D S} {e e' : Ebu D S} (hi : e.Inv E) {op : Op D S} (hop : Feed op)
    {r : Except Error Unit} (hs : Verif.step E e op = .done (e', r)) : e.SameCfg e' := by
  cases op with
  | addFrames x =>
    rcases Ebu.addInput_cases hi x with h | ⟨e1, r1, h, -, h2⟩
    · have := h.symm.trans hs; cases this
    · have := h.symm.trans hs; cases this; exact h2
  | seedFrames x =>
    rcases Ebu.seedInput_cases hi x with h | ⟨e1, r1, h, -, h2⟩
    · have := h.symm.trans hs; cases this
    · have := h.symm.trans hs; cases this; exact h2
  | _ => exact absurd hop id

theorem Spec.Matching.feed {E : Env D S} {n n' : Nat} {P : Nat → Nat → Prop} {R : D → D → Prop} {op op' : Op D S}
    (h : Matching E n n' P R op op') : Feed op ∧ Feed op' := by
  cases h <;> exact ⟨trivial, trivial⟩

theorem Coupled.run {E : Env D S} {P : Nat → Nat → Prop} {R : D → D → Prop} {ops ops' : List (Op D S)} :
    ∀ {e e' e1 e1' : Ebu D S}, Coupling E e.channelMap e'.channelMap P R → Coupled P R e e' → Reachable E e →
    Reachable E e' → Adequate e.mode e.rate e.window →
    List.Forall₂ (Matching E e.channels e'.channels P R) ops ops' →
    runOps E e ops = .done e1 → runOps E e' ops' = .done e1' →
    Coupled P R e1 e1' ∧ e.SameCfg e1 ∧ e'.SameCfg e1' ∧ Reachable E e1 ∧ Reachable E e1' := by
  induction ops generalizing ops' with
  | nil =>
    intro e e' e1 e1' _ h r r' _ hm h1 h2
    cases hm
    cases h1
    cases h2
    exact ⟨h, Ebu.SameCfg.refl _, Ebu.SameCfg.refl _, r, r'⟩
  | cons op ops ih =>
    intro e e' e1 e1' hc h r r' ha hm h1 h2
    cases hm with
    | @cons _ op' _ ops' hm hms =>
      simp only [runOps, Run.bind_eq] at h1 h2
      obtain ⟨⟨x, s⟩, g1, h1⟩ := Run.bind_done h1
      obtain ⟨⟨x', s'⟩, g2, h2⟩ := Run.bind_done h2
      have hi := r.inv
      have hi' := r'.inv
      have hg := hi.good_iff.2 ha
      obtain ⟨n, hp⟩ := r.inv2.pos hg
      have hx := h.step hc hi hi' hg hp hm g1 g2
      have c1 := feed_sameCfg hi hm.feed.1 g1
      have c2 := feed_sameCfg hi' hm.feed.2 g2
      have := ih (e := x) (e' := x') (by rw [c1.map, c2.map]; exact hc) hx (r.step g1) (r'.step g2)
        (by rw [c1.mode, c1.rate, c1.window]; exact ha) (by rw [c1.channels, c2.channels]; exact hms) h1 h2
      exact ⟨this.1, c1.trans this.2.1, c2.trans this.2.2.1, this.2.2.2⟩

/-- Coupled analyzers answer every loudness query alike. -/
theorem Coupled.answers {E : Env D S} {P : Nat → Nat → Prop} {R : D → D → Prop} {e e' : Ebu D S}
    (hc : Coupling E e.channelMap e'.channelMap P R) (h : Coupled P R e e') (hi : e.Inv E) (hi' : e'.Inv E) :
    (∀ q, LoudnessQuery q → ask E e q = ask E e' q) ∧
      e.gatingBlockCountAndEnergy E = e'.gatingBlockCountAndEnergy E := by
  have hen := h.energy hc (hi.rows_spec.1.trans hi.map.symm) (hi'.rows_spec.1.trans hi'.map.symm)
  refine ⟨?_, ?_⟩
  · intro q hq
    cases q with
    | loudnessGlobal => simp only [ask, Ebu.loudnessGlobal, h.mode, h.hist]
    | loudnessMomentary =>
      simp only [ask, Ebu.loudnessMomentary_eq hi, Ebu.loudnessMomentary_eq hi', h.ring, h.s100, hen]
    | loudnessShortterm =>
      simp only [ask, Ebu.loudnessShortterm_eq hi, Ebu.loudnessShortterm_eq hi', h.ring, h.s100, hen]
    | loudnessWindow w =>
      simp only [ask, Ebu.loudnessWindow_eq hi, Ebu.loudnessWindow_eq hi', h.ring, h.rate, hen]
    | loudnessRange => simp only [ask, Ebu.loudnessRange, h.mode, h.short]
    | relativeThreshold => simp only [ask, Ebu.relativeThreshold, h.mode, h.hist]
    | samplePeak _ => exact absurd hq id
    | prevSamplePeak _ => exact absurd hq id
    | truePeak _ => exact absurd hq id
    | prevTruePeak _ => exact absurd hq id
  · simp only [Ebu.gatingBlockCountAndEnergy, h.mode, h.hist]

end Verif
