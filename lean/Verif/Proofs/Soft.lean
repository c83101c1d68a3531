import Verif.Proofs.Start
/-!
# The analyzer state as a function of the frames, on every target

An internal call of the filter without hardware flush-to-zero is the same call with it, followed by the software flush
of the filter states.
-/

set_option linter.unusedSimpArgs false

namespace Verif
variable {D S T : Type}
open Spec

/-- The same arithmetic without the software flush. -/
def Env.hard (E : Env D S) : Env D S := { E with noFtz := false }

theorem Ebu.Inv.hard {E : Env D S} {e : Ebu D S} (h : e.Inv E) : e.Inv E.hard :=
  ⟨h.ch1, h.ch64, h.rate16, h.rateMax, h.s100, h.modeM, h.win, h.winS, h.data, h.idx, h.needed, h.map, h.dual, h.filter,
    h.rect, h.fresh, h.samplePeak, h.truePeak, h.hist, h.histKind, h.stHist, h.stHistKind⟩

theorem gate0_hard (E : Env D S) : gate0 E.hard = gate0 E := rfl

theorem findLoop_hard (E : Env D S) (x : D) : ∀ fuel min max, findLoop E.hard x fuel min max = findLoop E x fuel min max := by
  intro fuel
  induction fuel with
  | zero => intro _ _; rfl
  | succ fuel ih =>
    intro min max
    simp only [findLoop, ih]
    rfl

theorem findP_hard (E : Env D S) (x : D) : findP E.hard x = findP E x := by
  unfold findP findHistogramIndex
  rw [findLoop_hard]

theorem addP_hard (E : Env D S) : History.addP E.hard = History.addP E := by
  funext h x
  unfold History.addP
  rw [gate0_hard]
  simp only [findP_hard]
  rfl

theorem blocksOf_hard (E : Env D S) (e : Ebu D S) (n : Nat) (Y : Nat → List D) :
    blocksOf E.hard e n Y = blocksOf E e n Y := rfl

theorem shortsOf_hard (E : Env D S) (e : Ebu D S) (n : Nat) (Y : Nat → List D) :
    shortsOf E.hard e n Y = shortsOf E e n Y := rfl

theorem gateP_hard (E : Env D S) (e : Ebu D S) : e.gateP E.hard = e.gateP E := by
  unfold Ebu.gateP
  rw [addP_hard]
  rfl

theorem shortP_hard (E : Env D S) (e : Ebu D S) : e.shortP E.hard = e.shortP E := by
  unfold Ebu.shortP
  rw [addP_hard]
  rfl

theorem completeP_hard (E : Env D S) (e : Ebu D S) : e.completeP E.hard = e.completeP E := by
  unfold Ebu.completeP
  rw [shortP_hard, gateP_hard]

theorem runUnmarked_hard (E : Env D S) (b a : V5 D) (V Y : Nat → List D) (evs : List (Event D)) (c : Nat) :
    runUnmarked E.hard b a V Y evs c = runUnmarked E b a V Y evs c := by
  unfold runUnmarked
  have key : ∀ vy : List D × List D, (evs.map fun ev => (ev, false)).foldl (meterStep E.hard b a c) vy =
      (evs.map fun ev => (ev, false)).foldl (meterStep E b a c) vy := by
    induction evs with
    | nil => intro vy; rfl
    | cons ev evs ih => intro vy; exact ih _
  exact key _

theorem Traced.hard {E : Env D S} {e0 e : Ebu D S} {n : Nat} {V Y : Nat → List D} (h : Traced E e0 n V Y e) :
    Traced E.hard e0 n V Y e :=
  ⟨h.same, h.coefB, h.coefA, h.pos, h.len, h.state, h.row, by rw [addP_hard]; exact h.hist,
    by rw [addP_hard]; exact h.short⟩

theorem Traced.soft {E : Env D S} {e0 e : Ebu D S} {n : Nat} {V Y : Nat → List D} (h : Traced E.hard e0 n V Y e) :
    Traced E e0 n V Y e :=
  ⟨h.same, h.coefB, h.coefA, h.pos, h.len, h.state, h.row, by rw [← addP_hard]; exact h.hist,
    by rw [← addP_hard]; exact h.short⟩

/-! ## The flush -/

/-- The analyzer with other filter states. -/
def Ebu.withState (e : Ebu D S) (ss : List (V5 D)) : Ebu D S := { e with filter := { e.filter with filterState := ss } }

theorem Ebu.strip_withState (e : Ebu D S) (ss : List (V5 D)) : (e.withState ss).strip = e.strip.withState ss := rfl

theorem settle_zero {E : Env D S} : settle E E.f64p.zero = E.f64p.zero := by
  unfold settle; split <;> rfl

theorem settle_idem {E : Env D S} (v : D) : settle E (settle E v) = settle E v := by
  by_cases h : E.noFtz = true ∧ E.f64p.lt (E.f64p.abs v) (E.f64p.lit 1 (2 ^ 52)) = true
  · have : settle E v = E.f64p.zero := if_pos h
    rw [this, settle_zero]
  · have : settle E v = v := if_neg h
    rw [this, this]

theorem settleAll_idem {E : Env D S} (v : List D) : settleAll E (settleAll E v) = settleAll E v := by
  unfold settleAll
  by_cases h : 4 ≤ v.length
  · have hl : ((v.take 4).map (settle E)).length = 4 := by simp; omega
    rw [List.take_append_of_le_length (by omega), List.take_of_length_le (by omega), List.drop_append_of_le_length (by omega),
      List.drop_of_length_le (by omega), List.nil_append, List.map_map]
    congr 2
    funext x
    exact settle_idem x
  · rw [List.drop_of_length_le (l := v) (by omega), List.append_nil, List.drop_of_length_le (by simp; omega),
      List.append_nil, List.take_of_length_le (l := v) (by omega), List.take_of_length_le (by simp; omega), List.map_map]
    congr 1
    funext x
    exact settle_idem x

theorem past_settleAll {E : Env D S} (hz : E.f64p.zero = E.f64.zero) (v : List D) {k : Nat} (hk : k < 4) :
    past E.f64.zero (settleAll E v) k = settle E (past E.f64.zero v k) := by
  unfold past settleAll
  rw [List.getD_eq_getElem?_getD, List.getD_eq_getElem?_getD]
  by_cases h : k < v.length
  · rw [List.getElem?_append_left (by simp; omega), List.getElem?_map, List.getElem?_take, if_pos hk,
      List.getElem?_eq_getElem h]
    rfl
  · rw [List.getElem?_eq_none (by simp; omega), List.getElem?_eq_none (by omega)]
    simp only [Option.getD_none]
    rw [← hz, settle_zero]

theorem flushState_stateOf {E : Env D S} (hz : E.f64p.zero = E.f64.zero) (v : List D) :
    flushState E (stateOf E.f64.zero v) = stateOf E.f64.zero (settleAll E v) := by
  have key : ∀ x : D, (if E.noFtz = true then
      (if E.f64p.lt (E.f64p.abs x) (epsilon E.f64p) = true then E.f64p.zero else x) else x) = settle E x := by
    intro x
    unfold settle epsilon
    by_cases h : E.noFtz = true
    · simp only [h, true_and, if_true]
    · simp only [h, false_and, if_false]; rfl
  unfold stateOf
  rw [past_settleAll hz _ (by omega), past_settleAll hz _ (by omega), past_settleAll hz _ (by omega),
    past_settleAll hz _ (by omega), ← key, ← key, ← key, ← key]
  unfold flushState
  split <;> rfl

theorem Traced.settle {E : Env D S} (hz : E.f64p.zero = E.f64.zero) {e0 x : Ebu D S} {n : Nat} {V Y : Nat → List D}
    (h : Traced E e0 n V Y x) {ss : List (V5 D)}
    (hs : ∀ (c : Nat) (ch : Channel), e0.channelMap[c]? = some ch → ch ≠ .unused →
      ss[c]? = (x.filter.filterState[c]?).map (flushState E)) :
    Traced E e0 n (fun c => settleAll E (V c)) Y (x.withState ss) :=
  ⟨⟨h.same.mode, h.same.rate, h.same.channels, h.same.map, h.same.s100, h.same.window, h.same.history⟩, h.coefB, h.coefA,
    ⟨h.pos.idx, h.pos.needed, h.pos.stc⟩, h.len,
    fun c ch hc hu => (hs c ch hc hu).trans (by rw [h.state c ch hc hu, Option.map_some, flushState_stateOf hz]),
    h.row, h.hist, h.short⟩

/-! ## One internal call -/

theorem chanState_hard (E : Env D S) (f : Filter D S) {ch : Channel} (hu : ch ≠ .unused) (st : V5 D) (xs : List D) :
    chanState E f ch st xs = flushState E (chanState E.hard f ch st xs) := by
  unfold chanState
  rw [if_neg hu, if_neg hu]
  rfl

theorem statesP_hard {E : Env D S} (ops : SampleOps D S T) (f : Filter D S) {n : Nat} (hf : f.Inv n) (fs : List (List T))
    {cm : List Channel} (hcm : cm.length = n) {c : Nat} {ch : Channel} (hc : cm[c]? = some ch) (hu : ch ≠ .unused) :
    (statesP E ops f fs cm)[c]? = ((statesP E.hard ops f fs cm)[c]?).map (flushState E) := by
  have hlt := (List.getElem?_eq_some_iff.1 hc).1
  have hs : f.filterState[c]? = some (f.filterState[c]'(by rw [hf.state]; omega)) := List.getElem?_eq_getElem _
  rw [statesP_get E ops f fs cm hc hs, statesP_get E.hard ops f fs cm hc hs, Option.map_some, chanState_hard E f hu]

theorem Ebu.advanceC_hard (E : Env D S) (ops : SampleOps D S T) (e : Ebu D S) (fs : List (List T)) :
    e.advanceC E ops fs = (e.advanceC E.hard ops fs).withState (statesP E ops e.filter fs e.channelMap) := rfl

theorem Ebu.completeP_state (E : Env D S) (e : Ebu D S) (ss : List (V5 D)) :
    (e.withState ss).completeP E = (e.completeP E.hard).withState ss := by
  rw [completeP_hard]
  simp only [Ebu.completeP, Ebu.shortP]
  by_cases hc : (e.gateP E).mode.contains Mode.LRA = true ∧
      (e.gateP E).shortTermFrameCounter = (e.gateP E).samplesIn100ms * 30
  · rw [if_pos (by exact hc), if_pos (by exact hc)]; rfl
  · rw [if_neg (by exact hc), if_neg (by exact hc)]; rfl

/-- An internal call. -/
theorem Traced.chunk {E : Env D S} (hz : E.f64p.zero = E.f64.zero) (ops : SampleOps D S T) {e0 e : Ebu D S} {n : Nat}
    {V Y : Nat → List D} (h : Traced E e0 n V Y e) (hi : e.Inv E) (hg : e.Good) {fs : List (List T)}
    (hf : RectF e.channels fs) (hne : fs ≠ []) (hle : fs.length ≤ e.neededFrames) :
    Traced E e0 (n + fs.length)
      (fun c => settleAll E
        (runUnmarked E e0.filter.b e0.filter.a V Y (fs.map fun f => ⟨true, f.map ops.toF64⟩) c).1)
      (fun c => (runUnmarked E e0.filter.b e0.filter.a V Y (fs.map fun f => ⟨true, f.map ops.toF64⟩) c).2)
      (if fs.length = e.neededFrames then (e.advanceP E ops fs).completeP E else e.advanceP E ops fs) := by
  have hx := (Traced.add (E := E.hard) rfl ops h.hard hi.hard hg hf).soft
  simp only [runUnmarked_hard] at hx
  have hst := Ebu.strip_addP (E := E.hard) rfl ops hi.hard hg h.pos hf
  have hroom := hi.idx_room hg h.pos
  have hss : ∀ (c : Nat) (ch : Channel), e0.channelMap[c]? = some ch → ch ≠ .unused →
      (statesP E ops e.strip.filter fs e.strip.channelMap)[c]? =
        ((e.addP E.hard ops fs).filter.filterState[c]?).map (flushState E) := by
    intro c ch hc hu
    rw [← h.same.map] at hc
    have h1 : (e.addP E.hard ops fs).filter.filterState = statesP E.hard ops e.strip.filter fs e.strip.channelMap := by
      have h2 := congrArg (fun x : Ebu D S => x.filter.filterState) hst
      refine Eq.trans (show _ = _ from h2) ?_
      by_cases hk : fs.length = e.neededFrames
      · rw [Ebu.foldl_tickC_eq (E := E.hard) rfl ops (e := e.strip) hi.shape hf hne
          (by show e.audioDataIndex + _ ≤ e.ring; omega) hk]
        show ((e.strip.advanceC E.hard ops fs).completeP E.hard).filter.filterState = _
        rw [(Ebu.completeP_fields ..).1]
        rfl
      · rw [Ebu.foldl_tickC_lt (E := E.hard) rfl ops (e := e.strip) fs hi.shape hf hne
          (by show e.audioDataIndex + _ ≤ e.ring; omega) (by show fs.length < e.neededFrames; omega)]
        rfl
    rw [h1]
    exact statesP_hard ops e.filter hi.filter fs hi.map hc hu
  refine (Traced.settle hz hx hss).of_strip ?_
  have hy : (e.advanceP E ops fs).strip = e.strip.advanceC E ops fs := Ebu.strip_advanceP ops hi fs
  rw [Ebu.strip_withState, hst]
  by_cases hk : fs.length = e.neededFrames
  · rw [if_pos hk, Ebu.strip_completeP, hy, Ebu.foldl_tickC_eq (E := E.hard) rfl ops (e := e.strip) hi.shape hf hne
      (by show e.audioDataIndex + _ ≤ e.ring; omega) hk, Ebu.advanceC_hard, Ebu.completeP_state]
  · rw [if_neg hk, hy, Ebu.foldl_tickC_lt (E := E.hard) rfl ops (e := e.strip) fs hi.shape hf hne
      (by show e.audioDataIndex + _ ≤ e.ring; omega) (by show fs.length < e.neededFrames; omega), Ebu.advanceC_hard]

/-! ## Marks -/

/-- The last frame marked. -/
def markLast : List (Event D) → List (Event D × Bool)
  | [] => []
  | ev :: evs => (ev, evs.isEmpty) :: markLast evs

theorem foldl_markLast (E : Env D S) (b a : V5 D) (c : Nat) : ∀ (evs : List (Event D)), evs ≠ [] →
    ∀ vy : List D × List D, (markLast evs).foldl (meterStep E b a c) vy =
      (settleAll E ((evs.map fun ev => (ev, false)).foldl (meterStep E b a c) vy).1,
        ((evs.map fun ev => (ev, false)).foldl (meterStep E b a c) vy).2) := by
  intro evs
  induction evs with
  | nil => intro h; exact absurd rfl h
  | cons ev evs ih =>
    intro _ vy
    cases evs with
    | nil => rfl
    | cons ev' evs => exact ih (by simp) _

theorem marked_unmeasured (s n : Nat) {evs : List (Event D)} (h : ∀ ev ∈ evs, ev.measured = false) :
    marked s n evs = markLast evs := by
  induction evs with
  | nil => rfl
  | cons ev evs ih =>
    have h1 := h ev (by simp)
    unfold marked markLast
    simp only [h1, Bool.false_and, Bool.or_false, Bool.false_eq_true, if_false]
    rw [ih fun ev hev => h ev (by simp [hev])]

theorem marked_part {s : Nat} (hs : 0 < s) {evs : List (Event D)} : ∀ {n : Nat}, (∀ ev ∈ evs, ev.measured = true) →
    evs.length < needAt s n → marked s n evs = markLast evs := by
  induction evs with
  | nil => intro n _ _; rfl
  | cons ev evs ih =>
    intro n h hlt
    have h1 := h ev (by simp)
    rw [List.length_cons] at hlt
    have h2 : ¬ ((n + 1) % s = 0 ∧ 4 * s ≤ n + 1) := fun hc => by
      have := (tick_iff hs).2 hc; omega
    have h3 := needAt_add hs (n := n) (k := 1) (by omega)
    unfold marked markLast
    simp only [h1, if_true, h2, decide_false, Bool.and_false, Bool.or_false]
    rw [ih (fun ev hev => h ev (by simp [hev])) (by omega)]

theorem marked_block {s : Nat} (hs : 0 < s) {evs rest : List (Event D)} : ∀ {n : Nat}, (∀ ev ∈ evs, ev.measured = true) →
    evs.length = needAt s n → marked s n (evs ++ rest) = markLast evs ++ marked s (n + evs.length) rest := by
  induction evs with
  | nil =>
    intro n _ h
    have := needAt_pos hs n
    simp at h
    omega
  | cons ev evs ih =>
    intro n h hlt
    have h1 := h ev (by simp)
    rw [List.length_cons] at hlt
    rw [List.cons_append]
    unfold markLast
    rw [marked]
    simp only [h1, if_true, Bool.true_and]
    cases evs with
    | nil =>
      have h2 := (tick_iff hs).1 (show needAt s n = 1 by rw [← hlt]; rfl)
      simp [h2, markLast]
    | cons ev' evs =>
      have h2 : ¬ ((n + 1) % s = 0 ∧ 4 * s ≤ n + 1) := fun hc => by
        have := (tick_iff hs).2 hc
        simp only [List.length_cons] at hlt
        omega
      have h3 := needAt_add hs (n := n) (k := 1) (by simp only [List.length_cons] at hlt; omega)
      rw [ih (fun ev hev => h ev (by simp [hev])) (by simp only [List.length_cons] at hlt ⊢; omega)]
      simp only [h2, decide_false, List.cons_append, List.isEmpty_cons, Bool.or_false, List.length_cons]
      rw [show n + 1 + (evs.length + 1) = n + (evs.length + 1 + 1) by omega]

theorem marked_settled (E : Env D S) (b a : V5 D) (c s : Nat) : ∀ (evs : List (Event D)), evs ≠ [] →
    ∀ (n : Nat) (vy : List D × List D), settleAll E ((marked s n evs).foldl (meterStep E b a c) vy).1 =
      ((marked s n evs).foldl (meterStep E b a c) vy).1 := by
  intro evs
  induction evs with
  | nil => intro h; exact absurd rfl h
  | cons ev evs ih =>
    intro _ n vy
    cases evs with
    | nil =>
      simp only [marked, List.isEmpty_nil, Bool.true_or, List.foldl_cons, List.foldl_nil, meterStep, if_true]
      exact settleAll_idem _
    | cons ev' evs =>
      rw [marked]
      exact ih (by simp) _ _

theorem marked_fst (s : Nat) : ∀ (n : Nat) (evs : List (Event D)), (marked s n evs).map Prod.fst = evs := by
  intro n evs
  induction evs generalizing n with
  | nil => rfl
  | cons ev evs ih => rw [marked]; simp only [List.map_cons, ih]

/-! ## Calls -/

/-- The states after marked frames. -/
def runMarked (E : Env D S) (b a : V5 D) (V Y : Nat → List D) (evs : List (Event D × Bool)) (c : Nat) : List D × List D :=
  evs.foldl (meterStep E b a c) (V c, Y c)

theorem Traced.loop {E : Env D S} (hz : E.f64p.zero = E.f64.zero) (ops : SampleOps D S T) {e0 : Ebu D S} (fuel : Nat) :
    ∀ {e : Ebu D S} {n : Nat} {V Y : Nat → List D} {fs : List (List T)}, Traced E e0 n V Y e → e.Inv E → e.Good →
    RectF e.channels fs → fs.length < fuel →
    Traced E e0 (n + fs.length)
      (fun c => (runMarked E e0.filter.b e0.filter.a V Y
        (marked e0.samplesIn100ms n (fs.map fun f => ⟨true, f.map ops.toF64⟩)) c).1)
      (fun c => (runMarked E e0.filter.b e0.filter.a V Y
        (marked e0.samplesIn100ms n (fs.map fun f => ⟨true, f.map ops.toF64⟩)) c).2)
      (e.addLoopP E ops fuel fs) := by
  induction fuel with
  | zero => intro e n V Y fs _ _ _ _ h; omega
  | succ fuel ih =>
    intro e n V Y fs h hi hg hf hfuel
    have hneed := hi.needed
    have hs0 : 0 < e0.samplesIn100ms := by rw [← h.same.s100, hi.s100]; exact s100_pos hi.rate16
    have hna : e.neededFrames = needAt e0.samplesIn100ms n := by rw [h.pos.needed, h.same.s100]
    have hm : ∀ gs : List (List T), ∀ ev ∈ (gs.map fun f => (⟨true, f.map ops.toF64⟩ : Event D)), ev.measured = true := by
      intro gs ev hev
      obtain ⟨f, -, rfl⟩ := List.mem_map.1 hev
      rfl
    simp only [Ebu.addLoopP]
    by_cases h0 : fs.length = 0
    · rw [if_pos h0, List.eq_nil_of_length_eq_zero h0]; exact h
    · rw [if_neg h0]
      by_cases hle : e.neededFrames ≤ fs.length
      · rw [if_pos hle]
        have hla : (fs.take e.neededFrames).length = e.neededFrames := by
          rw [List.length_take]; omega
        have hft := hf.take e.neededFrames
        have hne : fs.take e.neededFrames ≠ [] := fun hn => by rw [hn] at hla; simp at hla; omega
        have h1 := Traced.chunk hz ops h hi hg hft hne (by omega)
        rw [if_pos hla] at h1
        have hroom := hi.idx_room hg h.pos
        have hadv := Ebu.advanceP_inv ops hi hft (by omega) (k := 1) (Nat.le_refl 1)
        have hinv := Ebu.completeP_inv hadv.1
        have hsame := hadv.2.trans (Ebu.completeP_sameCfg E (e.advanceP E ops (fs.take e.neededFrames)))
        have h2 := ih h1 hinv (hg.of_same hsame) (fs := fs.drop e.neededFrames)
          (by rw [hsame.channels]; exact hf.drop _) (by rw [List.length_drop]; omega)
        have hnn : n + fs.length = n + (fs.take e.neededFrames).length + (fs.drop e.neededFrames).length := by
          rw [hla, List.length_drop]; omega
        rw [hnn]
        have hmk : marked e0.samplesIn100ms n (fs.map fun f => ⟨true, f.map ops.toF64⟩) =
            markLast ((fs.take e.neededFrames).map fun f => ⟨true, f.map ops.toF64⟩) ++
              marked e0.samplesIn100ms (n + (fs.take e.neededFrames).length)
                ((fs.drop e.neededFrames).map fun f => ⟨true, f.map ops.toF64⟩) := by
          have := marked_block hs0 (n := n) (rest := (fs.drop e.neededFrames).map fun f => ⟨true, f.map ops.toF64⟩)
            (hm (fs.take e.neededFrames)) (by rw [List.length_map, hla, hna])
          rw [← List.map_append, List.take_append_drop, List.length_map] at this
          exact this
        have hrun : ∀ c, runMarked E e0.filter.b e0.filter.a V Y
            (marked e0.samplesIn100ms n (fs.map fun f => ⟨true, f.map ops.toF64⟩)) c =
            runMarked E e0.filter.b e0.filter.a
              (fun c => settleAll E (runUnmarked E e0.filter.b e0.filter.a V Y
                ((fs.take e.neededFrames).map fun f => ⟨true, f.map ops.toF64⟩) c).1)
              (fun c => (runUnmarked E e0.filter.b e0.filter.a V Y
                ((fs.take e.neededFrames).map fun f => ⟨true, f.map ops.toF64⟩) c).2)
              (marked e0.samplesIn100ms (n + (fs.take e.neededFrames).length)
                ((fs.drop e.neededFrames).map fun f => ⟨true, f.map ops.toF64⟩)) c := by
          intro c
          unfold runMarked
          rw [hmk, List.foldl_append, foldl_markLast E _ _ _ _ (by simpa using hne)]
          rfl
        simp only [hrun]
        exact h2
      · rw [if_neg hle]
        have h1 := Traced.chunk hz ops h hi hg hf (fun hn => h0 (by rw [hn]; rfl)) (by omega)
        rw [if_neg (by omega)] at h1
        have hrun : ∀ c, runMarked E e0.filter.b e0.filter.a V Y
            (marked e0.samplesIn100ms n (fs.map fun f => ⟨true, f.map ops.toF64⟩)) c =
            (settleAll E (runUnmarked E e0.filter.b e0.filter.a V Y (fs.map fun f => ⟨true, f.map ops.toF64⟩) c).1,
              (runUnmarked E e0.filter.b e0.filter.a V Y (fs.map fun f => ⟨true, f.map ops.toF64⟩) c).2) := by
          intro c
          unfold runMarked
          rw [marked_part hs0 (hm fs) (by rw [List.length_map]; omega),
            foldl_markLast E _ _ _ _ (by simpa using fun hn => h0 (by rw [hn]; rfl))]
          rfl
        simp only [hrun]
        exact h1

theorem Traced.call {E : Env D S} (hz : E.f64p.zero = E.f64.zero) (ops : SampleOps D S T) {e0 e : Ebu D S} {n : Nat}
    {V Y : Nat → List D} (h : Traced E e0 n V Y e) (hi : e.Inv E) (hg : e.Good) {fs : List (List T)}
    (hf : RectF e.channels fs) :
    Traced E e0 (n + fs.length)
      (fun c => (runMarked E e0.filter.b e0.filter.a V Y
        (marked e0.samplesIn100ms n (fs.map fun f => ⟨true, f.map ops.toF64⟩)) c).1)
      (fun c => (runMarked E e0.filter.b e0.filter.a V Y
        (marked e0.samplesIn100ms n (fs.map fun f => ⟨true, f.map ops.toF64⟩)) c).2)
      (e.addP E ops fs) := by
  unfold Ebu.addP
  by_cases h0 : fs.length = 0
  · rw [if_pos h0, List.eq_nil_of_length_eq_zero h0]; exact h
  · rw [if_neg h0]
    have h' : Traced E e0 n V Y { e with filter := e.filter.resetPeaks E } := h.of_strip rfl
    have hg' : ({ e with filter := e.filter.resetPeaks E } : Ebu D S).Good := ⟨hg.gate, hg.short⟩
    exact (Traced.loop hz ops (2 * fs.length + 2) h' (Ebu.resetPeaks_inv hi) hg' hf (by omega)).of_strip rfl

theorem Traced.seedCall {E : Env D S} (hz : E.f64p.zero = E.f64.zero) (ops : SampleOps D S T) {e0 e : Ebu D S} {n : Nat}
    {V Y : Nat → List D} (h : Traced E e0 n V Y e) (hi : e.Inv E) (hset : ∀ c, settleAll E (V c) = V c)
    {fs : List (List T)} (hf : RectF e.channels fs) :
    Traced E e0 n
      (fun c => (runMarked E e0.filter.b e0.filter.a V Y
        (marked e0.samplesIn100ms n (fs.map fun f => ⟨false, f.map ops.toF64⟩)) c).1)
      Y (e.seedP E ops fs) := by
  have h1 := (Traced.seed (E := E.hard) rfl ops h.hard hi.hard hf).soft
  simp only [runUnmarked_hard] at h1
  have hss : ∀ (c : Nat) (ch : Channel), e0.channelMap[c]? = some ch → ch ≠ .unused →
      (statesP E ops e.filter fs e.channelMap)[c]? =
        ((e.seedP E.hard ops fs).filter.filterState[c]?).map (flushState E) := by
    intro c ch hc hu
    rw [← h.same.map] at hc
    exact statesP_hard ops e.filter hi.filter fs hi.map hc hu
  have h2 := (Traced.settle hz h1 hss)
  have hrun : ∀ c, (runMarked E e0.filter.b e0.filter.a V Y
      (marked e0.samplesIn100ms n (fs.map fun f => ⟨false, f.map ops.toF64⟩)) c).1 =
      settleAll E (runUnmarked E e0.filter.b e0.filter.a V Y (fs.map fun f => ⟨false, f.map ops.toF64⟩) c).1 := by
    intro c
    unfold runMarked
    by_cases h0 : fs = []
    · subst h0; exact (hset c).symm
    · rw [marked_unmeasured _ _ (by
        intro ev hev
        obtain ⟨f, -, rfl⟩ := List.mem_map.1 hev
        rfl), foldl_markLast E _ _ _ _ (by simpa using h0)]
      rfl
  simp only [hrun]
  exact h2

/-! ## Histories -/

theorem meterOn_append (E : Env D S) (b a : V5 D) (evs evs' : List (Event D × Bool)) (c : Nat) :
    meterOn E b a (evs ++ evs') c = runMarked E b a (fun c => (meterOn E b a evs c).1) (fun c => (meterOn E b a evs c).2)
      evs' c := by
  unfold meterOn runMarked
  rw [List.foldl_append]

theorem heardOn_fst (E : Env D S) (channels s : Nat) : ∀ (ops : List (Op D S)) (n : Nat),
    (heardOn E channels s n ops).map Prod.fst = heard E channels ops := by
  intro ops
  induction ops with
  | nil => intro n; rfl
  | cons op ops ih =>
    intro n
    rw [heardOn, List.map_append, marked_fst, ih]
    rfl

/-- `e` is `e0` after the marked frames. -/
structure Soft (E : Env D S) (e0 : Ebu D S) (evs : List (Event D × Bool)) (e : Ebu D S) : Prop where
  follows : Traced E e0 (count (evs.map Prod.fst)) (fun c => (meterOn E e0.filter.b e0.filter.a evs c).1)
    (fun c => (meterOn E e0.filter.b e0.filter.a evs c).2) e
  settled : ∀ c, settleAll E (meterOn E e0.filter.b e0.filter.a evs c).1 = (meterOn E e0.filter.b e0.filter.a evs c).1

theorem Soft.step {E : Env D S} (hz : E.f64p.zero = E.f64.zero) {e0 e e' : Ebu D S} {evs : List (Event D × Bool)}
    (h : Soft E e0 evs e) (hi : e.Inv E) (hg : e.Good) {op : Op D S} (hop : Feed op)
    {r : Except Error Unit} (hs : Verif.step E e op = .done (e', r)) :
    Soft E e0 (evs ++ marked e0.samplesIn100ms (count (evs.map Prod.fst)) (delivered E e0.channels op)) e' ∧
      e'.Inv E ∧ e'.Good := by
  have hset : ∀ (l : List (Event D)), ∀ c, settleAll E (meterOn E e0.filter.b e0.filter.a
      (evs ++ marked e0.samplesIn100ms (count (evs.map Prod.fst)) l) c).1 = (meterOn E e0.filter.b e0.filter.a
      (evs ++ marked e0.samplesIn100ms (count (evs.map Prod.fst)) l) c).1 := by
    intro l c
    by_cases hl : l = []
    · subst hl
      rw [marked, List.append_nil]
      exact h.settled c
    · rw [meterOn_append]
      exact marked_settled E _ _ c _ l hl _ _
  rw [← h.follows.same.channels]
  rcases Feed.effect hi hg h.follows.pos hop hs with ⟨h1, rfl⟩ | ⟨T, ops, fs, hf, h1, rfl⟩ | ⟨T, ops, fs, hf, h1, rfl⟩
  · rw [h1, marked, List.append_nil]; exact ⟨h, hi, hg⟩
  · have h2 := Ebu.addP_keeps ops hi hg h.follows.pos hf
    rw [h1]
    refine ⟨⟨?_, hset _⟩, h2.1, hg.of_same h2.2.1⟩
    have h3 := Traced.call hz ops h.follows hi hg hf
    simp only [meterOn_append]
    have hc : count ((evs ++ marked e0.samplesIn100ms (count (evs.map Prod.fst))
        (fs.map fun f => ⟨true, f.map ops.toF64⟩)).map Prod.fst) = count (evs.map Prod.fst) + fs.length := by
      rw [List.map_append, marked_fst, count_append]
      congr 1
      simp [count, List.filter_map, Function.comp_def]
    rw [hc]
    exact h3
  · have h2 := Ebu.seedP_inv ops hi hf
    rw [h1]
    refine ⟨⟨?_, hset _⟩, h2.1, hg.of_same h2.2⟩
    have h3 := Traced.seedCall hz ops h.follows hi h.settled hf
    have hc : count ((evs ++ marked e0.samplesIn100ms (count (evs.map Prod.fst))
        (fs.map fun f => ⟨false, f.map ops.toF64⟩)).map Prod.fst) = count (evs.map Prod.fst) := by
      rw [List.map_append, marked_fst, count_append]
      simp [count, List.filter_map, Function.comp_def]
    rw [hc]
    have hy : ∀ c, (meterOn E e0.filter.b e0.filter.a (evs ++ marked e0.samplesIn100ms (count (evs.map Prod.fst))
        (fs.map fun f => ⟨false, f.map ops.toF64⟩)) c).2 = (meterOn E e0.filter.b e0.filter.a evs c).2 := by
      intro c
      rw [meterOn_append]
      unfold runMarked
      have key : ∀ (l : List (Event D × Bool)) (vy : List D × List D), (∀ p ∈ l, p.1.measured = false) →
          (l.foldl (meterStep E e0.filter.b e0.filter.a c) vy).2 = vy.2 := by
        intro l
        induction l with
        | nil => intro vy _; rfl
        | cons p l ih =>
          intro vy hl
          rw [List.foldl_cons, ih _ fun q hq => hl q (by simp [hq])]
          unfold meterStep
          simp only [hl p (by simp), Bool.false_eq_true, if_false]
      refine key _ _ ?_
      intro p hp
      have : p.1 ∈ (marked e0.samplesIn100ms (count (evs.map Prod.fst))
        (fs.map fun f => (⟨false, f.map ops.toF64⟩ : Event D))).map Prod.fst := List.mem_map_of_mem hp
      rw [marked_fst] at this
      obtain ⟨f, -, h4⟩ := List.mem_map.1 this
      rw [← h4]
    simp only [hy]
    simp only [meterOn_append]
    exact h3

theorem Soft.run {E : Env D S} (hz : E.f64p.zero = E.f64.zero) {e0 e e' : Ebu D S} {evs : List (Event D × Bool)}
    (h : Soft E e0 evs e) (hi : e.Inv E) (hg : e.Good) {ops : List (Op D S)} (hops : ∀ op ∈ ops, Feed op)
    (hrun : runOps E e ops = .done e') :
    Soft E e0 (evs ++ heardOn E e0.channels e0.samplesIn100ms (count (evs.map Prod.fst)) ops) e' ∧ e'.Inv E ∧ e'.Good := by
  induction ops generalizing e evs with
  | nil => cases hrun; simp only [heardOn, List.append_nil]; exact ⟨h, hi, hg⟩
  | cons op ops ih =>
    simp only [runOps, Run.bind_eq] at hrun
    obtain ⟨⟨e1, r⟩, h1, h2⟩ := Run.bind_done hrun
    obtain ⟨h3, h4, h5⟩ := Soft.step hz h hi hg (hops op (by simp)) h1
    have := ih h3 h4 h5 (fun o ho => hops o (by simp [ho])) h2
    rw [List.append_assoc, List.map_append, marked_fst, count_append] at this
    exact this

/-- The state of the loudness measurement after any history of feeding calls, on any target. -/
theorem Started.soft {E : Env D S} (hz : E.f64p.zero = E.f64.zero) {e0 e : Ebu D S} (h : Started E e0)
    (hg : Adequate e0.mode e0.rate e0.window) {ops : List (Op D S)} (hops : ∀ op ∈ ops, Feed op)
    (hrun : runOps E e0 ops = .done e) :
    Soft E e0 (heardOn E e0.channels e0.samplesIn100ms 0 ops) e ∧ e.Inv E ∧ e.Good := by
  have hi := h.reachable.inv
  have h0 : Soft E e0 [] e0 := ⟨h.blank.tracks hi, fun _ => rfl⟩
  exact Soft.run hz h0 hi (hi.good_iff.2 hg) hops hrun

end Verif
