import Verif.Proofs.Tracks
/-! # Feeding calls -/

set_option linter.unusedSimpArgs false

namespace Verif
variable {D S T : Type} {Sm : Type → Type}
open Spec

theorem planarOk_iff (l : List (List T)) : planarOk l ↔ l ≠ [] ∧ ∃ n, ∀ d ∈ l, d.length = n := by
  constructor
  · exact fun h => ⟨h.1, _, h.2⟩
  · rintro ⟨h0, n, hn⟩
    cases l with
    | nil => exact absurd rfl h0
    | cons d ds =>
      refine ⟨by simp, fun x hx => ?_⟩
      rw [List.headD_cons, hn x hx, hn d (by simp)]

theorem wellFormed_iff {channels : Nat} (hc : 1 ≤ channels) (x : Input D S) :
    x.Ok channels ↔ Spec.WellFormed channels x := by
  have hi : ∀ {T : Type} (l : List T), interOk channels l ↔ l.length % channels = 0 := fun l =>
    ⟨fun h => h.2, fun h => ⟨by omega, h⟩⟩
  cases x
  · exact hi _
  · exact hi _
  · exact hi _
  · exact hi _
  · exact planarOk_iff _
  · exact planarOk_iff _
  · exact planarOk_iff _
  · exact planarOk_iff _

theorem groups_flatten {n : Nat} (hn : n ≠ 0) {fs : List (List T)} (h : ∀ f ∈ fs, f.length = n) :
    groups n fs.flatten = fs := by
  unfold groups
  induction fs with
  | nil => simp
  | cons f fs ih =>
    have hf := h f (by simp)
    have hl : (f :: fs).flatten.length / n = fs.flatten.length / n + 1 := by
      rw [List.flatten_cons, List.length_append, hf, Nat.add_comm, Nat.add_div_right _ (by omega)]
    rw [hl, List.range_succ_eq_map, List.map_cons, List.map_map]
    congr 1
    · simp [← hf]
    · refine Eq.trans ?_ (ih fun g hg => h g (by simp [hg]))
      apply List.map_congr_left
      intro k _
      simp only [Function.comp, List.flatten_cons]
      rw [Nat.succ_mul, Nat.add_comm, ← List.drop_drop (j := n), List.drop_left' hf]

theorem inter_values {n : Nat} {l : List T} (h : interOk n l) (g : T → D) :
    groups n (l.map g) = (interFrames n l).map (·.map g) := by
  have h1 := chunksExact_rect h.1 l h.2
  have h2 : l.map g = ((interFrames n l).map (·.map g)).flatten := by
    rw [← List.map_flatten, h1.2.1]
  rw [h2, groups_flatten h.1]
  intro f hf
  obtain ⟨f', hf', rfl⟩ := List.mem_map.1 hf
  rw [List.length_map]; exact h1.1 f' hf'

theorem planar_values (l : List (List T)) (g : T → D) :
    columns (l.map (·.map g)) = (planarFrames l).map (·.map g) := by
  unfold columns planarFrames
  have h0 : ((l.map (·.map g)).headD []).length = (l.headD []).length := by cases l <;> simp
  rw [h0, List.map_map]
  apply List.map_congr_left
  intro k _
  simp only [Function.comp, planarFrame, List.filterMap_map, List.map_filterMap]
  congr 1
  funext ch
  simp

theorem input_values (E : Env D S) {n : Nat} {x : Input D S} (h : x.Ok n) :
    inputFrames E n x = (x.decode E n).frames.map (·.map (x.decode E n).ops.toF64) := by
  cases x
  · exact inter_values h _
  · exact inter_values h _
  · exact inter_values h _
  · exact inter_values h _
  · exact planar_values _ _
  · exact planar_values _ _
  · exact planar_values _ _
  · exact planar_values _ _

/-! ## Several frames -/

/-- The states after some frames none of which ends an internal call. -/
def runUnmarked (E : Env D S) (b a : V5 D) (V Y : Nat → List D) (evs : List (Event D)) (c : Nat) : List D × List D :=
  (evs.map fun ev => (ev, false)).foldl (meterStep E b a c) (V c, Y c)

theorem Traced.add {E : Env D S} (hz : E.noFtz = false) (ops : SampleOps D S T) {e0 e : Ebu D S} {n : Nat}
    {V Y : Nat → List D} (h : Traced E e0 n V Y e) (hi : e.Inv E) (hg : e.Good) {fs : List (List T)}
    (hf : RectF e.channels fs) :
    Traced E e0 (n + fs.length)
      (fun c => (runUnmarked E e0.filter.b e0.filter.a V Y (fs.map fun f => ⟨true, f.map ops.toF64⟩) c).1)
      (fun c => (runUnmarked E e0.filter.b e0.filter.a V Y (fs.map fun f => ⟨true, f.map ops.toF64⟩) c).2)
      (e.addP E ops fs) := by
  have key : ∀ (fs : List (List T)) (n : Nat) (V Y : Nat → List D) (e x : Ebu D S), Traced E e0 n V Y e → e.Inv E →
      e.Good → RectF e.channels fs → x.strip = fs.foldl (Ebu.tickC E ops) e.strip →
      Traced E e0 (n + fs.length)
        (fun c => (runUnmarked E e0.filter.b e0.filter.a V Y (fs.map fun f => ⟨true, f.map ops.toF64⟩) c).1)
        (fun c => (runUnmarked E e0.filter.b e0.filter.a V Y (fs.map fun f => ⟨true, f.map ops.toF64⟩) c).2) x := by
    intro fs
    induction fs with
    | nil =>
      intro n V Y e x h _ _ _ hx
      exact h.of_strip hx
    | cons f fs ih =>
      intro n V Y e x h hi hg hf hx
      have hf1 : RectF e.channels [f] := fun g hg => hf g (by simp at hg; simp [hg])
      have h1 := Traced.add1 hz ops h hi hg (hf f (by simp)) (fun _ => rfl) (fun _ => rfl)
      have h2 := Ebu.addP_keeps ops hi hg h.pos hf1
      have h3 := Ebu.strip_addP hz ops hi hg h.pos hf1
      have := ih (n + 1) _ _ (e.addP E ops [f]) x h1 h2.1 (hg.of_same h2.2.1)
        (by rw [h2.2.1.channels]; exact fun g hg => hf g (by simp [hg])) (by rw [hx, h3]; rfl)
      rw [List.length_cons, show n + (fs.length + 1) = n + 1 + fs.length by omega]
      exact this
  exact key fs n V Y e _ h hi hg hf (Ebu.strip_addP hz ops hi hg h.pos hf)

theorem Tracks.add {E : Env D S} (hz : E.noFtz = false) (ops : SampleOps D S T) {e0 e : Ebu D S}
    {evs : List (Event D)} (h : Tracks E e0 evs e) (hi : e.Inv E) (hg : e.Good) {fs : List (List T)}
    (hf : RectF e.channels fs) :
    Tracks E e0 (evs ++ fs.map fun f => ⟨true, f.map ops.toF64⟩) (e.addP E ops fs) := by
  have key : ∀ (fs : List (List T)) (evs : List (Event D)) (e x : Ebu D S), Tracks E e0 evs e → e.Inv E →
      e.Good → RectF e.channels fs → x.strip = fs.foldl (Ebu.tickC E ops) e.strip →
      Tracks E e0 (evs ++ fs.map fun f => ⟨true, f.map ops.toF64⟩) x := by
    intro fs
    induction fs with
    | nil =>
      intro evs e x h _ _ _ hx
      rw [List.map_nil, List.append_nil]
      exact Traced.of_strip h hx
    | cons f fs ih =>
      intro evs e x h hi hg hf hx
      have hf1 : RectF e.channels [f] := fun g hg => hf g (by simp at hg; simp [hg])
      have h1 := Tracks.add1 hz ops h hi hg (hf f (by simp))
      have h2 := Ebu.addP_keeps ops hi hg h.pos hf1
      have h3 := Ebu.strip_addP hz ops hi hg h.pos hf1
      rw [List.map_cons, List.append_cons]
      refine ih _ (e.addP E ops [f]) x h1 h2.1 (hg.of_same h2.2.1) ?_ ?_
      · rw [h2.2.1.channels]; exact fun g hg => hf g (by simp [hg])
      · rw [hx, h3]; rfl
  exact key fs evs e _ h hi hg hf (Ebu.strip_addP hz ops hi hg h.pos hf)

theorem Traced.seed1 {E : Env D S} (hz : E.noFtz = false) (ops : SampleOps D S T) {e0 e : Ebu D S} {n : Nat}
    {V Y V' : Nat → List D} (h : Traced E e0 n V Y e) (hi : e.Inv E) {f : List T} (hf : f.length = e.channels)
    (hV : ∀ c, V' c = next E.f64p e0.filter.a E.f64.zero (V c) ((f.map ops.toF64).getD c E.f64.zero) :: V c) :
    Traced E e0 n V' Y (e.seedP E ops [f]) := by
  have hcol : ∀ c : Nat, c < e.channels → colF64 ops c [f] = [(f.map ops.toF64).getD c E.f64.zero] := by
    intro c hc
    have : f[c]? = some (f[c]'(by omega)) := List.getElem?_eq_getElem _
    simp [colF64, column, this]
  refine ⟨⟨h.same.mode, h.same.rate, h.same.channels, h.same.map, h.same.s100, h.same.window, h.same.history⟩,
    h.coefB, h.coefA, ⟨h.pos.idx, h.pos.needed, h.pos.stc⟩, h.len, ?_, h.row, h.hist, h.short⟩
  intro c ch hc hu
  have hc' : e.channelMap[c]? = some ch := by rw [h.same.map]; exact hc
  have hlt : c < e.channels := by
    have := (List.getElem?_eq_some_iff.1 hc').1
    rw [hi.map] at this; exact this
  refine (statesP_get E ops e.filter [f] e.channelMap hc' (h.state c ch hc hu)).trans ?_
  rw [hcol c hlt, chanState, if_neg hu, flushState, if_neg (by rw [hz]; simp), h.coefA, stateOf_step, hV]

theorem Tracks.seed1 {E : Env D S} (hz : E.noFtz = false) (ops : SampleOps D S T) {e0 e : Ebu D S}
    {evs : List (Event D)} (h : Tracks E e0 evs e) (hi : e.Inv E) {f : List T}
    (hf : f.length = e.channels) :
    Tracks E e0 (evs ++ [⟨false, f.map ops.toF64⟩]) (e.seedP E ops [f]) := by
  have hcnt : count (evs ++ [⟨false, f.map ops.toF64⟩]) = count evs := by rw [count_append]; rfl
  have houts : outsOf E e0.filter (evs ++ [⟨false, f.map ops.toF64⟩]) = outsOf E e0.filter evs := by
    funext c
    unfold outsOf
    rw [outs_snoc]
    exact List.append_nil _
  unfold Tracks
  rw [hcnt, houts]
  refine Traced.seed1 hz ops h hi hf (fun c => ?_)
  rw [chan_append]
  exact internal_next ..

theorem Filter.coreP_nil {E : Env D S} (hz : E.noFtz = false) (ops : SampleOps D S T) {f : Filter D S} {n : Nat}
    (hf : f.Inv n) {cm : List Channel} (hcm : cm.length = n) : f.coreP E ops [] cm = f := by
  have hst : statesP E ops f [] cm = f.filterState := by
    have hl : cm.length = f.filterState.length := by rw [hf.state, hcm]
    apply List.ext_getElem?
    intro c
    cases hs : f.filterState[c]? with
    | none =>
      rw [List.getElem?_eq_none_iff] at hs ⊢
      rw [statesP_length E ops hf.state [] hcm, ← hf.state]; exact hs
    | some st =>
      have hlt := (List.getElem?_eq_some_iff.1 hs).1
      rw [statesP_get E ops f [] cm
        (List.getElem?_eq_getElem (l := cm) (by omega)) hs]
      simp [chanState, colF64, column, runFilter, flushState, hz]
  have htp : f.tp.map (Scanner.feed E ops []) = f.tp := by
    cases f.tp with
    | none => rfl
    | some sc => simp [Scanner.feed_nil]
  unfold Filter.coreP
  rw [hst, htp]

theorem Traced.seed {E : Env D S} (hz : E.noFtz = false) (ops : SampleOps D S T) {e0 e : Ebu D S} {n : Nat}
    {V Y : Nat → List D} (h : Traced E e0 n V Y e) (hi : e.Inv E) {fs : List (List T)} (hf : RectF e.channels fs) :
    Traced E e0 n
      (fun c => (runUnmarked E e0.filter.b e0.filter.a V Y (fs.map fun f => ⟨false, f.map ops.toF64⟩) c).1) Y
      (e.seedP E ops fs) := by
  induction fs generalizing e V with
  | nil =>
    refine h.of_strip ?_
    have := Filter.coreP_nil hz ops hi.filter hi.map (cm := e.channelMap)
    unfold Ebu.seedP
    rw [this]
  | cons f fs ih =>
    have hf1 : RectF e.channels [f] := fun g hg => hf g (by simp at hg; simp [hg])
    have h1 := Traced.seed1 hz ops h hi (hf f (by simp)) (fun _ => rfl)
    have h2 := Ebu.seedP_inv ops hi hf1
    have h3 : e.seedP E ops (f :: fs) = (e.seedP E ops [f]).seedP E ops fs := by
      have := Filter.coreP_append hz ops e.filter [f] fs e.channelMap
      unfold Ebu.seedP
      rw [show f :: fs = [f] ++ fs from rfl, this]
    rw [h3]
    exact ih h1 h2.1 (by rw [h2.2.channels]; exact fun g hg => hf g (by simp [hg]))

theorem Tracks.seed {E : Env D S} (hz : E.noFtz = false) (ops : SampleOps D S T) {e0 e : Ebu D S}
    {evs : List (Event D)} (h : Tracks E e0 evs e) (hi : e.Inv E) {fs : List (List T)}
    (hf : RectF e.channels fs) :
    Tracks E e0 (evs ++ fs.map fun f => ⟨false, f.map ops.toF64⟩) (e.seedP E ops fs) := by
  induction fs generalizing e evs with
  | nil =>
    rw [List.map_nil, List.append_nil]
    refine Traced.of_strip h ?_
    have := Filter.coreP_nil hz ops hi.filter hi.map (cm := e.channelMap)
    unfold Ebu.seedP
    rw [this]
  | cons f fs ih =>
    have hf1 : RectF e.channels [f] := fun g hg => hf g (by simp at hg; simp [hg])
    have h1 := Tracks.seed1 hz ops h hi (hf f (by simp))
    have h2 := Ebu.seedP_inv ops hi hf1
    rw [List.map_cons, List.append_cons]
    have h3 : e.seedP E ops (f :: fs) = (e.seedP E ops [f]).seedP E ops fs := by
      have := Filter.coreP_append hz ops e.filter [f] fs e.channelMap
      unfold Ebu.seedP
      rw [show f :: fs = [f] ++ fs from rfl, this]
    rw [h3]
    exact ih h1 h2.1 (by rw [h2.2.channels]; exact fun g hg => hf g (by simp [hg]))

/-! ## Calls -/

/-- What one feeding call does. -/
theorem Feed.effect {E : Env D S} {e e' : Ebu D S} (hi : e.Inv E) (hg : e.Good) {n : Nat} (hp : e.PosAt n) {op : Op D S}
    (hop : Feed op) {r : Except Error Unit} (hs : Verif.step E e op = .done (e', r)) :
    (delivered E e.channels op = [] ∧ e' = e) ∨
    (∃ (T : Type) (ops : SampleOps D S T) (fs : List (List T)), RectF e.channels fs ∧
      delivered E e.channels op = (fs.map fun f => ⟨true, f.map ops.toF64⟩) ∧ e' = e.addP E ops fs) ∨
    (∃ (T : Type) (ops : SampleOps D S T) (fs : List (List T)), RectF e.channels fs ∧
      delivered E e.channels op = (fs.map fun f => ⟨false, f.map ops.toF64⟩) ∧ e' = e.seedP E ops fs) := by
  have key : ∀ (x : Input D S), x.Ok e.channels → x.width e.channels ≠ e.channels →
      e.addInput E x = .done (e', r) → inputFrames E e.channels x = [] := by
    have plan : ∀ {T : Type} (ops : SampleOps D S T) (l : List (List T)), planarOk l →
        l.length ≠ e.channels → e.addPlanar E ops l = .done (e', r) →
        columns (l.map (·.map ops.toF64)) = [] := by
      intro T ops l hl hc hs
      simp only [Ebu.addPlanar, (planar_new_eq _).1 hl] at hs
      rw [Ebu.addFrames_wrong ops hi (planarOk_wf hl) (by exact hc)] at hs
      split at hs
      · next h0 =>
        have h0' : (l.headD []).length - 0 = 0 := h0
        rw [planar_values]
        unfold planarFrames
        rw [show (l.headD []).length = 0 by omega]
        rfl
      · cases hs
    intro x hx hw hs
    cases x
    · exact absurd rfl hw
    · exact absurd rfl hw
    · exact absurd rfl hw
    · exact absurd rfl hw
    · exact plan _ _ hx hw hs
    · exact plan _ _ hx hw hs
    · exact plan _ _ hx hw hs
    · exact plan _ _ hx hw hs
  cases op with
  | addFrames x =>
    have hs' : e.addInput E x = .done (e', r) := hs
    simp only [delivered]
    by_cases hx : x.Ok e.channels
    · rw [if_pos ((wellFormed_iff hi.ch1 x).1 hx)]
      by_cases hw : x.width e.channels = e.channels
      · have h1 := Ebu.addInput_eq hi hg hp hx hw
        have h2 := h1.1.symm.trans hs'
        cases h2
        refine .inr (.inl ⟨_, (x.decode E e.channels).ops, (x.decode E e.channels).frames, ?_, ?_, rfl⟩)
        · have := Input.decode_rect E hx
          rw [hw] at this; exact this
        · rw [input_values E hx, List.map_map]
          rfl
      · have h1 := Ebu.addInput_wrong hi hx hw hs
        exact .inl ⟨by rw [key x hx hw hs', List.map_nil], h1.1⟩
    · have h1 := (Ebu.addInput_err (E := E) hx).1
      have h2 := h1.symm.trans hs'
      cases h2
      exact .inl ⟨if_neg (fun hh => hx ((wellFormed_iff hi.ch1 x).2 hh)), rfl⟩
  | seedFrames x =>
    have hs' : e.seedInput E x = .done (e', r) := hs
    simp only [delivered]
    by_cases hx : x.Ok e.channels
    · rw [if_pos ((wellFormed_iff hi.ch1 x).1 hx)]
      by_cases hw : x.width e.channels = e.channels
      · have h1 := Ebu.seedInput_eq hi hx hw
        have h2 := h1.symm.trans hs'
        cases h2
        refine .inr (.inr ⟨_, (x.decode E e.channels).ops, (x.decode E e.channels).frames, ?_, ?_, rfl⟩)
        · have := Input.decode_rect E hx
          rw [hw] at this; exact this
        · rw [input_values E hx, List.map_map]
          rfl
      · rw [Ebu.seedInput_wrong hi hx hw] at hs'
        cases hs'
    · have h1 := (Ebu.addInput_err (E := E) hx).2
      have h2 := h1.symm.trans hs'
      cases h2
      exact .inl ⟨if_neg (fun hh => hx ((wellFormed_iff hi.ch1 x).2 hh)), rfl⟩
  | _ => exact absurd hop id

theorem Tracks.step {E : Env D S} (hz : E.noFtz = false) {e0 e e' : Ebu D S} {evs : List (Event D)}
    (h : Tracks E e0 evs e) (hi : e.Inv E) (hg : e.Good) {op : Op D S} (hop : Feed op)
    {r : Except Error Unit} (hs : Verif.step E e op = .done (e', r)) :
    Tracks E e0 (evs ++ delivered E e0.channels op) e' ∧ e'.Inv E ∧ e'.Good := by
  rw [← h.same.channels]
  rcases Feed.effect hi hg h.pos hop hs with ⟨h1, rfl⟩ | ⟨T, ops, fs, hf, h1, rfl⟩ | ⟨T, ops, fs, hf, h1, rfl⟩
  · rw [h1, List.append_nil]; exact ⟨h, hi, hg⟩
  · have h2 := Ebu.addP_keeps ops hi hg h.pos hf
    rw [h1]
    exact ⟨Tracks.add hz ops h hi hg hf, h2.1, hg.of_same h2.2.1⟩
  · have h2 := Ebu.seedP_inv ops hi hf
    rw [h1]
    exact ⟨Tracks.seed hz ops h hi hf, h2.1, hg.of_same h2.2⟩

theorem Tracks.run {E : Env D S} (hz : E.noFtz = false) {e0 e e' : Ebu D S} {evs : List (Event D)}
    (h : Tracks E e0 evs e) (hi : e.Inv E) (hg : e.Good) {ops : List (Op D S)} (hops : ∀ op ∈ ops, Feed op)
    (hrun : runOps E e ops = .done e') :
    Tracks E e0 (evs ++ heard E e0.channels ops) e' ∧ e'.Inv E ∧ e'.Good := by
  induction ops generalizing e evs with
  | nil => cases hrun; simp only [heard, List.flatMap_nil, List.append_nil]; exact ⟨h, hi, hg⟩
  | cons op ops ih =>
    simp only [runOps, Run.bind_eq] at hrun
    obtain ⟨⟨e1, r⟩, h1, h2⟩ := Run.bind_done hrun
    obtain ⟨h3, h4, h5⟩ := Tracks.step hz h hi hg (hops op (by simp)) h1
    have := ih h3 h4 h5 (fun o ho => hops o (by simp [ho])) h2
    rw [List.append_assoc] at this
    simpa only [heard, List.flatMap_cons] using this

end Verif
