import Verif.Proofs.Soft
import Verif.Spec.Session
/-! # The analyzer follows the session of its calls -/

set_option linter.unusedSimpArgs false

namespace Verif
variable {D S T : Type} {Sm : Type → Type}
open Spec

/-- `Session.frame` without faults. -/
def Spec.Session.frameP (E : Env D S) (s : Session D) (x : List D) : Session D :=
  let s := { s with n := s.n + 1, v := s.values E x, y := s.signals E x }
  { s with
    blocks := if s.mode.contains Mode.I = true ∧ s.n % hop s.rate = 0 ∧ 4 * hop s.rate ≤ s.n then
      s.blocks.addP E (s.energy E (4 * hop s.rate)) else s.blocks
    shorts := if s.mode.contains Mode.LRA = true ∧ s.n % (10 * hop s.rate) = 0 ∧ 30 * hop s.rate ≤ s.n then
      s.shorts.addP E (s.energy E (30 * hop s.rate)) else s.shorts }

theorem Session.frame_eq (E : Env D S) {s : Session D} (hb : s.blocks.Inv) (hs : s.shorts.Inv) (x : List D) :
    s.frame E x = .done (s.frameP E x) := by
  unfold Session.frame Session.frameP
  simp only [Run.bind_eq]
  split <;> split <;>
    simp only [History.add_eq E hb, History.add_eq E hs, Run.done_bind]

/-- `e` stores what the session `s` means. -/
structure Shows (E : Env D S) (s : Session D) (e : Ebu D S) : Prop where
  mode : s.mode = e.mode
  rate : s.rate = e.rate
  channels : s.channels = e.channels
  window : s.window = e.window
  history : s.history = e.history
  map : s.map = e.channelMap
  pos : e.PosAt s.n
  len : ∀ c, (s.y c).length = s.n
  state : ∀ c, c < e.channels → e.filter.filterState[c]? = some (stateOf E.f64.zero (s.v c))
  row : ∀ c, c < e.channels → e.rows[c]? = some (ringOf (s.n % e.ring) (lastN E.f64.zero e.ring (s.y c)))
  blocks : s.blocks = e.blockEnergyHistory
  shorts : s.shorts = e.shortTermBlockEnergyHistory

theorem Shows.of_strip {E : Env D S} {s : Session D} {e e' : Ebu D S} (h : Shows E s e) (hs : e'.strip = e.strip) :
    Shows E s e' := by
  have g := fun {α : Type} (f : Ebu D S → α) => congrArg f hs
  have h1 : e'.channels = e.channels := g (·.channels)
  have h2 : e'.rate = e.rate := g (·.rate)
  have h3 : e'.window = e.window := g (·.window)
  have hr : e'.ring = e.ring := by simp only [Ebu.ring, h2, h3]
  refine ⟨h.mode.trans (g (·.mode)).symm, h.rate.trans h2.symm, h.channels.trans h1.symm, h.window.trans h3.symm,
    h.history.trans (g (·.history)).symm, h.map.trans (g (·.channelMap)).symm, ⟨?_, ?_, ?_⟩, h.len, ?_, ?_,
    h.blocks.trans (g (·.blockEnergyHistory)).symm, h.shorts.trans (g (·.shortTermBlockEnergyHistory)).symm⟩
  · rw [hr]; exact (g (·.audioDataIndex)).trans h.pos.idx
  · exact ((g (·.neededFrames)).trans h.pos.needed).trans (congrArg (needAt · s.n) (g (·.samplesIn100ms)).symm)
  · have h4 : e'.mode = e.mode := g (·.mode)
    have h5 : e'.samplesIn100ms = e.samplesIn100ms := g (·.samplesIn100ms)
    rw [h4, h5]
    exact (g (·.shortTermFrameCounter)).trans h.pos.stc
  · intro c hc
    rw [h1] at hc
    exact (g (fun x : Ebu D S => x.filter.filterState[c]?)).trans (h.state c hc)
  · intro c hc
    rw [h1] at hc
    rw [hr]
    exact (g (fun x : Ebu D S => x.rows[c]?)).trans (h.row c hc)

/-- Writing back the oldest value changes nothing. -/
theorem ringOf_repeat {r : Nat} {w : List D} (h : r < w.length) (z : D) :
    ringOf (r + 1) (w.drop 1 ++ [w.headD z]) = ringOf r w := by
  rw [← ringOf_write h]
  obtain ⟨B, A, rfl, hA⟩ : ∃ B A, w = B ++ A ∧ A.length = r :=
    ⟨w.take (w.length - r), w.drop (w.length - r), (List.take_append_drop _ _).symm,
      by rw [List.length_drop]; omega⟩
  subst hA
  cases B with
  | nil => simp at h
  | cons b B =>
    rw [ringOf_append]
    simp [writeAt]

theorem Shows.used {E : Env D S} {s : Session D} {e : Ebu D S} (h : Shows E s e) {c : Nat} {ch : Channel}
    (hc : e.channelMap[c]? = some ch) : s.used c = true ↔ ch ≠ .unused := by
  unfold Session.used
  rw [h.map, List.getD_eq_getElem?_getD, hc]
  simp

theorem Shows.add1 {E : Env D S} (hz : E.noFtz = false) (ops : SampleOps D S T) {s : Session D} {e : Ebu D S}
    (h : Shows E s e) (hi : e.Inv E) (hg : e.Good) {f : List T} (hf : f.length = e.channels) :
    Shows E (s.frameP E (f.map ops.toF64)) (e.addP E ops [f]) := by
  have hrect : RectF e.channels [f] := fun g hg => by simp at hg; rw [hg, hf]
  obtain ⟨hinv', hsame', hpos'⟩ := Ebu.addP_keeps ops hi hg h.pos hrect
  have hstrip := Ebu.strip_addP hz ops hi hg h.pos hrect
  simp only [List.foldl_cons, List.foldl_nil] at hstrip
  have hs100 : e.samplesIn100ms = hop s.rate := by rw [h.rate]; exact hi.s100
  have hs0 : 0 < hop s.rate := by rw [← hs100, hi.s100]; exact s100_pos hi.rate16
  have hcap : e.ring = capacity s.rate s.window := by rw [h.rate, h.window]; exact hi.ring_eq
  have hroom := hi.idx_room hg h.pos
  have hneed := hi.needed
  have h0 := hi.ring_pos
  have hml : s.n % e.ring < e.ring := Nat.mod_lt _ h0
  have hcoefA : e.filter.a = (filterCoefficients E (E.f64.ofInt s.rate)).2 := by rw [h.rate]; exact hi.coef.2
  have hcoefB : e.filter.b = (filterCoefficients E (E.f64.ofInt s.rate)).1 := by rw [h.rate]; exact hi.coef.1
  have hshape := hi.shape
  have hlen1 : e.strip.audioDataIndex + [f].length ≤ e.strip.ring := by
    show e.audioDataIndex + 1 ≤ e.ring; omega
  let x := f.map ops.toF64
  have hx : x = f.map ops.toF64 := rfl
  let a : Ebu D S := e.strip.advanceC E ops [f]
  have ha : a = e.strip.advanceC E ops [f] := rfl
  have hashape : a.Shape := Ebu.advanceC_shape ops hshape hrect hlen1
  have harows : a.rows = rowsP E ops e.strip.filter [f] e.strip.rows e.audioDataIndex e.strip.channelMap :=
    Ebu.rows_advanceC (E := E) ops hshape hrect hlen1
  have hcol : ∀ c : Nat, c < e.channels → colF64 ops c [f] = [x.getD c E.f64.zero] := by
    intro c hc
    have : f[c]? = some (f[c]'(by omega)) := List.getElem?_eq_getElem _
    simp [colF64, column, hx, this]
  have hcm : ∀ c, c < e.channels → ∃ ch, e.channelMap[c]? = some ch := fun c hc =>
    ⟨_, List.getElem?_eq_getElem (by rw [hi.map]; exact hc)⟩
  have hstate : ∀ c, c < e.channels → a.filter.filterState[c]? = some (stateOf E.f64.zero (s.values E x c)) := by
    intro c hc
    obtain ⟨ch, hch⟩ := hcm c hc
    refine (statesP_get E ops e.strip.filter [f] e.strip.channelMap hch (h.state c hc)).trans ?_
    unfold chanState Session.values
    by_cases hu : ch = .unused
    · rw [if_pos hu, if_neg (by rw [h.used hch]; simp [hu])]
    · rw [if_neg hu, if_pos ((h.used hch).2 hu), hcol c hc, flushState, if_neg (by rw [hz]; simp)]
      have h3 : e.strip.filter.a = _ := hcoefA
      rw [h3, stateOf_step]
  have hrow : ∀ c, c < e.channels → a.rows[c]? = some (ringOf (s.n % e.ring + 1)
      (lastN E.f64.zero e.ring (s.signals E x c))) := by
    intro c hc
    obtain ⟨ch, hch⟩ := hcm c hc
    rw [harows, rowsP_get E ops e.strip.filter [f] e.strip.rows e.audioDataIndex e.strip.channelMap hch
      (h.state c hc) (h.row c hc)]
    unfold chanRow Session.signals
    by_cases hu : ch = .unused
    · rw [if_pos hu, if_neg (by rw [h.used hch]; simp [hu]), lastN_snoc _ h0, ← hcap,
        ringOf_repeat (by rw [lastN_length]; exact hml)]
    · rw [if_neg hu, if_pos ((h.used hch).2 hu), hcol c hc]
      unfold Session.values
      rw [if_pos ((h.used hch).2 hu)]
      have h3 : e.strip.filter.a = _ := hcoefA
      have h4 : e.strip.filter.b = _ := hcoefB
      rw [h3, h4, stateOf_step]
      simp only
      rw [h.pos.idx, ringOf_write (by rw [lastN_length]; exact hml), lastN_snoc _ h0]
  let s1 : Session D := { s with n := s.n + 1, v := s.values E x, y := s.signals E x }
  have hs1 : s1 = { s with n := s.n + 1, v := s.values E x, y := s.signals E x } := rfl
  have hlen' : ∀ c, (s.signals E x c).length = s.n + 1 := fun c => by
    unfold Session.signals
    rw [List.length_append, h.len]; rfl
  have hen : ∀ N, N ≤ e.ring → a.energyP E N = s1.energy E N := by
    intro N hN
    unfold Ebu.energyP Session.energy Spec.energy
    have hcm2 : a.channelMap = s1.map := h.map.symm
    rw [hcm2]
    refine energyP_spec ?_ ?_
    · rw [hashape.rows_spec.1, ← hashape.map, hcm2]
    · intro c ch row hc hu hr
      have hlt : c < e.channels := by
        have := (List.getElem?_eq_some_iff.1 hc).1
        rw [← hi.map, ← h.map]; exact this
      rw [hrow c hlt] at hr
      cases hr
      have hidx : a.audioDataIndex = s.n % e.ring + 1 := by
        show e.audioDataIndex + 1 = _
        rw [h.pos.idx]
      rw [hidx, ringOf_window (L := e.ring) (n := s.n + 1) (lastN_length ..) hN (by omega) ?_]
      · rw [← lastN_le _ hN]
        have : (s1.y c).take s1.n = s.signals E x c := List.take_of_length_le (by rw [hlen']; exact Nat.le_refl _)
        rw [this, hcap]
        rfl
      · rcases Nat.lt_or_ge (s.n % e.ring + 1) e.ring with h3 | h3
        · left; rw [mod_add_of_lt h3]
        · right
          exact ⟨by omega, mod_add_of_eq (by omega)⟩
  have hneeda : a.neededFrames = needAt (hop s.rate) s.n - 1 := by
    show e.neededFrames - 1 = _
    rw [h.pos.needed, hs100]
  have hneedpos : 0 < needAt (hop s.rate) s.n := needAt_pos hs0 _
  have htick : Ebu.tickC E ops e.strip f = if needAt (hop s.rate) s.n = 1 then a.completeP E else a := by
    unfold Ebu.tickC
    simp only
    rw [← ha, hneeda]
    by_cases ht : needAt (hop s.rate) s.n = 1
    · rw [if_pos (by omega), if_pos ht]
    · rw [if_neg (by omega), if_neg ht]
  rw [htick] at hstrip
  have hwrapidx : (s.n + 1) % e.ring = if s.n % e.ring + 1 = e.ring then 0 else s.n % e.ring + 1 := by
    split
    · next hh => exact mod_add_of_eq hh
    · exact mod_add_of_lt (by omega)
  have hrow' : ∀ c, c < e.channels → a.rows[c]? = some (ringOf ((s.n + 1) % e.ring)
      (lastN E.f64.zero e.ring (s.signals E x c))) := by
    intro c hc
    rw [hrow c hc, hwrapidx]
    split
    · next hh =>
      have h1 := ringOf_full (lastN E.f64.zero e.ring (s.signals E x c))
      rw [lastN_length] at h1
      rw [hh, h1, ringOf_zero]
    · rfl
  have hf1 : ∀ y : Ebu D S, y = (if needAt (hop s.rate) s.n = 1 then a.completeP E else a) →
      y.filter = a.filter ∧ y.rows = a.rows := by
    intro y hy
    subst hy
    split
    · exact ⟨(Ebu.completeP_fields E a).1, (Ebu.completeP_fields E a).2.1⟩
    · exact ⟨rfl, rfl⟩
  have hf2 := hf1 _ hstrip
  have hring' : (e.addP E ops [f]).ring = e.ring := hsame'.ring
  refine ⟨h.mode.trans hsame'.mode.symm, h.rate.trans hsame'.rate.symm, h.channels.trans hsame'.channels.symm,
    h.window.trans hsame'.window.symm, h.history.trans hsame'.history.symm, h.map.trans hsame'.map.symm, hpos', hlen',
    ?_, ?_, ?_, ?_⟩
  · intro c hc
    rw [hsame'.channels] at hc
    exact (congrArg (fun f : Filter D S => f.filterState[c]?) hf2.1).trans (hstate c hc)
  · intro c hc
    rw [hsame'.channels] at hc
    rw [hring']
    exact (congrArg (fun f : List (List D) => f[c]?) hf2.2).trans (hrow' c hc)
  · have h1 := congrArg Ebu.blockEnergyHistory hstrip
    refine Eq.trans ?_ (show _ = _ from h1).symm
    have hgate := hg.gate
    rw [hs100] at hgate
    show (if s1.mode.contains Mode.I = true ∧ s1.n % hop s1.rate = 0 ∧ 4 * hop s1.rate ≤ s1.n then
      s1.blocks.addP E (s1.energy E (4 * hop s1.rate)) else s1.blocks) = _
    have hti := tick_iff (n := s.n) hs0
    by_cases ht : needAt (hop s.rate) s.n = 1
    · rw [if_pos ht, (Ebu.completeP_fields E a).2.2.1]
      have hm : a.mode = s1.mode := h.mode.symm
      have hb : a.blockEnergyHistory = s1.blocks := h.blocks.symm
      have hh : a.samplesIn100ms = hop s1.rate := hs100
      rw [hm, hb, hh, hen _ hgate]
      by_cases hI : s1.mode.contains Mode.I = true
      · rw [if_pos ⟨hI, hti.1 ht⟩, if_pos hI, Nat.mul_comm]
      · rw [if_neg (fun hn => hI hn.1), if_neg hI]
    · rw [if_neg ht, if_neg (fun hn => ht (hti.2 hn.2))]
      exact h.blocks
  · have h1 := congrArg Ebu.shortTermBlockEnergyHistory hstrip
    refine Eq.trans ?_ (show _ = _ from h1).symm
    show (if s1.mode.contains Mode.LRA = true ∧ s1.n % (10 * hop s1.rate) = 0 ∧ 30 * hop s1.rate ≤ s1.n then
      s1.shorts.addP E (s1.energy E (30 * hop s1.rate)) else s1.shorts) = _
    have hti := tick_iff (n := s.n) hs0
    have hsi := short_iff (n := s.n) hs0
    have hm : a.mode = s1.mode := h.mode.symm
    have hb : a.shortTermBlockEnergyHistory = s1.shorts := h.shorts.symm
    have hh : a.samplesIn100ms = hop s1.rate := hs100
    by_cases hl : s1.mode.contains Mode.LRA = true
    · have hl' : e.mode.contains Mode.LRA = true := by rw [← h.mode]; exact hl
      have hgate := hg.short hl'
      rw [hs100] at hgate
      have hstca : a.shortTermFrameCounter = stcAt (hop s.rate) s.n + 1 := by
        show (if e.mode.contains Mode.LRA then e.shortTermFrameCounter + 1 else e.shortTermFrameCounter) = _
        rw [if_pos hl', h.pos.stc, if_pos hl', hs100]
      by_cases ht : needAt (hop s.rate) s.n = 1
      · rw [if_pos ht, (Ebu.completeP_fields E a).2.2.2, hm, hb, hh, hstca, hen _ hgate]
        by_cases hst : stcAt (hop s.rate) s.n + 1 = hop s.rate * 30
        · rw [if_pos ⟨hl, hsi.1 hst⟩, if_pos ⟨hl, hst⟩, Nat.mul_comm 30]
        · rw [if_neg (fun hn => hst (hsi.2 hn.2)), if_neg (fun hn => hst hn.2)]
      · rw [if_neg ht, if_neg]
        · exact hb.symm
        · intro hn
          have h2 := hn.2
          refine ht (hti.2 ⟨?_, ?_⟩)
          · exact Nat.mod_eq_zero_of_dvd (Nat.dvd_trans (Nat.dvd_mul_left _ 10) (Nat.dvd_of_mod_eq_zero h2.1))
          · have : 30 * hop s.rate ≤ s.n + 1 := h2.2
            omega
    · rw [if_neg (fun hn => hl hn.1)]
      by_cases ht : needAt (hop s.rate) s.n = 1
      · rw [if_pos ht, (Ebu.completeP_fields E a).2.2.2, hm, if_neg (fun hn => hl hn.1), hb]
      · rw [if_neg ht]
        exact hb.symm

/-! ## Several frames -/

theorem Shows.add {E : Env D S} (hz : E.noFtz = false) (ops : SampleOps D S T) {s : Session D} {e : Ebu D S}
    (h : Shows E s e) (hi : e.Inv E) (hg : e.Good) {fs : List (List T)} (hf : RectF e.channels fs) :
    Shows E ((fs.map (·.map ops.toF64)).foldl (Session.frameP E) s) (e.addP E ops fs) := by
  have key : ∀ (fs : List (List T)) (s : Session D) (e x : Ebu D S), Shows E s e → e.Inv E →
      e.Good → RectF e.channels fs → x.strip = fs.foldl (Ebu.tickC E ops) e.strip →
      Shows E ((fs.map (·.map ops.toF64)).foldl (Session.frameP E) s) x := by
    intro fs
    induction fs with
    | nil => intro s e x h _ _ _ hx; exact h.of_strip hx
    | cons f fs ih =>
      intro s e x h hi hg hf hx
      have hf1 : RectF e.channels [f] := fun g hg => hf g (by simp at hg; simp [hg])
      have h1 := Shows.add1 hz ops h hi hg (hf f (by simp))
      have h2 := Ebu.addP_keeps ops hi hg h.pos hf1
      have h3 := Ebu.strip_addP hz ops hi hg h.pos hf1
      exact ih _ (e.addP E ops [f]) x h1 h2.1 (hg.of_same h2.2.1)
        (by rw [h2.2.1.channels]; exact fun g hg => hf g (by simp [hg])) (by rw [hx, h3]; rfl)
  exact key fs s e _ h hi hg hf (Ebu.strip_addP hz ops hi hg h.pos hf)

theorem frameP_hard (E : Env D S) : (Session.frameP E.hard : Session D → List D → Session D) = Session.frameP E := by
  funext s x
  unfold Session.frameP
  rw [addP_hard]
  rfl

theorem Shows.hard {E : Env D S} {s : Session D} {e : Ebu D S} (h : Shows E s e) : Shows E.hard s e :=
  ⟨h.mode, h.rate, h.channels, h.window, h.history, h.map, h.pos, h.len, h.state, h.row, h.blocks, h.shorts⟩

theorem Shows.soft {E : Env D S} {s : Session D} {e : Ebu D S} (h : Shows E.hard s e) : Shows E s e :=
  ⟨h.mode, h.rate, h.channels, h.window, h.history, h.map, h.pos, h.len, h.state, h.row, h.blocks, h.shorts⟩

theorem Shows.settle {E : Env D S} (hz : E.f64p.zero = E.f64.zero) {s : Session D} {x : Ebu D S} (h : Shows E s x)
    (hm : x.channelMap.length = x.channels) {ss : List (V5 D)}
    (hs : ∀ (c : Nat) (ch : Channel), x.channelMap[c]? = some ch →
      ss[c]? = (x.filter.filterState[c]?).map fun st => if ch = .unused then st else flushState E st) :
    Shows E (s.settled E) (x.withState ss) := by
  refine ⟨h.mode, h.rate, h.channels, h.window, h.history, h.map, ⟨h.pos.idx, h.pos.needed, h.pos.stc⟩, h.len, ?_,
    h.row, h.blocks, h.shorts⟩
  intro c hc
  have hc' : c < x.channels := hc
  have hch : x.channelMap[c]? = some (x.channelMap[c]'(by omega)) := List.getElem?_eq_getElem _
  refine (hs c _ hch).trans ?_
  rw [h.state c hc, Option.map_some]
  unfold Session.settled
  simp only
  by_cases hu : x.channelMap[c]'(by omega) = .unused
  · rw [if_pos hu, if_neg (by rw [h.used hch]; simp [hu])]
  · rw [if_neg hu, if_pos ((h.used hch).2 hu), flushState_stateOf hz]

theorem chanState_flush (E : Env D S) (f : Filter D S) (ch : Channel) (st : V5 D) (xs : List D) :
    chanState E f ch st xs =
      if ch = .unused then chanState E.hard f ch st xs else flushState E (chanState E.hard f ch st xs) := by
  by_cases hu : ch = .unused
  · rw [if_pos hu]; unfold chanState; rw [if_pos hu, if_pos hu]
  · rw [if_neg hu, chanState_hard E f hu]

theorem statesP_flush {E : Env D S} (ops : SampleOps D S T) (f : Filter D S) {n : Nat} (hf : f.Inv n) (fs : List (List T))
    {cm : List Channel} (hcm : cm.length = n) {c : Nat} {ch : Channel} (hc : cm[c]? = some ch) :
    (statesP E ops f fs cm)[c]? = ((statesP E.hard ops f fs cm)[c]?).map fun st =>
      if ch = .unused then st else flushState E st := by
  have hlt := (List.getElem?_eq_some_iff.1 hc).1
  have hs : f.filterState[c]? = some (f.filterState[c]'(by rw [hf.state]; omega)) := List.getElem?_eq_getElem _
  rw [statesP_get E ops f fs cm hc hs, statesP_get E.hard ops f fs cm hc hs, Option.map_some, chanState_flush]

/-- An internal call. -/
theorem Shows.chunk {E : Env D S} (hz : E.f64p.zero = E.f64.zero) (ops : SampleOps D S T) {s : Session D} {e : Ebu D S}
    (h : Shows E s e) (hi : e.Inv E) (hg : e.Good) {fs : List (List T)}
    (hf : RectF e.channels fs) (hne : fs ≠ []) (hle : fs.length ≤ e.neededFrames) :
    Shows E (((fs.map (·.map ops.toF64)).foldl (Session.frameP E) s).settled E)
      (if fs.length = e.neededFrames then (e.advanceP E ops fs).completeP E else e.advanceP E ops fs) := by
  have hx := (Shows.add (E := E.hard) rfl ops h.hard hi.hard hg hf).soft
  rw [frameP_hard] at hx
  have hst := Ebu.strip_addP (E := E.hard) rfl ops hi.hard hg h.pos hf
  have hkeep := Ebu.addP_keeps (E := E.hard) ops hi.hard hg h.pos hf
  have hroom := hi.idx_room hg h.pos
  have hss : ∀ (c : Nat) (ch : Channel), (e.addP E.hard ops fs).channelMap[c]? = some ch →
      (statesP E ops e.strip.filter fs e.strip.channelMap)[c]? =
        ((e.addP E.hard ops fs).filter.filterState[c]?).map fun st => if ch = .unused then st else flushState E st := by
    intro c ch hc
    rw [hkeep.2.1.map] at hc
    have h1 : (e.addP E.hard ops fs).filter.filterState = statesP E.hard ops e.strip.filter fs e.strip.channelMap := by
      have h2 := congrArg (fun x : Ebu D S => x.filter.filterState) hst
      refine Eq.trans (show _ = _ from h2) ?_
      by_cases hk : fs.length = e.neededFrames
      · rw [Ebu.foldl_tickC_eq (E := E.hard) rfl ops (e := e.strip) hi.shape hf hne
          (by show e.audioDataIndex + _ ≤ e.ring; omega) hk]
        show ((e.strip.advanceC E.hard ops fs).completeP E.hard).filter.filterState = _
        rw [(Ebu.completeP_fields ..).1]
        rfl
      · rw [Ebu.foldl_tickC_lt (E := E.hard) rfl ops (e := e.strip) fs hi.shape hf hne
          (by show e.audioDataIndex + _ ≤ e.ring; omega) (by show fs.length < e.neededFrames; omega)]
        rfl
    rw [h1]
    exact statesP_flush ops e.filter hi.filter fs hi.map hc
  refine (Shows.settle hz hx hkeep.1.map hss).of_strip ?_
  have hy : (e.advanceP E ops fs).strip = e.strip.advanceC E ops fs := Ebu.strip_advanceP ops hi fs
  rw [Ebu.strip_withState, hst]
  by_cases hk : fs.length = e.neededFrames
  · rw [if_pos hk, Ebu.strip_completeP, hy, Ebu.foldl_tickC_eq (E := E.hard) rfl ops (e := e.strip) hi.shape hf hne
      (by show e.audioDataIndex + _ ≤ e.ring; omega) hk, Ebu.advanceC_hard, Ebu.completeP_state]
  · rw [if_neg hk, hy, Ebu.foldl_tickC_lt (E := E.hard) rfl ops (e := e.strip) fs hi.shape hf hne
      (by show e.audioDataIndex + _ ≤ e.ring; omega) (by show fs.length < e.neededFrames; omega), Ebu.advanceC_hard]

/-! ## A call of `add_frames` -/

/-- `Session.add` without faults. -/
def Spec.Session.addP (E : Env D S) : Session D → List (List D) → Session D
  | s, [] => s
  | s, x :: xs =>
    Session.addP E (if xs.isEmpty || (s.frameP E x).ends then (s.frameP E x).settled E else s.frameP E x) xs

theorem frameP_inv (E : Env D S) {s : Session D} (hb : s.blocks.Inv) (hs : s.shorts.Inv) (x : List D) :
    (s.frameP E x).blocks.Inv ∧ (s.frameP E x).shorts.Inv := by
  unfold Session.frameP
  simp only
  constructor <;> split
  · exact History.addP_inv E hb _
  · exact hb
  · exact History.addP_inv E hs _
  · exact hs

theorem Session.add_eq (E : Env D S) (xs : List (List D)) : ∀ {s : Session D}, s.blocks.Inv → s.shorts.Inv →
    s.add E xs = .done (s.addP E xs) := by
  induction xs with
  | nil => intro s _ _; rfl
  | cons x xs ih =>
    intro s hb hs
    obtain ⟨h1, h2⟩ := frameP_inv E hb hs x
    rw [Session.add, Session.frame_eq E hb hs, Run.done_bind, Session.addP]
    split
    · exact ih h1 h2
    · exact ih h1 h2

theorem frameP_cfg (E : Env D S) (s : Session D) (x : List D) :
    (s.frameP E x).rate = s.rate ∧ (s.frameP E x).n = s.n + 1 := ⟨rfl, rfl⟩

/-- The frames up to the end of the block at hand. -/
theorem Session.addP_piece (E : Env D S) {xs ys : List (List D)} : ∀ {s : Session D}, 0 < hop s.rate → xs ≠ [] →
    xs.length ≤ needAt (hop s.rate) s.n → (xs.length = needAt (hop s.rate) s.n ∨ ys = []) →
    s.addP E (xs ++ ys) = ((xs.foldl (Session.frameP E) s).settled E).addP E ys := by
  induction xs with
  | nil => intro s _ h; exact absurd rfl h
  | cons x xs ih =>
    intro s h0 _ hle hor
    rw [List.cons_append, Session.addP, List.foldl_cons]
    have hti := tick_iff (n := s.n) h0
    have hends : (s.frameP E x).ends = true ↔ needAt (hop s.rate) s.n = 1 := by
      rw [hti]
      unfold Session.ends
      rw [decide_eq_true_iff]
      exact Iff.rfl
    rw [List.length_cons] at hle hor
    by_cases hx : xs = []
    · subst hx
      rw [List.nil_append, List.foldl_nil, if_pos]
      rcases hor with h1 | h1
      · rw [hends.2 h1.symm, Bool.or_true]
      · rw [h1]; rfl
    · have hl : 0 < xs.length := List.length_pos_iff.2 hx
      have hne : ¬ needAt (hop s.rate) s.n = 1 := by omega
      rw [if_neg]
      · have hadd : needAt (hop s.rate) (s.n + 1) = needAt (hop s.rate) s.n - 1 := needAt_add h0 (by omega)
        refine ih (s := s.frameP E x) h0 hx ?_ ?_
        · show xs.length ≤ needAt (hop s.rate) (s.n + 1)
          omega
        · rcases hor with h1 | h1
          · left
            show xs.length = needAt (hop s.rate) (s.n + 1)
            omega
          · exact .inr h1
      · intro hn
        rw [Bool.or_eq_true] at hn
        rcases hn with hn | hn
        · rw [List.isEmpty_iff] at hn
          exact hx (List.append_eq_nil_iff.1 hn).1
        · exact hne (hends.1 hn)

theorem Shows.loop {E : Env D S} (hz : E.f64p.zero = E.f64.zero) (ops : SampleOps D S T) (fuel : Nat) :
    ∀ {s : Session D} {e : Ebu D S} {fs : List (List T)}, Shows E s e → e.Inv E → e.Good →
    RectF e.channels fs → fs.length < fuel →
    Shows E (s.addP E (fs.map (·.map ops.toF64))) (e.addLoopP E ops fuel fs) := by
  induction fuel with
  | zero => intro s e fs _ _ _ _ h; omega
  | succ fuel ih =>
    intro s e fs h hi hg hf hfuel
    have hneed := hi.needed
    have hs100 : e.samplesIn100ms = hop s.rate := by rw [h.rate]; exact hi.s100
    have hs0 : 0 < hop s.rate := by rw [← hs100, hi.s100]; exact s100_pos hi.rate16
    have hna : e.neededFrames = needAt (hop s.rate) s.n := by rw [h.pos.needed, hs100]
    simp only [Ebu.addLoopP]
    by_cases h0 : fs.length = 0
    · rw [if_pos h0, List.eq_nil_of_length_eq_zero h0]; exact h
    · rw [if_neg h0]
      by_cases hle : e.neededFrames ≤ fs.length
      · rw [if_pos hle]
        have hla : (fs.take e.neededFrames).length = e.neededFrames := by
          rw [List.length_take]; omega
        have hft := hf.take e.neededFrames
        have hne : fs.take e.neededFrames ≠ [] := fun hn => by rw [hn] at hla; simp at hla; omega
        have h1 := Shows.chunk hz ops h hi hg hft hne (by omega)
        rw [if_pos hla] at h1
        have hroom := hi.idx_room hg h.pos
        have hadv := Ebu.advanceP_inv ops hi hft (by omega) (k := 1) (Nat.le_refl 1)
        have hinv := Ebu.completeP_inv hadv.1
        have hsame := hadv.2.trans (Ebu.completeP_sameCfg E (e.advanceP E ops (fs.take e.neededFrames)))
        have h2 := ih h1 hinv (hg.of_same hsame) (fs := fs.drop e.neededFrames)
          (by rw [hsame.channels]; exact hf.drop _) (by rw [List.length_drop]; omega)
        have h3 := Session.addP_piece E (s := s) (xs := (fs.take e.neededFrames).map (·.map ops.toF64))
          (ys := (fs.drop e.neededFrames).map (·.map ops.toF64)) hs0 (by simpa using hne)
          (by rw [List.length_map, hla, hna]; exact Nat.le_refl _) (.inl (by rw [List.length_map, hla, hna]))
        rw [← List.map_append, List.take_append_drop] at h3
        rw [h3]
        exact h2
      · rw [if_neg hle]
        have hne : fs ≠ [] := fun hn => h0 (by rw [hn]; rfl)
        have h1 := Shows.chunk hz ops h hi hg hf hne (by omega)
        rw [if_neg (by omega)] at h1
        have h3 := Session.addP_piece E (s := s) (xs := fs.map (·.map ops.toF64)) (ys := []) hs0 (by simpa using hne)
          (by rw [List.length_map]; omega) (.inr rfl)
        rw [List.append_nil] at h3
        rw [h3]
        exact h1

theorem Shows.call {E : Env D S} (hz : E.f64p.zero = E.f64.zero) (ops : SampleOps D S T) {s : Session D} {e : Ebu D S}
    (h : Shows E s e) (hi : e.Inv E) (hg : e.Good) {fs : List (List T)} (hf : RectF e.channels fs) :
    Shows E (s.addP E (fs.map (·.map ops.toF64))) (e.addP E ops fs) := by
  unfold Ebu.addP
  by_cases h0 : fs.length = 0
  · rw [if_pos h0, List.eq_nil_of_length_eq_zero h0]; exact h
  · rw [if_neg h0]
    have h' : Shows E s { e with filter := e.filter.resetPeaks E } := h.of_strip rfl
    have hg' : ({ e with filter := e.filter.resetPeaks E } : Ebu D S).Good := ⟨hg.gate, hg.short⟩
    exact (Shows.loop hz ops (2 * fs.length + 2) h' (Ebu.resetPeaks_inv hi) hg' hf (by omega)).of_strip rfl

/-! ## A call of `seed_frames` -/

theorem Shows.seed1 {E : Env D S} (hz : E.noFtz = false) (ops : SampleOps D S T) {s : Session D} {e : Ebu D S}
    (h : Shows E s e) (hi : e.Inv E) {f : List T} (hf : f.length = e.channels) :
    Shows E { s with v := s.values E (f.map ops.toF64) } (e.seedP E ops [f]) := by
  have hcol : ∀ c : Nat, c < e.channels → colF64 ops c [f] = [(f.map ops.toF64).getD c E.f64.zero] := by
    intro c hc
    have : f[c]? = some (f[c]'(by omega)) := List.getElem?_eq_getElem _
    simp [colF64, column, this]
  refine ⟨h.mode, h.rate, h.channels, h.window, h.history, h.map, ⟨h.pos.idx, h.pos.needed, h.pos.stc⟩, h.len, ?_,
    h.row, h.blocks, h.shorts⟩
  intro c hc
  have hc' : c < e.channels := hc
  have hch : e.channelMap[c]? = some (e.channelMap[c]'(by rw [hi.map]; exact hc')) := List.getElem?_eq_getElem _
  refine (statesP_get E ops e.filter [f] e.channelMap hch (h.state c hc)).trans ?_
  show _ = some (stateOf E.f64.zero (s.values E (f.map ops.toF64) c))
  unfold chanState Session.values
  by_cases hu : e.channelMap[c]'(by rw [hi.map]; exact hc') = .unused
  · rw [if_pos hu, if_neg (by rw [h.used hch]; simp [hu])]
  · rw [if_neg hu, if_pos ((h.used hch).2 hu), hcol c hc, flushState, if_neg (by rw [hz]; simp)]
    have h3 : e.filter.a = (filterCoefficients E (E.f64.ofInt s.rate)).2 := by rw [h.rate]; exact hi.coef.2
    rw [h3, stateOf_step]

theorem Shows.seed {E : Env D S} (hz : E.noFtz = false) (ops : SampleOps D S T) {s : Session D} {e : Ebu D S}
    (h : Shows E s e) (hi : e.Inv E) {fs : List (List T)} (hf : RectF e.channels fs) :
    Shows E ((fs.map (·.map ops.toF64)).foldl (fun s x => { s with v := s.values E x }) s) (e.seedP E ops fs) := by
  induction fs generalizing s e with
  | nil =>
    refine h.of_strip ?_
    have := Filter.coreP_nil hz ops hi.filter hi.map (cm := e.channelMap)
    unfold Ebu.seedP
    rw [this]
  | cons f fs ih =>
    have hf1 : RectF e.channels [f] := fun g hg => hf g (by simp at hg; simp [hg])
    have h1 := Shows.seed1 hz ops h hi (hf f (by simp))
    have h2 := Ebu.seedP_inv ops hi hf1
    have h3 : e.seedP E ops (f :: fs) = (e.seedP E ops [f]).seedP E ops fs := by
      have := Filter.coreP_append hz ops e.filter [f] fs e.channelMap
      unfold Ebu.seedP
      rw [show f :: fs = [f] ++ fs from rfl, this]
    rw [h3]
    exact ih h1 h2.1 (by rw [h2.2.channels]; exact fun g hg => hf g (by simp [hg]))

/-- The filter values between calls: nothing is left to become zero. -/
def Spec.Session.Calm (E : Env D S) (s : Session D) : Prop := ∀ c, settleAll E (s.v c) = s.v c

theorem calm_settled {E : Env D S} {s : Session D} (h : s.Calm E) : s.settled E = s := by
  unfold Session.settled
  have : (fun c => if s.used c = true then settleAll E (s.v c) else s.v c) = s.v := by
    funext c
    split
    · exact h c
    · rfl
  rw [this]

theorem Shows.seedCall {E : Env D S} (hz : E.f64p.zero = E.f64.zero) (ops : SampleOps D S T) {s : Session D} {e : Ebu D S}
    (h : Shows E s e) (hi : e.Inv E) (hc : s.Calm E) {fs : List (List T)} (hf : RectF e.channels fs) :
    Shows E (s.seed E (fs.map (·.map ops.toF64))) (e.seedP E ops fs) := by
  have h1 := (Shows.seed (E := E.hard) rfl ops h.hard hi.hard hf).soft
  have hss : ∀ (c : Nat) (ch : Channel), (e.seedP E.hard ops fs).channelMap[c]? = some ch →
      (statesP E ops e.filter fs e.channelMap)[c]? =
        ((e.seedP E.hard ops fs).filter.filterState[c]?).map fun st => if ch = .unused then st else flushState E st :=
    fun c ch hc => statesP_flush ops e.filter hi.filter fs hi.map hc
  have h2 := Shows.settle hz h1 hi.map hss
  cases fs with
  | nil =>
    have h4 : Shows E (s.settled E) (e.seedP E ops []) := h2
    rw [calm_settled hc] at h4
    exact h4
  | cons f fs => exact h2

/-! ## The filter values between calls -/

theorem frameP_used (E : Env D S) (s : Session D) (x : List D) (c : Nat) : (s.frameP E x).used c = s.used c := rfl

theorem frameP_rest (E : Env D S) (s : Session D) (x : List D) {c : Nat} (h : s.used c = false) :
    (s.frameP E x).v c = s.v c := by
  show s.values E x c = _
  unfold Session.values
  rw [if_neg (by simp [h])]

theorem settled_calm (E : Env D S) {s : Session D} (h : ∀ c, s.used c = false → settleAll E (s.v c) = s.v c) :
    (s.settled E).Calm E := by
  intro c
  show settleAll E (if s.used c = true then settleAll E (s.v c) else s.v c) = _
  cases hu : s.used c with
  | true =>
    rw [if_pos rfl, settleAll_idem]
    show _ = if s.used c = true then settleAll E (s.v c) else s.v c
    rw [if_pos hu]
  | false =>
    rw [if_neg (by simp), h c hu]
    show _ = if s.used c = true then settleAll E (s.v c) else s.v c
    rw [if_neg (by simp [hu])]

theorem addP_calm (E : Env D S) (xs : List (List D)) : ∀ {s : Session D},
    (∀ c, s.used c = false → settleAll E (s.v c) = s.v c) → xs ≠ [] → (s.addP E xs).Calm E := by
  induction xs with
  | nil => intro s _ h; exact absurd rfl h
  | cons x xs ih =>
    intro s h _
    have h1 : ∀ c, (s.frameP E x).used c = false → settleAll E ((s.frameP E x).v c) = (s.frameP E x).v c := by
      intro c hc
      rw [frameP_rest E s x hc]
      exact h c hc
    rw [Session.addP]
    cases xs with
    | nil => rw [if_pos (by simp)]; exact settled_calm E h1
    | cons y ys =>
      split
      · exact ih (fun c _ => settled_calm E h1 c) (by simp)
      · exact ih h1 (by simp)

theorem seed_calm (E : Env D S) {s : Session D} (h : s.Calm E) (xs : List (List D)) : (s.seed E xs).Calm E := by
  cases xs with
  | nil => exact h
  | cons x xs =>
    have key : ∀ (xs : List (List D)) (s : Session D), (∀ c, s.used c = false → settleAll E (s.v c) = s.v c) →
        ∀ c, (xs.foldl (fun s x => { s with v := s.values E x }) s).used c = false →
          settleAll E ((xs.foldl (fun s x => { s with v := s.values E x }) s).v c) =
            (xs.foldl (fun s x => { s with v := s.values E x }) s).v c := by
      intro xs
      induction xs with
      | nil => intro s h; exact h
      | cons x xs ih =>
        intro s h
        refine ih _ ?_
        intro c hc
        have hc' : s.used c = false := hc
        show settleAll E (s.values E x c) = s.values E x c
        unfold Session.values
        rw [if_neg (by simp [hc'])]
        exact h c hc'
    exact settled_calm E (key (x :: xs) s fun c _ => h c)

/-! ## Any call -/

theorem clampMs_eq {mode : Mode} (h : mode.contains Mode.M = true) (w : Nat) : clampMs mode w = max w (minWindow mode) := by
  unfold clampMs minWindow
  rw [if_pos h]
  split <;> rfl

theorem delivered_frames (E : Env D S) (n : Nat) (x : Input D S) :
    delivered E n (.addFrames x) = (framesOf E n x).map (fun f => ⟨true, f⟩) ∧
      delivered E n (.seedFrames x) = (framesOf E n x).map (fun f => ⟨false, f⟩) := by
  unfold framesOf
  simp only [delivered]
  split <;> exact ⟨rfl, rfl⟩

theorem events_inj {b : Bool} {l l' : List (List D)} (h : (l.map fun f => (⟨b, f⟩ : Event D)) = l'.map fun f => ⟨b, f⟩) :
    l = l' := by
  have := congrArg (List.map Event.frame) h
  simpa [List.map_map, Function.comp_def] using this

theorem events_cross {b b' : Bool} (hb : b ≠ b') {l l' : List (List D)}
    (h : (l.map fun f => (⟨b, f⟩ : Event D)) = l'.map fun f => ⟨b', f⟩) : l = [] ∧ l' = [] := by
  cases l with
  | nil => exact ⟨rfl, by simpa using h.symm⟩
  | cons a l =>
    cases l' with
    | nil => simp at h
    | cons a' l' =>
      rw [List.map_cons, List.map_cons] at h
      exact absurd (congrArg Event.measured (List.cons.inj h).1) hb

theorem Blank.shows {E : Env D S} {e : Ebu D S} (h : e.Blank E) (hi : e.Inv E) {s : Session D}
    (hm : s.mode = e.mode) (hr : s.rate = e.rate) (hc : s.channels = e.channels) (hw : s.window = e.window)
    (hh : s.history = e.history) (hmap : s.map = e.channelMap) (hn : s.n = 0) (hv : ∀ c, s.v c = []) (hy : ∀ c, s.y c = [])
    (hb : s.blocks = e.blockEnergyHistory) (hs : s.shorts = e.shortTermBlockEnergyHistory) : Shows E s e := by
  have hs0 : 0 < e.samplesIn100ms := by rw [hi.s100]; exact s100_pos hi.rate16
  refine ⟨hm, hr, hc, hw, hh, hmap, ⟨?_, ?_, ?_⟩, fun c => by rw [hy, hn]; rfl, ?_, ?_, hb, hs⟩
  · rw [h.idx, hn]; simp
  · rw [h.needed, hn, needAt, if_pos (by omega)]; omega
  · rw [h.stc, hn, stcAt]; simp; omega
  · intro c hc
    rw [h.state, List.getElem?_replicate, if_pos hc, hv]
    rfl
  · intro c hc
    rw [h.rows hi, List.getElem?_replicate, if_pos hc, hn, Nat.zero_mod, ringOf_zero, hy]
    simp [lastN]

theorem rows_silent {E : Env D S} {e : Ebu D S} (hi : e.Inv E)
    (h : e.audioData = List.replicate (e.channels * e.ring) E.f64.zero) :
    e.rows = List.replicate e.channels (List.replicate e.ring E.f64.zero) := by
  have h1 := hi.rows_spec
  rw [List.eq_replicate_iff]
  refine ⟨h1.1, fun r hr => ?_⟩
  rw [List.eq_replicate_iff]
  refine ⟨h1.2.1 r hr, fun x hx => ?_⟩
  have : x ∈ e.rows.flatten := List.mem_flatten.2 ⟨r, hr, hx⟩
  rw [h1.2.2, h] at this
  exact List.eq_of_mem_replicate this

theorem settleAll_nil (E : Env D S) : settleAll E ([] : List D) = [] := rfl

theorem Shows.step {E : Env D S} (hz : E.f64p.zero = E.f64.zero) (h64 : 2 ^ 64 - 1 ≤ E.usizeMax) {s : Session D}
    {e e' : Ebu D S} (h : Shows E s e) (hc : s.Calm E) (h2 : e.Inv2 E) {op : Op D S}
    (ha : Feed op → Adequate e.mode e.rate e.window) {r : Except Error Unit} (hs : step E e op = .done (e', r)) :
    ∃ s', s.step E op = .done s' ∧ Shows E s' e' ∧ s'.Calm E := by
  have hi := h2.inv
  cases op with
  | addFrames x =>
    have hg := hi.good_iff.2 (ha trivial)
    have hd := (delivered_frames E e.channels x).1
    have hb : s.blocks.Inv := by rw [h.blocks]; exact hi.hist
    have hsh : s.shorts.Inv := by rw [h.shorts]; exact hi.stHist
    refine ⟨_, Session.add_eq E _ hb hsh, ?_⟩
    rw [h.channels]
    rcases Feed.effect hi hg h.pos (by trivial) hs with ⟨h1, rfl⟩ | ⟨T, ops, fs, hf, h1, rfl⟩ | ⟨T, ops, fs, hf, h1, rfl⟩
    · rw [h1] at hd
      rw [List.map_eq_nil_iff.1 hd.symm]
      exact ⟨h, hc⟩
    · have h3 : framesOf E e.channels x = fs.map (·.map ops.toF64) := by
        rw [h1] at hd
        have : (fs.map fun f => (⟨true, f.map ops.toF64⟩ : Event D)) = (fs.map (·.map ops.toF64)).map fun f => ⟨true, f⟩ := by
          rw [List.map_map]; rfl
        exact (events_inj (this.symm.trans hd)).symm
      rw [h3]
      refine ⟨Shows.call hz ops h hi hg hf, ?_⟩
      by_cases h0 : fs = []
      · subst h0; exact hc
      · exact addP_calm E _ (fun c _ => hc c) (by simpa using h0)
    · rw [h1] at hd
      have : (fs.map fun f => (⟨false, f.map ops.toF64⟩ : Event D)) = (fs.map (·.map ops.toF64)).map fun f => ⟨false, f⟩ := by
        rw [List.map_map]; rfl
      obtain ⟨h4, h5⟩ := events_cross (by simp) (this.symm.trans hd)
      rw [h5]
      have h6 : fs = [] := List.map_eq_nil_iff.1 h4
      subst h6
      exact ⟨Shows.seedCall hz ops h hi hc hf, hc⟩
  | seedFrames x =>
    have hg := hi.good_iff.2 (ha trivial)
    have hd := (delivered_frames E e.channels x).2
    refine ⟨_, rfl, ?_, seed_calm E hc _⟩
    rw [h.channels]
    rcases Feed.effect hi hg h.pos (by trivial) hs with ⟨h1, rfl⟩ | ⟨T, ops, fs, hf, h1, rfl⟩ | ⟨T, ops, fs, hf, h1, rfl⟩
    · rw [h1] at hd
      rw [List.map_eq_nil_iff.1 hd.symm]
      exact h
    · rw [h1] at hd
      have : (fs.map fun f => (⟨true, f.map ops.toF64⟩ : Event D)) = (fs.map (·.map ops.toF64)).map fun f => ⟨true, f⟩ := by
        rw [List.map_map]; rfl
      obtain ⟨h4, h5⟩ := events_cross (by simp) (this.symm.trans hd)
      rw [h5]
      have h6 : fs = [] := List.map_eq_nil_iff.1 h4
      subst h6
      exact h
    · have h3 : framesOf E e.channels x = fs.map (·.map ops.toF64) := by
        rw [h1] at hd
        have : (fs.map fun f => (⟨false, f.map ops.toF64⟩ : Event D)) = (fs.map (·.map ops.toF64)).map fun f => ⟨false, f⟩ := by
          rw [List.map_map]; rfl
        exact (events_inj (this.symm.trans hd)).symm
      rw [h3]
      exact Shows.seedCall hz ops h hi hc hf
  | setChannel n v =>
    refine ⟨_, rfl, ?_⟩
    have hcond : (n.toNat < s.channels ∧ (v = .dualMono → s.channels = 1)) ↔
        ¬ e.channels ≤ n.toNat ∧ ¬ (v = .dualMono ∧ (e.channels ≠ 1 ∨ n.toNat ≠ 0)) := by
      rw [h.channels]
      constructor
      · rintro ⟨h1, h2⟩
        refine ⟨by omega, fun ⟨h3, h4⟩ => ?_⟩
        have := h2 h3
        omega
      · rintro ⟨h1, h2⟩
        refine ⟨by omega, fun h3 => ?_⟩
        exact Decidable.byContradiction fun h4 => h2 ⟨h3, .inl h4⟩
    simp only [Verif.step, Ebu.setChannel] at hs
    split at hs
    · next h1 =>
      cases hs
      rw [if_neg (fun hn => (hcond.1 hn).1 h1)]
      exact ⟨h, hc⟩
    · next h1 =>
      split at hs
      · next h3 =>
        cases hs
        rw [if_neg (fun hn => (hcond.1 hn).2 h3)]
        exact ⟨h, hc⟩
      · next h3 =>
        split at hs
        · cases hs
          rw [if_pos (hcond.2 ⟨h1, h3⟩)]
          refine ⟨⟨h.mode, h.rate, h.channels, h.window, h.history, ?_, ⟨h.pos.idx, h.pos.needed, h.pos.stc⟩, h.len,
            h.state, h.row, h.blocks, h.shorts⟩, hc⟩
          show s.map.set _ _ = _
          rw [h.map]
        · cases hs
  | setChannelMap m =>
    refine ⟨_, rfl, ?_⟩
    simp only [Verif.step, Ebu.setChannelMap] at hs
    rw [h.channels]
    split at hs
    · next h1 => cases hs; rw [if_neg (fun hn => h1 hn.1)]; exact ⟨h, hc⟩
    · next h1 =>
      have h1' : m.length = e.channels := Decidable.not_not.1 h1
      split at hs
      · next h3 =>
        cases hs
        rw [if_neg]
        · exact ⟨h, hc⟩
        · rintro ⟨-, hn⟩
          obtain ⟨⟨v, i⟩, hv, hd⟩ := List.any_eq_true.1 h3
          rw [decide_eq_true_iff] at hd
          obtain ⟨rfl, h4⟩ := hd
          have h5 := List.mem_zipIdx_iff_getElem?.1 hv
          have h6 := hn (List.mem_of_getElem? h5)
          have h7 := (List.getElem?_eq_some_iff.1 h5).1
          omega
      · next h3 =>
        split at hs
        · cases hs
          rw [if_pos]
          · exact ⟨⟨h.mode, h.rate, rfl, h.window, h.history, rfl, ⟨h.pos.idx, h.pos.needed, h.pos.stc⟩, h.len,
              h.state, h.row, h.blocks, h.shorts⟩, hc⟩
          · refine ⟨h1', fun hm => ?_⟩
            obtain ⟨i, hi⟩ := List.mem_iff_getElem?.1 hm
            simp only [Bool.not_eq_true, List.any_eq_false, decide_eq_true_eq] at h3
            have := h3 (Channel.dualMono, i) (by rw [List.mem_zipIdx_iff_getElem?]; exact hi)
            simp only [true_and, not_or, Decidable.not_not] at this
            exact this.1
        · cases hs
  | changeParameters c w =>
    refine ⟨_, rfl, ?_⟩
    simp only [Verif.step] at hs
    rw [Ebu.changeParameters_eq hi] at hs
    rw [h.channels, h.rate]
    split at hs
    · next h1 =>
      cases hs
      rw [if_neg (fun hn => by unfold Valid at hn; omega)]
      exact ⟨h, hc⟩
    · next h1 =>
      have hv : Valid c.toNat w.toNat := by unfold Valid; omega
      split at hs
      · next h3 =>
        cases hs
        rw [if_neg (fun hn => hn.2 ⟨h3.2.symm, h3.1.symm⟩)]
        exact ⟨h, hc⟩
      · next h3 =>
        rw [allocate_64 h64 hv.2.1 hv.2.2.2 h2.win32] at hs
        cases hs
        rw [if_pos ⟨hv, fun hn => h3 ⟨hn.2.symm, hn.1.symm⟩⟩]
        refine ⟨Blank.shows (Ebu.changeP_blank e _ _) (Ebu.changeP_inv hi hv.1 hv.2.1 hv.2.2.1 hv.2.2.2) h.mode rfl rfl
          h.window h.history ?_ rfl (fun _ => rfl) (fun _ => rfl) h.blocks h.shorts, fun c => settleAll_nil E⟩
        show (if c.toNat = e.channels then s.map else defaultChannelMap c.toNat) =
          if e.channels ≠ c.toNat then defaultChannelMap c.toNat else e.channelMap
        by_cases h4 : c.toNat = e.channels
        · rw [if_pos h4, if_neg (fun hn => hn h4.symm), h.map]
        · rw [if_neg h4, if_pos (fun hn => h4 hn.symm)]
  | setMaxWindow w =>
    refine ⟨_, rfl, ?_⟩
    have hs0 := hs
    simp only [Verif.step, Ebu.setMaxWindow, clampMs_eq hi.modeM] at hs
    rw [show minWindow e.mode = minWindow s.mode by rw [h.mode]] at hs
    have hlt : max w.toNat (minWindow s.mode) < 2 ^ 32 := by
      rw [← clampMs_eq (by rw [h.mode]; exact hi.modeM)]
      exact clampMs_lt _ w.toNat_lt
    have hinv : e'.Inv E := by
      rcases step_inv2 h2 (.setMaxWindow w) with h' | ⟨e1, r1, h', hi', -⟩
      · rw [hs0] at h'; cases h'
      · rw [hs0] at h'; cases h'; exact hi'.inv
    generalize max w.toNat (minWindow s.mode) = w' at *
    split at hs
    · next h1 => cases hs; rw [if_pos (h1.trans h.window.symm)]; exact ⟨h, hc⟩
    · next h1 =>
      rw [if_neg (fun hn => h1 (hn.trans h.window))]
      rw [allocate_64 h64 hi.ch64 hi.rateMax hlt] at hs
      cases hs
      have hs1 : 0 < e.samplesIn100ms := by rw [hi.s100]; exact s100_pos hi.rate16
      refine ⟨⟨h.mode, h.rate, h.channels, rfl, h.history, h.map, ⟨?_, ?_, ?_⟩, fun _ => rfl, h.state, ?_, h.blocks,
        h.shorts⟩, hc⟩
      · simp
      · show e.samplesIn100ms * 4 = needAt e.samplesIn100ms 0
        rw [needAt, if_pos (by omega)]; omega
      · show 0 = if _ then stcAt e.samplesIn100ms 0 else 0
        rw [stcAt]; simp; omega
      · intro c hc
        rw [rows_silent hinv (by simp only [Ebu.ring, Nat.mul_comm]), List.getElem?_replicate, if_pos hc, Nat.zero_mod,
          ringOf_zero]
        simp [lastN]
  | setMaxHistory w =>
    refine ⟨_, rfl, ?_⟩
    simp only [Verif.step, Ebu.setMaxHistory, clampMs_eq hi.modeM] at hs
    rw [show minWindow e.mode = minWindow s.mode by rw [h.mode]] at hs
    generalize max w.toNat (minWindow s.mode) = w' at *
    split at hs
    · next h1 => cases hs; rw [if_pos (h1.symm.trans h.history.symm)]; exact ⟨h, hc⟩
    · next h1 =>
      cases hs
      rw [if_neg (fun hn => h1 (hn.trans h.history).symm)]
      refine ⟨⟨h.mode, h.rate, h.channels, h.window, rfl, h.map, ⟨h.pos.idx, h.pos.needed, h.pos.stc⟩, h.len,
        h.state, h.row, ?_, ?_⟩, hc⟩
      · show s.blocks.setMaxSize E _ = _
        rw [h.blocks]
      · show s.shorts.setMaxSize E _ = _
        rw [h.shorts]
  | reset =>
    refine ⟨_, rfl, ?_, fun c => settleAll_nil E⟩
    simp only [Verif.step, Run.bind_eq, (Ebu.reset_eq hi).1, Run.done_bind] at hs
    cases hs
    have hb := Ebu.resetP_blank hi
    refine Blank.shows hb (Ebu.reset_eq hi).2 h.mode h.rate h.channels h.window h.history h.map rfl (fun _ => rfl)
      (fun _ => rfl) ?_ ?_
    · show s.blocks.reset = _
      rw [h.blocks]; rfl
    · show s.shorts.reset = _
      rw [h.shorts]; rfl

end Verif
