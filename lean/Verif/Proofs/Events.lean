import Verif.Proofs.Values
import Verif.Props.C24
/-!
# States after feeding, as functions of the values heard

`Heard e0 evs e` describes the state `e` after the analyzer in state `e0` has been fed the frames `evs`,
by any calls: the state without peaks is a fold over the frames and the overall peaks are closed forms.
-/

set_option linter.unusedSimpArgs false

namespace Verif
open Fl Spec

variable (m : Libm F64) (bs : BSearch) (t : Target)

/-- A frame, measured (`add_frames`) or only heard (`seed_frames`). -/
abbrev Spec.Ev := Bool × List Val

/-- One frame on a state without peaks. -/
def Ebu.hear (E : Env F64 F32) (e : Ebu F64 F32) (ev : Ev) : Ebu F64 F32 :=
  if ev.1 then e.tickC E valOps ev.2 else { e with filter := e.filter.coreP E valOps [ev.2] e.channelMap }

/-- Keys of the levels of channel `c`. -/
def levKey (c : Nat) (evs : List Ev) : Nat :=
  maxKey (fun ev : Ev => if ev.1 then (match ev.2[c]? with | some v => mkey v.level | none => 0) else 0) evs

/-- What the interpolator of channel `c` hears. -/
def stream (c : Nat) (evs : List Ev) : List (Bool × F32) :=
  evs.filterMap fun ev => ev.2[c]?.map fun v => (ev.1, v.f32)

/-- Key of the interpolated samples at measured positions. -/
def Interp.evKey (ip : Interp F32) : List (Bool × F32) → Nat
  | [] => 0
  | (b, x) :: rest => max (if b then outKey (ip.stepP (ieeeEnv m bs t) [x]).2 else 0)
      (Interp.evKey (ip.adv (ieeeEnv m bs t) [x]) rest)

/-- The interpolator of channel `c`. -/
def Ebu.monoOf (e : Ebu F64 F32) (c : Nat) : Option (Interp F32) := e.filter.tp.bind (·.mono c)

def overKey (e : Ebu F64 F32) (c : Nat) (evs : List Ev) : Nat :=
  match e.monoOf c with
  | some ip => ip.evKey m bs t (stream c evs)
  | none => 0

theorem Interp.evKey_append (ip : Interp F32) (s1 s2 : List (Bool × F32)) :
    ip.evKey m bs t (s1 ++ s2) =
      max (ip.evKey m bs t s1) ((ip.fed m bs t (s1.map Prod.snd)).evKey m bs t s2) := by
  induction s1 generalizing ip with
  | nil => simp [Interp.evKey, Interp.fed]
  | cons b s1 ih =>
    obtain ⟨b, x⟩ := b
    simp only [List.cons_append, Interp.evKey, ih, List.map_cons, Nat.max_assoc]
    rfl

theorem Interp.evKey_true (ip : Interp F32) (xs : List F32) :
    ip.evKey m bs t (xs.map fun x => (true, x)) = ip.peakKey m bs t xs := by
  induction xs generalizing ip with
  | nil => rfl
  | cons x xs ih => simp only [List.map_cons, Interp.evKey, Interp.peakKey, if_true, ih]

theorem Interp.evKey_false (ip : Interp F32) (xs : List F32) :
    ip.evKey m bs t (xs.map fun x => (false, x)) = 0 := by
  induction xs generalizing ip with
  | nil => rfl
  | cons x xs ih =>
    simp only [List.map_cons, Interp.evKey, ih, Bool.false_eq_true, if_false, Nat.max_self]

theorem stream_append (c : Nat) (a b : List Ev) : stream c (a ++ b) = stream c a ++ stream c b := by
  simp [stream]

theorem levKey_append (c : Nat) (a b : List Ev) : levKey c (a ++ b) = max (levKey c a) (levKey c b) :=
  maxKey_append _ a b

theorem stream_mk (c : Nat) (b : Bool) (fs : List (List Val)) :
    stream c (fs.map fun f => (b, f)) = ((column c fs).map Val.f32).map fun x => (b, x) := by
  unfold stream column
  rw [List.filterMap_map, List.map_filterMap, List.map_filterMap]
  congr 1
  funext f
  simp [Function.comp_def]

theorem levKey_true (c : Nat) (fs : List (List Val)) :
    levKey c (fs.map fun f => (true, f)) = maxKey (fun v : Val => mkey v.level) (column c fs) := by
  unfold levKey
  rw [maxKey_map]
  induction fs with
  | nil => rfl
  | cons f fs ih =>
    rw [maxKey_cons, ih]
    simp only [if_true, column, List.filterMap_cons]
    cases h : f[c]? with
    | none => simp
    | some v => simp only [maxKey_cons]

theorem levKey_false (c : Nat) (fs : List (List Val)) : levKey c (fs.map fun f => (false, f)) = 0 := by
  unfold levKey
  rw [maxKey_map]
  apply Nat.le_zero.1
  apply maxKey_le
  intro f _
  simp

/-- `e` is the state after hearing `evs` from the state `e0`, whatever calls delivered them. -/
structure Heard (e0 : Ebu F64 F32) (evs : List Ev) (e : Ebu F64 F32) : Prop where
  same : e0.SameCfg e
  inv : e.Inv (ieeeEnv m bs t)
  pos : ∃ n, e.PosAt n
  strip : t.sse2 = true → e.strip = evs.foldl (Ebu.hear (ieeeEnv m bs t)) e0.strip
  rect : ∀ ev ∈ evs, ev.2.length = e0.channels
  mono : ∀ c, c < e0.channels → e.monoOf c = (e0.monoOf c).map fun ip => ip.fed m bs t ((stream c evs).map Prod.snd)
  peak : ∀ c, c < e0.channels → ∀ {a q A Q : Nat}, EPeak t e0 c a q A Q → ∃ a' q', EPeak t e c a' q'
    (max A (if e0.mode.contains Mode.SAMPLE_PEAK then levKey c evs else 0)) (max Q (overKey m bs t e0 c evs))

variable {m bs t}

theorem Heard.nil {e : Ebu F64 F32} (hi : e.Inv (ieeeEnv m bs t)) (hp : ∃ n, e.PosAt n) : Heard m bs t e [] e where
  same := Ebu.SameCfg.refl e
  inv := hi
  pos := hp
  strip := fun _ => rfl
  rect := by simp
  mono := by intro c _; simp [stream, Interp.fed]
  peak := by
    intro c _ a q A Q h
    refine ⟨a, q, ?_⟩
    have h1 : levKey c [] = 0 := rfl
    have h2 : overKey m bs t e c [] = 0 := by unfold overKey; split <;> rfl
    rw [h1, h2, ite_self, Nat.max_zero, Nat.max_zero]; exact h

theorem Heard.append {e0 e1 e2 : Ebu F64 F32} {a b : List Ev} (h : Heard m bs t e0 a e1) (h' : Heard m bs t e1 b e2) :
    Heard m bs t e0 (a ++ b) e2 where
  same := h.same.trans h'.same
  inv := h'.inv
  pos := h'.pos
  strip := fun hz => by rw [List.foldl_append, ← h.strip hz]; exact h'.strip hz
  rect := by
    intro ev hev
    rcases List.mem_append.1 hev with hev | hev
    · exact h.rect ev hev
    · rw [← h.same.channels]; exact h'.rect ev hev
  mono := by
    intro c hc
    rw [h'.mono c (by rw [h.same.channels]; exact hc), h.mono c hc, Option.map_map, stream_append, List.map_append]
    congr 1
    funext ip
    simp only [Function.comp]
    rw [Interp.fed_append]
  peak := by
    intro c hc i j A Q hp
    obtain ⟨i1, j1, hp1⟩ := h.peak c hc hp
    obtain ⟨i2, j2, hp2⟩ := h'.peak c (by rw [h.same.channels]; exact hc) hp1
    refine ⟨i2, j2, ?_⟩
    rw [h.same.mode] at hp2
    have h1 : overKey m bs t e0 c (a ++ b) = max (overKey m bs t e0 c a) (overKey m bs t e1 c b) := by
      unfold overKey
      rw [h.mono c hc, stream_append]
      cases e0.monoOf c with
      | none => simp
      | some ip => simp only [Option.map_some]; rw [Interp.evKey_append]
    have h2 : (if e0.mode.contains Mode.SAMPLE_PEAK then levKey c (a ++ b) else 0) =
        max (if e0.mode.contains Mode.SAMPLE_PEAK then levKey c a else 0)
          (if e0.mode.contains Mode.SAMPLE_PEAK then levKey c b else 0) := by
      split
      · rw [levKey_append]
      · simp
    rw [h1, h2, ← Nat.max_assoc, ← Nat.max_assoc]
    exact hp2

/-! ## Calls -/

open Classical in
/-- What a feeding call delivers to an analyzer of `n` channels. -/
noncomputable def Spec.evsOf (m : Libm F64) (bs : BSearch) (t : Target) (n : Nat) : Op F64 F32 → List Ev
  | .addFrames x => if WellFormed n x then (vals m bs t n x).map fun f => (true, f) else []
  | .seedFrames x => if WellFormed n x then (vals m bs t n x).map fun f => (false, f) else []
  | _ => []

theorem Heard.of_strip {e e' : Ebu F64 F32} (h1 : e' = e) (hi : e.Inv (ieeeEnv m bs t)) (hp : ∃ n, e.PosAt n) :
    Heard m bs t e [] e' := by
  subst h1; exact Heard.nil hi hp

theorem monoOf_feed {T : Type} {ops : SampleOps F64 F32 T} {g : T → Val} (hv : ValOf t ops g) {e e' : Ebu F64 F32}
    (hi : e.Inv (ieeeEnv m bs t)) {fs : List (List T)} (hf : RectF e.channels fs)
    (htp : e'.filter.tp = e.filter.tp.map (Scanner.feed (ieeeEnv m bs t) ops fs)) {c : Nat} (hc : c < e.channels) :
    e'.monoOf c = (e.monoOf c).map fun ip => ip.fed m bs t ((column c (fs.map (·.map g))).map Val.f32) := by
  unfold Ebu.monoOf
  rw [htp]
  cases h : e.filter.tp with
  | none => rfl
  | some sc =>
    simp only [Option.map_some, Option.bind_some]
    rw [Scanner.mono_feed m bs t ops (hi.filter.tp sc h) (hi.rect sc h) hc hf, column_map, List.map_map]
    congr 1
    funext ip
    congr 1
    exact List.map_congr_left fun x _ => (hv.f32 x).symm

theorem tKey_val {T : Type} {ops : SampleOps F64 F32 T} {g : T → Val} (hv : ValOf t ops g) (e : Ebu F64 F32)
    (fs : List (List T)) (c : Nat) :
    e.filter.tKey m bs t ops fs c = overKey m bs t e c ((fs.map (·.map g)).map fun f => (true, f)) := by
  unfold Filter.tKey overKey Ebu.monoOf
  cases h : e.filter.tp with
  | none => rfl
  | some sc =>
    simp only [Option.bind_some, Scanner.key]
    cases sc.mono c with
    | none => rfl
    | some ip =>
      simp only
      rw [stream_mk, Interp.evKey_true, column_map, List.map_map]
      congr 1
      exact List.map_congr_left fun x _ => (hv.f32 x).symm

theorem foldl_tick_hear {T : Type} {ops : SampleOps F64 F32 T} {g : T → Val} (hv : ValOf t ops g) (E : Env F64 F32)
    (fs : List (List T)) : ∀ e : Ebu F64 F32, fs.foldl (Ebu.tickC E ops) e =
      ((fs.map (·.map g)).map fun f => (true, f)).foldl (Ebu.hear E) e := by
  induction fs with
  | nil => intro e; rfl
  | cons f fs ih =>
    intro e
    simp only [List.foldl_cons, List.map_cons, ih]
    congr 1
    simp only [Ebu.hear, if_true, hv.tickC]

theorem foldl_seed_hear {T : Type} {ops : SampleOps F64 F32 T} {g : T → Val} (hv : ValOf t ops g) {E : Env F64 F32}
    (hz : E.noFtz = false) (fs : List (List T)) : ∀ {e : Ebu F64 F32}, e.Inv E → RectF e.channels fs →
    (e.seedP E ops fs).strip = ((fs.map (·.map g)).map fun f => (false, f)).foldl (Ebu.hear E) e.strip := by
  induction fs with
  | nil =>
    intro e hi _
    simp only [Ebu.seedP, Filter.coreP_nil hz ops hi.filter hi.map]
    rfl
  | cons f fs ih =>
    intro e hi hf
    have hf1 : RectF e.channels [f] := fun g hg => hf g (by simp at hg; simp [hg])
    have h2 := Ebu.seedP_inv ops hi hf1
    have h3 : e.seedP E ops (f :: fs) = (e.seedP E ops [f]).seedP E ops fs := by
      have := Filter.coreP_append hz ops e.filter [f] fs e.channelMap
      unfold Ebu.seedP
      rw [show f :: fs = [f] ++ fs from rfl, this]
    rw [h3, ih h2.1 (by rw [h2.2.channels]; exact fun g hg => hf g (by simp [hg]))]
    simp only [List.map_cons, List.foldl_cons]
    congr 1
    have := hv.coreP E e.strip.filter [f] e.strip.channelMap
    simp only [List.map_cons, List.map_nil] at this
    simp only [Ebu.hear, Bool.false_eq_true, if_false, this]
    rfl

theorem vals_rect {n : Nat} {x : Input F64 F32} (hx : x.Ok n) (hw : x.width n = n) : RectF n (vals m bs t n x) := by
  obtain ⟨g, -, h⟩ := vals_decode m bs t hx
  rw [h]
  have := Input.decode_rect (ieeeEnv m bs t) hx
  rw [hw] at this
  exact rect_map this

/-- A call. -/
theorem Heard.step {e e' : Ebu F64 F32} (hi : e.Inv (ieeeEnv m bs t)) (hg : e.Good)
    (hp : ∃ n, e.PosAt n) {op : Op F64 F32} (hop : Feed op) {r : Except Error Unit}
    (hs : Verif.step (ieeeEnv m bs t) e op = .done (e', r)) : Heard m bs t e (evsOf m bs t e.channels op) e' := by
  have hz' : t.sse2 = true → (ieeeEnv m bs t).noFtz = false := fun hz => by simp [hz]
  obtain ⟨n, hp⟩ := hp
  cases op with
  | addFrames x =>
    have hs' : e.addInput (ieeeEnv m bs t) x = .done (e', r) := hs
    simp only [evsOf]
    by_cases hx : x.Ok e.channels
    · rw [if_pos ((wellFormed_iff hi.ch1 x).1 hx)]
      obtain ⟨g, hv, hvals⟩ := vals_decode m bs t hx
      by_cases hf : x.Fits (ieeeEnv m bs t) e.channels
      · obtain ⟨h1, h2, h3, h4⟩ := Ebu.addInput_eq hi hg hp hx hf.2.1
        rw [h1] at hs'
        cases hs'
        have hn : 0 < frameCount e.channels x := by
          rw [← frames_length (ieeeEnv m bs t) hx]
          exact List.length_pos_iff.2 hf.2.2
        have hrect := hf.rect
        have hst := fun hz => Ebu.strip_addP (hz' hz) (x.decode (ieeeEnv m bs t) e.channels).ops hi hg hp hrect
        have htp : (e.addP (ieeeEnv m bs t) (x.decode (ieeeEnv m bs t) e.channels).ops
            (x.decode (ieeeEnv m bs t) e.channels).frames).filter.tp = e.filter.tp.map (Scanner.feed (ieeeEnv m bs t)
            (x.decode (ieeeEnv m bs t) e.channels).ops (x.decode (ieeeEnv m bs t) e.channels).frames) := by
          rcases step_peaks hi hs with ⟨-, -, u⟩ | ⟨y, hy, hx', h5, -⟩ | ⟨hy, -⟩ | ⟨_, _, hy, -⟩
          · exact absurd hf (u x rfl).1
          · cases hy
            obtain ⟨fed, rest, g1, g2, g3, -⟩ := h5.peak m bs t (decode_amp m bs t _ _) hi hrect
            rw [g2 rfl, List.append_nil] at g1
            rw [g3, ← g1]
          · cases hy
          · cases hy
        refine ⟨h3, h2, ⟨_, h4⟩, ?_, ?_, ?_, ?_⟩
        · intro hz
          rw [hst hz, foldl_tick_hear hv, hvals]
        · intro ev hev
          obtain ⟨f, hf', rfl⟩ := List.mem_map.1 hev
          exact vals_rect hx hf.2.1 f hf'
        · intro c hc
          rw [monoOf_feed hv hi hrect htp hc, stream_mk, List.map_map, hvals]
          congr 1
          funext ip
          congr 1
          exact (List.map_id _).symm
        · intro c hc a q A Q hpk
          obtain ⟨-, -, -, -, -, d, k, g1, g2, g3⟩ := fed_step hi hs hn hc hpk
          refine ⟨d, k, ?_⟩
          have hd : levKey c ((vals m bs t e.channels x).map fun f => (true, f)) =
              maxKey mkey (inputLevels t e.channels c x) := by
            rw [levKey_true, hvals, column_map, maxKey_map, ← inputLevels_key m bs t hx]
            exact maxKey_congr fun y _ => hv.level y
          rw [hd, ← g2, hvals, ← tKey_val hv, ← g3]
          exact g1
      · have hnil : vals m bs t e.channels x = [] ∧ e' = e := by
          rcases step_peaks hi hs with ⟨-, -, u⟩ | ⟨y, hy, hx', -⟩ | ⟨hy, -⟩ | ⟨_, _, hy, -⟩
          · obtain ⟨-, u1, u2⟩ := u x rfl
            refine ⟨?_, u1⟩
            have hr : r = .ok () := by
              cases r with
              | ok u => rfl
              | error y =>
                by_cases hw : x.width e.channels = e.channels
                · rw [(Ebu.addInput_eq hi hg hp hx hw).1] at hs'; cases hs'
                · exact absurd (Ebu.addInput_wrong hi hx hw hs).2 nofun
            rw [hvals, (u2 hr).2]; rfl
          · cases hy; exact absurd hx' hf
          · cases hy
          · cases hy
        rw [hnil.1]
        exact Heard.of_strip hnil.2 hi ⟨n, hp⟩
    · rw [if_neg (fun h => hx ((wellFormed_iff hi.ch1 x).2 h))]
      rw [(Ebu.addInput_err hx).1] at hs'
      cases hs'
      exact Heard.nil hi ⟨n, hp⟩
  | seedFrames x =>
    have hs' : e.seedInput (ieeeEnv m bs t) x = .done (e', r) := hs
    simp only [evsOf]
    by_cases hx : x.Ok e.channels
    · rw [if_pos ((wellFormed_iff hi.ch1 x).1 hx)]
      obtain ⟨g, hv, hvals⟩ := vals_decode m bs t hx
      by_cases hw : x.width e.channels = e.channels
      · rw [Ebu.seedInput_eq hi hx hw] at hs'
        cases hs'
        have hrect := Input.decode_rect (ieeeEnv m bs t) hx
        rw [hw] at hrect
        obtain ⟨h1, h2⟩ := Ebu.seedP_inv (x.decode (ieeeEnv m bs t) e.channels).ops hi hrect
        refine ⟨h2, h1, ⟨n, hp.idx, hp.needed, hp.stc⟩, ?_, ?_, ?_, ?_⟩
        · intro hz
          rw [hvals, foldl_seed_hear hv (hz' hz) _ hi hrect]
        · intro ev hev
          obtain ⟨f, hf', rfl⟩ := List.mem_map.1 hev
          exact vals_rect hx hw f hf'
        · intro c hc
          rw [monoOf_feed hv hi hrect rfl hc, stream_mk, List.map_map, hvals]
          congr 1
          funext ip
          congr 1
          exact (List.map_id _).symm
        · intro c hc a q A Q hpk
          refine ⟨a, q, ?_⟩
          have h3 : overKey m bs t e c ((vals m bs t e.channels x).map fun f => (false, f)) = 0 := by
            unfold overKey
            split
            · rw [stream_mk, Interp.evKey_false]
            · rfl
          rw [levKey_false, h3, ite_self, Nat.max_zero, Nat.max_zero]
          exact ⟨⟨hpk.last.sample, hpk.last.true, hpk.last.key⟩, hpk.sample, hpk.true, hpk.key⟩
      · rw [Ebu.seedInput_wrong hi hx hw] at hs'; cases hs'
    · rw [if_neg (fun h => hx ((wellFormed_iff hi.ch1 x).2 h))]
      rw [(Ebu.addInput_err hx).2] at hs'
      cases hs'
      exact Heard.nil hi ⟨n, hp⟩
  | _ => exact absurd hop id

/-- A history of feeding calls. -/
theorem Heard.run {ops : List (Op F64 F32)} : ∀ {e e' : Ebu F64 F32},
    e.Inv (ieeeEnv m bs t) → e.Good → (∃ n, e.PosAt n) → (∀ op ∈ ops, Feed op) →
    runOps (ieeeEnv m bs t) e ops = .done e' → Heard m bs t e (ops.flatMap (evsOf m bs t e.channels)) e' := by
  induction ops with
  | nil => intro e e' hi _ hp _ h; cases h; exact Heard.nil hi hp
  | cons op ops ih =>
    intro e e' hi hg hp hops hrun
    simp only [runOps, Run.bind_eq] at hrun
    obtain ⟨⟨e1, r⟩, h1, h2⟩ := Run.bind_done hrun
    have h3 := Heard.step hi hg hp (hops op (by simp)) h1
    have h4 := ih h3.inv (hg.of_same h3.same) h3.pos (fun o ho => hops o (by simp [ho])) h2
    rw [h3.same.channels] at h4
    rw [List.flatMap_cons]
    exact h3.append h4

/-! ## Comparing two histories -/

/-- Equal up to the peaks of the last call. -/
structure Ebu.AgreeButLast (e e' : Ebu F64 F32) : Prop where
  strip : e'.strip = e.strip
  sample : e'.samplePeak = e.samplePeak
  true : e'.truePeak = e.truePeak

theorem Heard.peaks {e0 e e' : Ebu F64 F32} (hpk : PkInv t e0) {evs : List Ev} (h : Heard m bs t e0 evs e)
    (h' : Heard m bs t e0 evs e') : e'.samplePeak = e.samplePeak ∧ e'.truePeak = e.truePeak := by
  constructor
  · apply List.ext_getElem?
    intro c
    by_cases hc : c < e0.channels
    · obtain ⟨a, q, A, Q, hp, -⟩ := hpk c hc
      obtain ⟨_, _, h1⟩ := h.peak c hc hp
      obtain ⟨_, _, h2⟩ := h'.peak c hc hp
      rw [h1.sample, h2.sample]
    · rw [List.getElem?_eq_none (by rw [h'.inv.samplePeak, h'.same.channels]; omega),
        List.getElem?_eq_none (by rw [h.inv.samplePeak, h.same.channels]; omega)]
  · apply List.ext_getElem?
    intro c
    by_cases hc : c < e0.channels
    · obtain ⟨a, q, A, Q, hp, -⟩ := hpk c hc
      obtain ⟨_, _, h1⟩ := h.peak c hc hp
      obtain ⟨_, _, h2⟩ := h'.peak c hc hp
      rw [h1.true, h2.true]
    · rw [List.getElem?_eq_none (by rw [h'.inv.truePeak, h'.same.channels]; omega),
        List.getElem?_eq_none (by rw [h.inv.truePeak, h.same.channels]; omega)]

theorem Heard.agree (hz : t.sse2 = true) {e0 e e' : Ebu F64 F32} (hpk : PkInv t e0) {evs : List Ev}
    (h : Heard m bs t e0 evs e) (h' : Heard m bs t e0 evs e') : e.AgreeButLast e' where
  strip := by rw [h.strip hz, h'.strip hz]
  sample := (h.peaks hpk h').1
  true := (h.peaks hpk h').2

end Verif
