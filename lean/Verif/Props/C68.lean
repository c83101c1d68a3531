import Verif.Proofs.Session
import Verif.Props.C61
import Verif.Props.C12
import Mathlib.Data.List.Rotate
/-!
# C68: every session of calls measures what it should

C13 to C15 and C61 are about an analyzer that is only fed after it was configured.  Here the calls come in any order:
frames, new channel maps, new parameters, new windows, new history lengths and resets.  The analyzer shows, after any
such session, exactly what the session of `Spec/Session.lean` means, which has no ring buffer, no counters and no pieces.
-/

set_option linter.unusedSimpArgs false

namespace Verif
variable {D S : Type}
open Spec

theorem new_shows {E : Env D S} {channels rate : Nat} {mode : Mode} {e : Ebu D S}
    (h : Ebu.new E channels rate mode = .done (.ok e)) :
    Shows E (Session.start E channels rate mode) e ∧ (Session.start (D := D) E channels rate mode).Calm E := by
  have hi := (Ebu.new_inv2 h).inv
  have hb := (Started.new h).blank
  obtain ⟨rfl, -⟩ := Ebu.new_ok h
  exact ⟨Blank.shows hb hi rfl rfl rfl rfl rfl rfl rfl (fun _ => rfl) (fun _ => rfl) rfl rfl, fun c => settleAll_nil E⟩

/-- Frames are only delivered while the buffer holds a block (C08, C09: every configuration from 146 Hz on does). -/
def Spec.Fed (E : Env D S) (e0 : Ebu D S) (ops : List (Op D S)) : Prop :=
  ∀ pre op post e, ops = pre ++ op :: post → runOps E e0 pre = .done e → Feed op → Adequate e.mode e.rate e.window

theorem Shows.run {E : Env D S} (hz : E.f64p.zero = E.f64.zero) (h64 : 2 ^ 64 - 1 ≤ E.usizeMax) {ops : List (Op D S)} :
    ∀ {s : Session D} {e e' : Ebu D S}, Shows E s e → s.Calm E → e.Inv2 E → Fed E e ops → runOps E e ops = .done e' →
      ∃ s', s.run E ops = .done s' ∧ Shows E s' e' ∧ s'.Calm E ∧ e'.Inv2 E := by
  induction ops with
  | nil => intro s e e' h hc h2 _ hrun; cases hrun; exact ⟨s, rfl, h, hc, h2⟩
  | cons op ops ih =>
    intro s e e' h hc h2 ha hrun
    simp only [runOps, Run.bind_eq] at hrun
    obtain ⟨⟨e1, r⟩, h1, h3⟩ := Run.bind_done hrun
    obtain ⟨s1, h4, h5, h6⟩ := Shows.step hz h64 h hc h2 (fun hf => ha [] op ops e rfl rfl hf) h1
    have h7 : e1.Inv2 E := by
      rcases step_inv2 h2 op with h' | ⟨e2, r2, h', hi', -⟩
      · rw [h1] at h'; cases h'
      · rw [h1] at h'; cases h'; exact hi'
    obtain ⟨s', h8, h9⟩ := ih h5 h6 h7 (by
      intro pre op' post e2 he hr hf
      refine ha (op :: pre) op' post e2 (by rw [he]; rfl) ?_ hf
      simp only [runOps, Run.bind_eq, h1, Run.done_bind]
      exact hr) h3
    exact ⟨s', by rw [Session.run, h4, Run.done_bind]; exact h8, h9⟩

/-- From 146 Hz on nothing is to be checked. -/
theorem fed_rates {E : Env D S} {ops : List (Op D S)} :
    ∀ {e0 : Ebu D S}, e0.Inv2 E → 146 ≤ e0.rate → (∀ c r, .changeParameters c r ∈ ops → 146 ≤ r.toNat) → Fed E e0 ops := by
  induction ops with
  | nil => intro e0 _ _ _ pre op post e he; cases pre <;> cases he
  | cons op0 ops ih =>
    intro e0 h2 hr ho pre op post e he hrun hf
    rcases pre with _ | ⟨p, pre⟩
    · cases hrun; exact h2.inv.adequate hr
    · have he1 := (List.cons.inj he).1
      have he2 := (List.cons.inj he).2
      clear he
      subst he1
      simp only [runOps, Run.bind_eq] at hrun
      obtain ⟨⟨e1, r⟩, h1, h3⟩ := Run.bind_done hrun
      have h7 : e1.Inv2 E := by
        rcases step_inv2 h2 op0 with h' | ⟨e2, r2, h', hi', -⟩
        · rw [h1] at h'; cases h'
        · rw [h1] at h'; cases h'; exact hi'
      have h8 : 146 ≤ e1.rate := by
        rcases step_rate h2 h1 with h | ⟨c, r, rfl, h⟩
        · rw [h]; exact hr
        · rw [h]; exact ho c r (List.mem_cons_self ..)
      exact ih h7 h8 (fun c r h => ho c r (List.mem_cons_of_mem _ h)) pre op post e he2 h3 hf

/-- **C68.** After any session of calls the analyzer has the configuration, the recorded blocks and the recorded
short-term blocks of the session's meaning. -/
theorem C68_session {E : Env D S} (hz : E.f64p.zero = E.f64.zero) (h64 : 2 ^ 64 - 1 ≤ E.usizeMax)
    {channels rate : Nat} {mode : Mode} {e0 e : Ebu D S} (hn : Ebu.new E channels rate mode = .done (.ok e0))
    {ops : List (Op D S)} (ha : Fed E e0 ops) (hrun : runOps E e0 ops = .done e) :
    ∃ s, (Session.start E channels rate mode).run E ops = .done s ∧
      (e.mode = s.mode ∧ e.channels = s.channels ∧ e.rate = s.rate ∧ e.window = s.window ∧ e.history = s.history ∧
        e.channelMap = s.map) ∧
      e.blockEnergyHistory = s.blocks ∧ e.shortTermBlockEnergyHistory = s.shorts := by
  obtain ⟨h1, h2⟩ := new_shows hn
  obtain ⟨s, h3, h4, -⟩ := Shows.run hz h64 h1 h2 (Ebu.new_inv2 hn) ha hrun
  exact ⟨s, h3, ⟨h4.mode.symm, h4.channels.symm, h4.rate.symm, h4.window.symm, h4.history.symm, h4.map.symm⟩,
    h4.blocks.symm, h4.shorts.symm⟩

theorem Shows.energy {E : Env D S} {s : Session D} {e : Ebu D S} (h : Shows E s e) (hi : e.Inv E) {N : Nat}
    (hN : N ≤ e.ring) : e.energyP E N = s.energy E N := by
  have hcap : e.ring = capacity s.rate s.window := by rw [h.rate, h.window]; exact hi.ring_eq
  unfold Ebu.energyP Session.energy Spec.energy
  rw [h.map]
  refine energyP_spec ?_ ?_
  · rw [hi.rows_spec.1, ← hi.map]
  · intro c ch row hc hu hr
    have hlt : c < e.channels := by
      have := (List.getElem?_eq_some_iff.1 hc).1
      rw [← hi.map]; exact this
    rw [h.row c hlt] at hr
    cases hr
    have h0 := hi.ring_pos
    have hml : s.n % e.ring < e.ring := Nat.mod_lt _ h0
    rw [h.pos.idx, ringOf_window (L := e.ring) (n := s.n) (lastN_length ..) hN (by omega) (.inl rfl), ← lastN_le _ hN,
      List.take_of_length_le (by rw [h.len]), hcap]
    rfl

theorem Shows.windows {E : Env D S} {s : Session D} {e : Ebu D S} (h : Shows E s e) (hi : e.Inv E) :
    ask E e .loudnessMomentary = .done (if capacity s.rate s.window < 4 * hop s.rate then .error .invalidMode
      else .ok (level E (s.energy E (4 * hop s.rate)))) ∧
    ask E e .loudnessShortterm = .done (if capacity s.rate s.window < 30 * hop s.rate then .error .invalidMode
      else .ok (level E (s.energy E (30 * hop s.rate)))) ∧
    ∀ w : UInt32, ask E e (.loudnessWindow w) =
      .done (if E.usizeMax < s.rate * w.toNat ∨ capacity s.rate s.window < s.rate * w.toNat / 1000 then
          .error .invalidMode
        else .ok (level E (s.energy E (s.rate * w.toNat / 1000)))) := by
  have hcap : e.ring = capacity s.rate s.window := by rw [h.rate, h.window]; exact hi.ring_eq
  have hs : e.samplesIn100ms = hop s.rate := by rw [h.rate]; exact hi.s100
  refine ⟨?_, ?_, fun w => ?_⟩
  · simp only [ask, Ebu.loudnessMomentary_eq hi, hs, Nat.mul_comm (hop s.rate) 4, hcap]
    split
    · rfl
    · rw [h.energy hi (by omega)]; rfl
  · simp only [ask, Ebu.loudnessShortterm_eq hi, hs, Nat.mul_comm (hop s.rate) 30, hcap]
    split
    · rfl
    · rw [h.energy hi (by omega)]; rfl
  · simp only [ask, Ebu.loudnessWindow_eq hi, ← h.rate, hcap]
    split
    · rfl
    · rw [h.energy hi (by omega)]; rfl

/-- **C68.** After any session of calls the momentary, short-term and window loudness are those of the session's
meaning: the level of the last `4 s`, `30 s` and `rate * w / 1000` frames. -/
theorem C68_windows {E : Env D S} (hz : E.f64p.zero = E.f64.zero) (h64 : 2 ^ 64 - 1 ≤ E.usizeMax)
    {channels rate : Nat} {mode : Mode} {e0 e : Ebu D S} (hn : Ebu.new E channels rate mode = .done (.ok e0))
    {ops : List (Op D S)} (ha : Fed E e0 ops) (hrun : runOps E e0 ops = .done e) :
    ∃ s, (Session.start E channels rate mode).run E ops = .done s ∧
      ask E e .loudnessMomentary = .done (if capacity s.rate s.window < 4 * hop s.rate then .error .invalidMode
        else .ok (level E (s.energy E (4 * hop s.rate)))) ∧
      ask E e .loudnessShortterm = .done (if capacity s.rate s.window < 30 * hop s.rate then .error .invalidMode
        else .ok (level E (s.energy E (30 * hop s.rate)))) ∧
      ∀ w : UInt32, ask E e (.loudnessWindow w) =
        .done (if E.usizeMax < s.rate * w.toNat ∨ capacity s.rate s.window < s.rate * w.toNat / 1000 then
            .error .invalidMode
          else .ok (level E (s.energy E (s.rate * w.toNat / 1000)))) := by
  obtain ⟨h1, h2⟩ := new_shows hn
  obtain ⟨s, h3, h4, -, h5⟩ := Shows.run hz h64 h1 h2 (Ebu.new_inv2 hn) ha hrun
  exact ⟨s, h3, h4.windows h5.inv⟩

/-! ## A muted channel -/

theorem headD_rotate (z : D) {w : List D} (h : w ≠ []) : w.drop 1 ++ [w.headD z] = w.rotate 1 := by
  cases w with
  | nil => exact absurd rfl h
  | cons a w => simp

/-- Frames while all channels are unused. -/
theorem muted_frames {E : Env D S} (xs : List (List D)) : ∀ {s : Session D}, (∀ c, s.used c = false) →
    0 < capacity s.rate s.window →
    (s.addP E xs).n = s.n + xs.length ∧ (s.addP E xs).rate = s.rate ∧ (s.addP E xs).window = s.window ∧
      (∀ c, lastN E.f64.zero (capacity s.rate s.window) ((s.addP E xs).y c) =
        (lastN E.f64.zero (capacity s.rate s.window) (s.y c)).rotate xs.length) ∧
      (s.addP E xs).map = s.map ∧ (s.addP E xs).channels = s.channels := by
  induction xs with
  | nil => intro s _ _; exact ⟨rfl, rfl, rfl, fun c => (List.rotate_zero _).symm, rfl, rfl⟩
  | cons x xs ih =>
    intro s hu h0
    have h1 : ∀ t : Session D, t = (s.frameP E x).settled E ∨ t = s.frameP E x →
        (t.addP E xs).n = s.n + (x :: xs).length ∧ (t.addP E xs).rate = s.rate ∧ (t.addP E xs).window = s.window ∧
        (∀ c, lastN E.f64.zero (capacity s.rate s.window) ((t.addP E xs).y c) =
          (lastN E.f64.zero (capacity s.rate s.window) (s.y c)).rotate (x :: xs).length) ∧
        (t.addP E xs).map = s.map ∧ (t.addP E xs).channels = s.channels := by
      intro t ht
      have hr : t.rate = s.rate ∧ t.window = s.window ∧ t.n = s.n + 1 ∧ t.map = s.map ∧ t.channels = s.channels ∧
          t.y = s.signals E x := by
        rcases ht with rfl | rfl <;> exact ⟨rfl, rfl, rfl, rfl, rfl, rfl⟩
      obtain ⟨a1, a2, a3, a4, a5, a6⟩ := hr
      have hut : ∀ c, t.used c = false := by
        intro c
        unfold Session.used
        rw [a4]
        exact hu c
      obtain ⟨b1, b2, b3, b4, b5, b6⟩ := ih hut (by rw [a1, a2]; exact h0)
      refine ⟨by rw [b1, a3, List.length_cons]; omega, b2.trans a1, b3.trans a2, fun c => ?_, b5.trans a4, b6.trans a5⟩
      have := b4 c
      rw [a1, a2, a6] at this
      rw [this]
      unfold Session.signals
      rw [if_neg (by simp [hu c]), lastN_snoc _ h0, headD_rotate, List.rotate_rotate, List.length_cons, Nat.add_comm]
      intro hn
      have h2 := congrArg List.length hn
      rw [lastN_length] at h2
      simp at h2
      omega
    rw [Session.addP]
    split
    · exact h1 _ (.inl rfl)
    · exact h1 _ (.inr rfl)

/-- **C68.** A muted channel keeps its past: set all channels to `Unused`, feed one or more whole buffer lengths of
anything, set the channels back, and the momentary, short-term and window loudness are bit for bit what they were
before, as if nothing had been fed. -/
theorem C68_stale {E : Env D S} (hz : E.f64p.zero = E.f64.zero) (h64 : 2 ^ 64 - 1 ≤ E.usizeMax)
    {channels rate : Nat} {mode : Mode} {e0 e e' : Ebu D S} (hn : Ebu.new E channels rate mode = .done (.ok e0))
    {ops : List (Op D S)} (ha : Fed E e0 ops) (hrun : runOps E e0 ops = .done e)
    (hg : Adequate e.mode e.rate e.window) {x : Input D S}
    (hx : capacity e.rate e.window ∣ (framesOf E e.channels x).length)
    (hrun' : runOps E e [.setChannelMap (List.replicate e.channels .unused), .addFrames x, .setChannelMap e.channelMap] =
      .done e') :
    ask E e' .loudnessMomentary = ask E e .loudnessMomentary ∧
    ask E e' .loudnessShortterm = ask E e .loudnessShortterm ∧
    ∀ w, ask E e' (.loudnessWindow w) = ask E e (.loudnessWindow w) := by
  obtain ⟨h1, h2⟩ := new_shows hn
  obtain ⟨s, h3, h4, h5, h6⟩ := Shows.run hz h64 h1 h2 (Ebu.new_inv2 hn) ha hrun
  have hi := h6.inv
  have hcfg : ∀ (op : Op D S) (a b : Ebu D S) (r : Except Error Unit), step E a op = .done (b, r) →
      (∃ m, op = .setChannelMap m) → b.mode = a.mode ∧ b.rate = a.rate ∧ b.window = a.window := by
    rintro op a b r hs ⟨m, rfl⟩
    simp only [step, Ebu.setChannelMap] at hs
    split at hs
    · cases hs; exact ⟨rfl, rfl, rfl⟩
    · split at hs
      · cases hs; exact ⟨rfl, rfl, rfl⟩
      · split at hs
        · cases hs; exact ⟨rfl, rfl, rfl⟩
        · cases hs
  have hfed : Fed E e [.setChannelMap (List.replicate e.channels .unused), .addFrames x,
      .setChannelMap e.channelMap] := by
    intro pre op post e1 he hr hf
    rcases pre with _ | ⟨p, pre⟩
    · cases he; exact absurd hf id
    · have he1 := (List.cons.inj he).1
      have he2 := (List.cons.inj he).2
      clear he
      subst he1
      rcases pre with _ | ⟨p, pre⟩
      · simp only [runOps, Run.bind_eq] at hr
        obtain ⟨⟨e2, r⟩, h7, h8⟩ := Run.bind_done hr
        cases h8
        obtain ⟨a1, a2, a3⟩ := hcfg _ _ _ _ h7 ⟨_, rfl⟩
        rw [a1, a2, a3]; exact hg
      · have he3 := (List.cons.inj he2).2
        rcases pre with _ | ⟨p, pre⟩
        · have he4 := (List.cons.inj he3).1
          subst he4; exact absurd hf id
        · have := congrArg List.length (List.cons.inj he3).2
          simp at this
  obtain ⟨s', h7, h8, -, h9⟩ := Shows.run hz h64 h4 h5 h6 hfed hrun'
  have hcap : 0 < capacity s.rate s.window := by
    rw [h4.rate, h4.window, ← hi.ring_eq]; exact hi.ring_pos
  have hb : s.blocks.Inv := by rw [h4.blocks]; exact hi.hist
  have hsh : s.shorts.Inv := by rw [h4.shorts]; exact hi.stHist
  simp only [Session.run, Session.step, Run.done_bind] at h7
  rw [if_pos ⟨by rw [List.length_replicate, h4.channels], fun hd => by
    have := List.eq_of_mem_replicate hd; cases this⟩] at h7
  let s1 : Session D := { s with map := List.replicate e.channels .unused }
  have hs1 : s1 = { s with map := List.replicate e.channels .unused } := rfl
  rw [← hs1, Session.add_eq E (s := s1) _ hb hsh, Run.done_bind] at h7
  have hu : ∀ c, s1.used c = false := by
    intro c
    show decide ((List.replicate e.channels Channel.unused).getD c .unused ≠ .unused) = false
    rw [List.getD_eq_getElem?_getD, List.getElem?_replicate]
    split <;> rfl
  obtain ⟨b1, b2, b3, b4, b5, b6⟩ := muted_frames (E := E) (framesOf E s1.channels x) hu hcap
  have hch : (s1.addP E (framesOf E s1.channels x)).channels = e.channels := by rw [b6]; exact h4.channels
  rw [if_pos ⟨by rw [hch, hi.map], fun hd => by rw [hch]; exact hi.dual hd⟩] at h7
  injection h7 with h7
  have hx' : capacity s.rate s.window ∣ (framesOf E s1.channels x).length := by
    rw [h4.rate, h4.window, show s1.channels = e.channels from h4.channels]; exact hx
  obtain ⟨k, hk⟩ := hx'
  have c1 : s'.n = s.n + capacity s.rate s.window * k := by rw [← h7, ← hk]; exact b1
  have c2 : s'.rate = s.rate := by rw [← h7]; exact b2
  have c3 : s'.window = s.window := by rw [← h7]; exact b3
  have c5 : s'.map = s.map := by rw [← h7, h4.map]
  have c4 : ∀ c, lastN E.f64.zero (capacity s.rate s.window) (s'.y c) =
      lastN E.f64.zero (capacity s.rate s.window) (s.y c) := by
    intro c
    have hy : s'.y c = (s1.addP E (framesOf E s1.channels x)).y c := by rw [← h7]
    rw [hy, b4 c, hk, ← List.rotate_mod, lastN_length]
    show (lastN _ _ (s.y c)).rotate (capacity s.rate s.window * k % capacity s.rate s.window) = _
    rw [Nat.mul_mod_right, List.rotate_zero]
  have hen : ∀ N, N ≤ capacity s.rate s.window → s'.energy E N = s.energy E N := by
    intro N hN
    unfold Session.energy Spec.energy
    rw [c2, c3, c5]
    have hsum : (fun c => sumSq E.f64 (readOrder (capacity s.rate s.window) s'.n
        (lastN E.f64.zero N ((s'.y c).take s'.n)))) =
        fun c => sumSq E.f64 (readOrder (capacity s.rate s.window) s.n (lastN E.f64.zero N ((s.y c).take s.n))) := by
      funext c
      rw [List.take_of_length_le (by rw [h8.len]), List.take_of_length_le (by rw [h4.len]),
        lastN_le _ hN, lastN_le E.f64.zero hN (s.y c), c4]
      unfold readOrder
      rw [c1, Nat.add_mul_mod_self_left]
    rw [hsum]
  obtain ⟨w1, w2, w3⟩ := h4.windows hi
  obtain ⟨v1, v2, v3⟩ := h8.windows h9.inv
  rw [c2, c3] at v1 v2
  refine ⟨?_, ?_, fun w => ?_⟩
  · rw [v1, w1]
    split
    · rfl
    · rw [hen _ (by omega)]
  · rw [v2, w2]
    split
    · rfl
    · rw [hen _ (by omega)]
  · have v3' := v3 w
    rw [c2, c3] at v3'
    rw [v3', w3 w]
    split
    · rfl
    · rw [hen _ (by omega)]

/-- A session with every kind of call. -/
def Demo.session : List (Op F64 F32) :=
  [.addFrames (.i16 (List.replicate 9600 1000)), .setChannel 0 .unused, .addFrames (.i16 (List.replicate 9600 1000)),
   .setChannelMap [.left, .right], .seedFrames (.i16 [1, 2]), .setMaxWindow 5000,
   .addFrames (.i16 (List.replicate 40000 1000)), .setMaxHistory 10000, .changeParameters 1 44100,
   .addFrames (.f64 (List.replicate 20000 (Fl.lit Fmt.b64 1 2))), .reset, .setChannel 0 .dualMono,
   .addFrames (.f64 (List.replicate 20000 (Fl.lit Fmt.b64 1 2)))]

/-- The hypotheses of `C68_session` and `C68_windows` hold for it, and the session means something. -/
example : ∃ (e0 e : Ebu F64 F32) (s : Session F64), Ebu.new Demo.env 2 48000 (Mode.I ||| Mode.LRA) = .done (.ok e0) ∧
    Fed Demo.env e0 Demo.session ∧ runOps Demo.env e0 Demo.session = .done e ∧
    (Session.start Demo.env 2 48000 (Mode.I ||| Mode.LRA)).run Demo.env Demo.session = .done s ∧
    e.blockEnergyHistory = s.blocks := by
  obtain ⟨e0, he⟩ := (C01_new_64 Demo.env (Nat.le_refl _) 2 48000 (Mode.I ||| Mode.LRA)).1.2
    ⟨by unfold Spec.ValidArgs; omega, by decide⟩
  obtain ⟨e, h⟩ := C09_plain (Nat.le_refl _) he (by omega) Demo.session (by
    intro op hop
    simp only [Demo.session, List.mem_cons, List.not_mem_nil, or_false] at hop
    rcases hop with rfl | rfl | rfl | rfl | rfl | rfl | rfl | rfl | rfl | rfl | rfl | rfl | rfl <;>
      first | trivial | (show 146 ≤ (44100 : UInt32).toNat; decide))
  have hf : Fed Demo.env e0 Demo.session := by
    refine fed_rates (Ebu.new_inv2 he) (by obtain ⟨rfl, -⟩ := Ebu.new_ok he; show 146 ≤ 48000; omega) ?_
    intro c r hm
    simp only [Demo.session, List.mem_cons, List.not_mem_nil, or_false, reduceCtorEq, false_or,
      Op.changeParameters.injEq] at hm
    rw [hm.2]; decide
  obtain ⟨s, h1, -, h2, -⟩ := C68_session (ieee_zero ..) (Nat.le_refl _) he hf h
  exact ⟨e0, e, s, he, hf, h, h1, h2⟩

/-- Three samples pass while the channel is measured, one while it is not, one after: the unused frame repeats the sample
of one buffer length (here two frames) ago, and the filter does not hear it. -/
example :
    let E := Demo.env
    let s : Session F64 := { Session.start E 1 48000 Mode.M with map := [.center], rate := 20, window := 100 }
    let x := fun k : Int => E.f64.ofInt k
    let f := fun (s : Session F64) (a : F64) => { s with n := s.n + 1, v := s.values E [a], y := s.signals E [a] }
    let a := f (f (f s (x 1)) (x 2)) (x 3)
    let b := f { a with map := [.unused] } (x 100)
    let c := f { b with map := [.center] } (x 4)
    capacity s.rate s.window = 2 ∧ (a.y 0).length = 3 ∧ (a.y 0).getD 1 E.f64.zero ≠ (a.y 0).getD 2 E.f64.zero ∧
    b.y 0 = a.y 0 ++ [(a.y 0).getD 1 E.f64.zero] ∧ c.y 0 = b.y 0 ++ [((f a (x 4)).y 0).getD 3 E.f64.zero] := by
  decide +kernel

theorem addP_config (E : Env D S) (xs : List (List D)) : ∀ s : Session D,
    (s.addP E xs).channels = s.channels ∧ (s.addP E xs).rate = s.rate ∧ (s.addP E xs).window = s.window := by
  induction xs with
  | nil => intro s; exact ⟨rfl, rfl, rfl⟩
  | cons x xs ih =>
    intro s
    simp only [Session.addP]
    split <;> exact ih _

/-- The hypotheses of `C68_stale` at 48 kHz: 200 ms of a signal, then 400 ms of another while muted. -/
example : ∃ e0 e e' : Ebu F64 F32, Ebu.new Demo.env 1 48000 Mode.I = .done (.ok e0) ∧
    runOps Demo.env e0 [.addFrames (.i16 (List.replicate 9600 1000))] = .done e ∧
    runOps Demo.env e [.setChannelMap [.unused], .addFrames (.i16 (List.replicate 19200 30000)),
      .setChannelMap e.channelMap] = .done e' ∧
    ask Demo.env e' .loudnessMomentary = ask Demo.env e .loudnessMomentary := by
  obtain ⟨e0, he⟩ := (C01_new_64 Demo.env (Nat.le_refl _) 1 48000 Mode.I).1.2
    ⟨by unfold Spec.ValidArgs; omega, by decide⟩
  have h0 : e0.channels = 1 ∧ 146 ≤ e0.rate ∧ capacity e0.rate e0.window = 19200 := by
    obtain ⟨rfl, -⟩ := Ebu.new_ok he
    exact ⟨rfl, show 146 ≤ 48000 by omega, by show capacity 48000 (minWindow Mode.I) = 19200; decide⟩
  have h2 := Ebu.new_inv2 he
  obtain ⟨e, hs⟩ : ∃ e, runOps Demo.env e0 [.addFrames (.i16 (List.replicate 9600 1000))] = .done e :=
    C09_plain (Nat.le_refl _) he (by omega) _ (by
      intro op hop; simp only [List.mem_cons, List.not_mem_nil, or_false] at hop; subst hop; trivial)
  obtain ⟨e', hs'⟩ : ∃ e', runOps Demo.env e0 ([.addFrames (.i16 (List.replicate 9600 1000))] ++
      [.setChannelMap [.unused], .addFrames (.i16 (List.replicate 19200 30000)), .setChannelMap e.channelMap]) =
        .done e' :=
    C09_plain (Nat.le_refl _) he (by omega) _ (by
      intro op hop
      simp only [List.mem_cons, List.not_mem_nil, or_false, List.cons_append, List.nil_append] at hop
      rcases hop with rfl | rfl | rfl | rfl <;> trivial)
  have hf : Fed Demo.env e0 [.addFrames (.i16 (List.replicate 9600 1000))] :=
    fed_rates h2 h0.2.1 (by intro c r h; cases List.eq_of_mem_singleton h)
  obtain ⟨e1, hs1, hs2⟩ := runOps_append hs'
  rw [hs] at hs1
  cases hs1
  obtain ⟨h3, h4⟩ := new_shows he
  obtain ⟨s, h5, h6, -, h7⟩ := Shows.run (E := Demo.env) (ieee_zero ..) (Nat.le_refl _) h3 h4 h2 hf hs
  have hc : e.channels = 1 ∧ 146 ≤ e.rate ∧ capacity e.rate e.window = 19200 := by
    simp only [Session.run, Session.step] at h5
    rw [Session.add_eq Demo.env _ (by rw [h3.blocks]; exact h2.inv.hist) (by rw [h3.shorts]; exact h2.inv.stHist),
      Run.done_bind] at h5
    injection h5 with h5
    obtain ⟨a1, a2, a3⟩ := addP_config Demo.env (framesOf Demo.env (Session.start (D := F64) Demo.env 1 48000 Mode.I).channels
      (.i16 (List.replicate 9600 1000))) (Session.start Demo.env 1 48000 Mode.I)
    rw [h5] at a1 a2 a3
    rw [← h6.channels, ← h6.rate, ← h6.window, a1, a2, a3]
    exact ⟨rfl, show 146 ≤ 48000 by omega, by show capacity 48000 (minWindow Mode.I) = 19200; decide⟩
  have hst := C68_stale (ieee_zero ..) (Nat.le_refl _) he hf hs (h7.inv.adequate hc.2.1)
    (x := .i16 (List.replicate 19200 30000)) (by
      rw [hc.1, hc.2.2, framesOf, if_pos (by show (List.replicate 19200 30000).length % 1 = 0; omega)]
      simp only [inputFrames, groups, List.length_map, List.length_range, List.length_replicate]
      decide) (e' := e') (by rw [hc.1]; exact hs2)
  exact ⟨e0, e, e', he, hs, hs2, hst.1⟩

end Verif
