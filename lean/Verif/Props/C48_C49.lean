import Verif.Model.Capi
import Verif.Props.C04_C07
/-! # C48, C49: the C interface -/

namespace Verif
variable {D S : Type}

/-- The documented return codes. -/
def Spec.code : Except Error Unit → Nat
  | .ok () => 0
  | .error .noMem => 1
  | .error .invalidMode => 2
  | .error .invalidChannelIndex => 3

/-- `enum channel` of the C header (assets/ebur128.h:25-63). -/
def Spec.header : Channel → Nat
  | .unused => 0
  | .left => 1
  | .right => 2
  | .center => 3
  | .leftSurround => 4
  | .rightSurround => 5
  | .dualMono => 6
  | .mpSC => 7
  | .mmSC => 8
  | .mp060 => 9
  | .mm060 => 10
  | .mp090 => 11
  | .mm090 => 12
  | .mp135 => 13
  | .mm135 => 14
  | .mp180 => 15
  | .up000 => 16
  | .up030 => 17
  | .um030 => 18
  | .up045 => 19
  | .um045 => 20
  | .up090 => 21
  | .um090 => 22
  | .up110 => 23
  | .um110 => 24
  | .up135 => 25
  | .um135 => 26
  | .up180 => 27
  | .tp000 => 28
  | .bp000 => 29
  | .bp045 => 30
  | .bm045 => 31

/-- The channel type a C program means by a value of `enum channel`. -/
def Spec.channelOfInt : Int → Option Channel
  | 0 => some .unused
  | 1 => some .left
  | 2 => some .right
  | 3 => some .center
  | 4 => some .leftSurround
  | 5 => some .rightSurround
  | 6 => some .dualMono
  | 7 => some .mpSC
  | 8 => some .mmSC
  | 9 => some .mp060
  | 10 => some .mm060
  | 11 => some .mp090
  | 12 => some .mm090
  | 13 => some .mp135
  | 14 => some .mm135
  | 15 => some .mp180
  | 16 => some .up000
  | 17 => some .up030
  | 18 => some .um030
  | 19 => some .up045
  | 20 => some .um045
  | 21 => some .up090
  | 22 => some .um090
  | 23 => some .up110
  | 24 => some .um110
  | 25 => some .up135
  | 26 => some .um135
  | 27 => some .up180
  | 28 => some .tp000
  | 29 => some .bp000
  | 30 => some .bp045
  | 31 => some .bm045
  | _ => none

/-- The two directions agree. -/
theorem Spec.channelOfInt_iff (v : Int) (ch : Channel) : Spec.channelOfInt v = some ch ↔ v = Spec.header ch := by
  constructor
  · intro h
    unfold Spec.channelOfInt at h
    split at h <;> cases h <;> rfl
  · rintro rfl
    cases ch <;> rfl

theorem channelTable_header (v : Int) :
    (if v < 0 then none else channelTable[v.toNat]?) = Spec.channelOfInt v := by
  by_cases h : 0 ≤ v ∧ v < 32
  · obtain ⟨n, rfl⟩ := Int.eq_ofNat_of_zero_le h.1
    have hn : n < 32 := by omega
    have key : ∀ n : Fin 32, (if ((n : Nat) : Int) < 0 then none else channelTable[((n : Nat) : Int).toNat]?) =
        Spec.channelOfInt (n : Nat) := by decide
    exact key ⟨n, hn⟩
  · have h2 : Spec.channelOfInt v = none := by
      cases hc : Spec.channelOfInt v with
      | none => rfl
      | some ch =>
        have := (Spec.channelOfInt_iff v ch).1 hc
        have h3 : Spec.header ch < 32 := by cases ch <;> decide
        omega
    rw [h2]
    split
    · rfl
    · rw [List.getElem?_eq_none]
      show 32 ≤ v.toNat
      omega

/-- The Rust call a C call stands for; `none` when the C caller broke the contract (a value that is no
channel type, or less memory than announced). -/
def Spec.rustOp (s : CState D S) : COp D S → Option (Op D S)
  | .setChannel n v => (Spec.channelOfInt v).map fun v => .setChannel n v
  | .changeParameters c r => some (.changeParameters c (UInt32.ofNat r))
  | .setMaxWindow w => some (.setMaxWindow (UInt32.ofNat w))
  | .setMaxHistory h => some (.setMaxHistory (UInt32.ofNat h))
  | .addShort mem n =>
    if n * s.internal.channels ≤ mem.length then
      some (.addFrames (.i16 (mem.take (n * s.internal.channels)))) else none
  | .addInt mem n =>
    if n * s.internal.channels ≤ mem.length then
      some (.addFrames (.i32 (mem.take (n * s.internal.channels)))) else none
  | .addFloat mem n =>
    if n * s.internal.channels ≤ mem.length then
      some (.addFrames (.f32 (mem.take (n * s.internal.channels)))) else none
  | .addDouble mem n =>
    if n * s.internal.channels ≤ mem.length then
      some (.addFrames (.f64 (mem.take (n * s.internal.channels)))) else none

/-- Sizes the interface refuses with `NoMem` before calling into Rust. -/
def Spec.TooBig (E : Env D S) (s : CState D S) : COp D S → Prop
  | .setMaxWindow w => 2 ^ 32 ≤ w
  | .setMaxHistory h => 2 ^ 32 ≤ h
  | .addShort _ n | .addInt _ n | .addFloat _ n | .addDouble _ n => E.usizeMax < n * s.internal.channels
  | _ => False

/-- The requested setting is the current one. -/
def Spec.NoChange (s : CState D S) : COp D S → Prop
  | .changeParameters c r => c.toNat = s.internal.channels ∧ r = s.samplerate
  | .setMaxWindow w => w = s.internal.window
  | .setMaxHistory h => h = s.internal.history
  | _ => False

/-- States a C program can reach from a successful `ebur128_init`. -/
def CReachable (E : Env D S) (s : CState D S) : Prop :=
  ∃ (c : UInt32) (r : Nat) (mode : BitVec 32) (s0 : CState D S) (ops : List (COp D S)),
    cInit E c.toNat r mode = .done (some s0) ∧ cRun E s0 ops = .done s

/-- What a C state mirrors. -/
structure CState.Mirrors (E : Env D S) (s : CState D S) : Prop where
  reach : Reachable E s.internal
  channels : s.channels = s.internal.channels
  rate : s.internal.rate = s.samplerate % 2 ^ 32

theorem ofNat_toNat {n : Nat} : (UInt32.ofNat n).toNat = n % 2 ^ 32 := UInt32.toNat_ofNat'

/-- The call of an analyzer, as the interface performs it. -/
def Spec.afterCall (s : CState D S) (op : COp D S) (e' : Ebu D S) (res : Except Error Unit) :
    CState D S × Nat :=
  ({ s with
      internal := e'
      channels := e'.channels
      samplerate := match op, res with
        | .changeParameters _ r, .ok () => r
        | _, _ => s.samplerate }, Spec.code res)

theorem resCode_eq (r : Except Error Unit) : resCode r = Spec.code r := by
  rcases r with (_ | _ | _) | _ <;> rfl

theorem changeParameters_ok {E : Env D S} {e e' : Ebu D S} (hr : Reachable E e) {c r : Nat}
    (h : e.changeParameters E c r = .done (e', .ok ())) : e'.channels = c ∧ e'.rate = r := by
  rw [Ebu.changeParameters_eq hr.inv] at h
  split at h
  · cases h
  · split at h
    · next h2 => cases h; exact ⟨h2.2, h2.1⟩
    · obtain ⟨a, -, h⟩ := Run.bind_done h
      cases a <;> cases h
      exact ⟨rfl, rfl⟩

theorem step_channels {E : Env D S} {e e' : Ebu D S} (hr : Reachable E e) {op : Op D S}
    {r : Except Error Unit} (h : step E e op = .done (e', r))
    (hop : (∀ a b, op ≠ .changeParameters a b) ∨ r ≠ .ok ()) : e'.channels = e.channels ∧ e'.rate = e.rate := by
  by_cases hadd : ∀ inp, op ≠ .addFrames inp
  · cases r with
    | error x =>
      rw [C05_config_error hr hadd h]
      exact ⟨rfl, rfl⟩
    | ok u =>
      have hop : ∀ a b, op ≠ .changeParameters a b := hop.resolve_right fun h => h rfl
      cases op with
      | setChannel i v =>
        simp only [step, Ebu.setChannel] at h
        split at h
        · cases h
        · split at h
          · cases h
          · split at h <;> cases h; exact ⟨rfl, rfl⟩
      | setChannelMap m =>
        simp only [step, Ebu.setChannelMap] at h
        split at h
        · cases h
        · split at h
          · cases h
          · split at h <;> cases h; exact ⟨rfl, rfl⟩
      | changeParameters a b => exact absurd rfl (hop a b)
      | setMaxWindow w =>
        simp only [step, Ebu.setMaxWindow] at h
        split at h
        · cases h; exact ⟨rfl, rfl⟩
        · obtain ⟨a, -, h⟩ := Run.bind_done h
          cases a <;> cases h; exact ⟨rfl, rfl⟩
      | setMaxHistory x =>
        simp only [step, Ebu.setMaxHistory] at h
        split at h <;> cases h <;> exact ⟨rfl, rfl⟩
      | reset =>
        simp only [step, Run.bind_eq, (Ebu.reset_eq hr.inv).1, Run.done_bind] at h
        cases h; exact ⟨rfl, rfl⟩
      | addFrames x => exact absurd rfl (hadd x)
      | seedFrames x =>
        by_cases hx : x.Ok e.channels
        · by_cases hw : x.width e.channels = e.channels
          · simp only [step, Ebu.seedInput_eq hr.inv hx hw] at h; cases h; exact ⟨rfl, rfl⟩
          · simp only [step, Ebu.seedInput_wrong hr.inv hx hw] at h; cases h
        · simp only [step, (Ebu.addInput_err hx).2] at h; cases h
  · cases op with
    | addFrames x =>
      rcases Ebu.addInput_cases hr.inv x with h6 | ⟨e3, r3, h6, -, h7⟩
      · simp only [step, h6] at h; cases h
      · simp only [step, h6] at h; cases h; exact ⟨h7.channels, h7.rate⟩
    | _ => exact absurd (fun inp hh => by cases hh) hadd

/-- **C48**, one call: every mutating C function refuses oversized sizes with 1 and unchanged state, reports 4
with unchanged state exactly when the requested setting is the current one, and otherwise performs the
Rust call, returning its code, with the `channels` field updated to the analyzer's channel count. -/
theorem C48_call {E : Env D S} {s : CState D S} (hm : s.Mirrors E) (op : COp D S) :
    (Spec.TooBig E s op → cstep E s op = .done (s, 1)) ∧
    (¬ Spec.TooBig E s op → Spec.NoChange s op → cstep E s op = .done (s, 4)) ∧
    (¬ Spec.TooBig E s op → ¬ Spec.NoChange s op → cstep E s op =
      match Spec.rustOp s op with
      | none => .panic
      | some rop => Run.bind (step E s.internal rop) fun r => .done (Spec.afterCall s op r.1 r.2)) := by
  have hcall : ∀ (op : COp D S) (rop : Op D S) (x : Run (Ebu D S × Except Error Unit)),
      x = step E s.internal rop → (∀ a b, rop ≠ .changeParameters a b) → (∀ a b, op ≠ .changeParameters a b) →
      s.call x = Run.bind x fun r => .done (Spec.afterCall s op r.1 r.2) := by
    intro op rop x hx hop hop2
    simp only [CState.call, Run.bind_eq]
    cases hs : x with
    | panic => rfl
    | hang => rfl
    | done r =>
      have h1 := (step_channels hm.reach (hx ▸ hs : step E s.internal rop = .done (r.1, r.2)) (.inl hop)).1
      simp only [Run.done_bind, Spec.afterCall, resCode_eq, h1, ← hm.channels]
      cases op <;> first | exact absurd rfl (hop2 _ _) | rfl
  have hadd : ∀ {T : Type} (ops : SampleOps D S T) (mem : List T) (n : Nat) (mk : List T → Input D S) (op : COp D S),
      (∀ l, step E s.internal (.addFrames (mk l)) = s.internal.addInterleaved E ops l) →
      (∀ a b, op ≠ .changeParameters a b) →
      (E.usizeMax < n * s.internal.channels → cAddFrames E ops s mem n = .done (s, 1)) ∧
      (¬ E.usizeMax < n * s.internal.channels → cAddFrames E ops s mem n =
        match (if n * s.internal.channels ≤ mem.length then
          some (Op.addFrames (mk (mem.take (n * s.internal.channels)))) else none) with
        | none => .panic
        | some rop => Run.bind (step E s.internal rop) fun r => .done (Spec.afterCall s op r.1 r.2)) := by
    intro T ops mem n mk op hmk hop
    simp only [cAddFrames, hm.channels]
    refine ⟨fun h => by rw [if_pos h]; rfl, fun h => ?_⟩
    rw [if_neg h]
    by_cases hl : n * s.internal.channels ≤ mem.length
    · simp only [if_pos hl, Run.bind_eq, Run.assert_true hl, Run.done_bind]
      rw [hcall op _ _ (hmk _).symm (by intro a b hh; cases hh) hop, hmk]
    · simp only [if_neg hl, Run.bind_eq, Run.assert, Run.panic_bind]
  cases op with
  | setChannel n v =>
    refine ⟨fun h => h.elim, fun _ h => h.elim, fun _ _ => ?_⟩
    simp only [cstep, cSetChannel, transmuteChannel, Spec.rustOp, ← channelTable_header, Run.bind_eq]
    by_cases hv : v < 0
    · simp only [if_pos hv]; rfl
    · simp only [if_neg hv, Run.index]
      cases hc : channelTable[v.toNat]? with
      | none => rfl
      | some c =>
        exact hcall (.setChannel n v) (.setChannel n c) _ rfl (by intro a b hh; cases hh)
          (by intro a b hh; cases hh)
  | changeParameters c r =>
    refine ⟨fun h => h.elim, fun _ h => ?_, fun _ h => ?_⟩
    · obtain ⟨h1, h2⟩ := h
      simp only [cstep, cChangeParameters]
      rw [if_pos ⟨hm.channels.trans h1.symm, h2.symm⟩]
    · simp only [cstep, cChangeParameters]
      rw [if_neg (fun ⟨h1, h2⟩ => h ⟨h1.symm.trans hm.channels, h2.symm⟩)]
      simp only [Spec.rustOp, step, ofNat_toNat, Run.bind_eq]
      show Run.bind (s.internal.changeParameters E c.toNat (r % 2 ^ 32)) _ = _
      cases hs : s.internal.changeParameters E c.toNat (r % 2 ^ 32) with
      | panic => rfl
      | hang => rfl
      | done x =>
        obtain ⟨e', res⟩ := x
        rcases res with err | _
        · have h1 := (step_channels hm.reach (op := .changeParameters c (UInt32.ofNat r)) (e' := e')
            (r := .error err) (by simp only [step, ofNat_toNat]; exact hs) (.inr (by intro hh; cases hh))).1
          simp only [Run.done_bind, Spec.afterCall, h1, ← hm.channels]
          cases err <;> rfl
        · have h1 := changeParameters_ok hm.reach hs
          simp only [Run.done_bind, Spec.afterCall, h1.1]
          rfl
  | setMaxWindow w =>
    simp only [cstep, cSetMaxWindow, Spec.TooBig, Spec.NoChange, Spec.rustOp]
    refine ⟨fun h => by rw [if_pos (by omega)]; rfl, fun h h2 => ?_, fun h h2 => ?_⟩
    · rw [if_neg (by omega), if_pos h2.symm]
    · rw [if_neg (by omega), if_neg (fun hh => h2 hh.symm)]
      have : (UInt32.ofNat w).toNat = w := by rw [ofNat_toNat]; exact Nat.mod_eq_of_lt (by omega)
      have h3 := hcall (.setMaxWindow w) (.setMaxWindow (UInt32.ofNat w)) _ rfl (by intro a b hh; cases hh)
        (by intro a b hh; cases hh)
      rw [← h3]
      simp only [step, this]
  | setMaxHistory h =>
    simp only [cstep, cSetMaxHistory, Spec.TooBig, Spec.NoChange, Spec.rustOp]
    refine ⟨fun h => by rw [if_pos (by omega)]; rfl, fun h h2 => ?_, fun h' h2 => ?_⟩
    · rw [if_neg (by omega), if_pos h2.symm]
    · rw [if_neg (by omega), if_neg (fun hh => h2 hh.symm)]
      have : (UInt32.ofNat h).toNat = h := by rw [ofNat_toNat]; exact Nat.mod_eq_of_lt (by omega)
      have h3 := hcall (.setMaxHistory h) (.setMaxHistory (UInt32.ofNat h)) _ rfl (by intro a b hh; cases hh)
        (by intro a b hh; cases hh)
      rw [← h3]
      simp only [step, this]
  | addShort mem n =>
    have := hadd (i16Ops E) mem n .i16 (.addShort mem n) (fun _ => rfl) (by intro a b hh; cases hh)
    exact ⟨this.1, fun _ h => h.elim, fun h _ => this.2 h⟩
  | addInt mem n =>
    have := hadd (i32Ops E) mem n .i32 (.addInt mem n) (fun _ => rfl) (by intro a b hh; cases hh)
    exact ⟨this.1, fun _ h => h.elim, fun h _ => this.2 h⟩
  | addFloat mem n =>
    have := hadd (f32Ops E) mem n .f32 (.addFloat mem n) (fun _ => rfl) (by intro a b hh; cases hh)
    exact ⟨this.1, fun _ h => h.elim, fun h _ => this.2 h⟩
  | addDouble mem n =>
    have := hadd (f64Ops E) mem n .f64 (.addDouble mem n) (fun _ => rfl) (by intro a b hh; cases hh)
    exact ⟨this.1, fun _ h => h.elim, fun h _ => this.2 h⟩

theorem cstep_mirrors {E : Env D S} {s s' : CState D S} (hm : s.Mirrors E) {op : COp D S} {c : Nat}
    (h : cstep E s op = .done (s', c)) : s'.Mirrors E := by
  obtain ⟨h1, h2, h3⟩ := C48_call hm op
  by_cases ht : Spec.TooBig E s op
  · rw [h1 ht] at h; cases h; exact hm
  · by_cases hn : Spec.NoChange s op
    · rw [h2 ht hn] at h; cases h; exact hm
    · rw [h3 ht hn] at h
      cases hr : Spec.rustOp s op with
      | none => rw [hr] at h; cases h
      | some rop =>
        simp only [hr] at h
        obtain ⟨⟨e', res⟩, hs, h⟩ := Run.bind_done h
        cases h
        refine ⟨hm.reach.step hs, rfl, ?_⟩
        by_cases hc : (∀ a b, rop ≠ .changeParameters a b) ∨ res ≠ .ok ()
        · have h4 := (step_channels hm.reach hs hc).2
          simp only
          rw [h4, hm.rate]
          cases op <;> try rfl
          rcases res with err | _
          · rfl
          · cases hr
            rcases hc with hc | hc
            · exact absurd rfl (hc _ _)
            · exact absurd rfl hc
        · have h6 : res = .ok () := by
            by_cases hh : res = .ok ()
            · exact hh
            · exact absurd (.inr hh) hc
          have h7 : ∃ a b, rop = .changeParameters a b := by
            cases rop <;> first | exact ⟨_, _, rfl⟩ | exact absurd (.inl (by intro a b hh; cases hh)) hc
          obtain ⟨a, b, rfl⟩ := h7
          subst h6
          have h8 := changeParameters_ok hm.reach hs
          simp only
          rw [h8.2]
          cases op with
          | changeParameters c r => cases hr; simp only [ofNat_toNat]
          | setChannel n v =>
            simp only [Spec.rustOp] at hr
            cases hv : Spec.channelOfInt v with
            | none => rw [hv] at hr; cases hr
            | some x => rw [hv] at hr; cases hr
          | setMaxWindow w => cases hr
          | setMaxHistory w => cases hr
          | addShort mem n => simp only [Spec.rustOp] at hr; split at hr <;> cases hr
          | addInt mem n => simp only [Spec.rustOp] at hr; split at hr <;> cases hr
          | addFloat mem n => simp only [Spec.rustOp] at hr; split at hr <;> cases hr
          | addDouble mem n => simp only [Spec.rustOp] at hr; split at hr <;> cases hr

/-- `ebur128_init` is `EbuR128::new` on the low 32 bits of the rate and the low 7 bits of the mode; the null
pointer means an error.  (First half of **C49**.) -/
theorem C49_init {E : Env D S} (c r : Nat) (mode : BitVec 32) :
    cInit E c r mode = Run.bind (Ebu.new E c (r % 2 ^ 32) (mode.truncate 8 &&& 0x7f)) fun x =>
      .done (match x with
        | .ok e => some ⟨mode, c, r, e⟩
        | .error _ => none) := by
  simp only [cInit, Run.bind_eq]
  show Run.bind (Ebu.new E c (r % 2 ^ 32) (mode.truncate 8 &&& 0x7f)) _ = _
  rcases Ebu.new E c (r % 2 ^ 32) (mode.truncate 8 &&& 0x7f) with (_ | _) | _ | _ <;> rfl

theorem cReachable_mirrors {E : Env D S} {s : CState D S} (h : CReachable E s) : s.Mirrors E := by
  obtain ⟨c, r, mode, s0, ops, h0, h1⟩ := h
  have hm : s0.Mirrors E := by
    rw [C49_init] at h0
    obtain ⟨x, hx, h0⟩ := Run.bind_done h0
    cases x with
    | error _ => cases h0
    | ok e =>
      cases h0
      have hr := reachable_new hx
      obtain ⟨rfl, -⟩ := Ebu.new_ok hx
      exact ⟨hr, rfl, rfl⟩
  clear h0
  induction ops generalizing s0 with
  | nil => cases h1; exact hm
  | cons op ops ih =>
    simp only [cRun, Run.bind_eq] at h1
    obtain ⟨⟨s1, code⟩, h2, h3⟩ := Run.bind_done h1
    exact ih s1 h3 (cstep_mirrors hm h2)

/-- **C48**: in every state a C program can reach, the `channels` field is the analyzer's channel count, and
the analyzer is one the Rust interface can reach. -/
theorem C48_mirror {E : Env D S} {s : CState D S} (h : CReachable E s) :
    s.channels = s.internal.channels ∧ Reachable E s.internal :=
  ⟨(cReachable_mirrors h).channels, (cReachable_mirrors h).reach⟩

/-- **C48**, queries: `*out` is written, and 0 returned, exactly when the Rust query returns `Ok`; otherwise
`*out` keeps its content and the code of the error is returned. -/
theorem C48_query {E : Env D S} (s : CState D S) (out : D) (q : Query) :
    cAsk E s out q = Run.bind (ask E s.internal q) fun r =>
      .done (match r with
        | .ok v => (v, 0)
        | .error .noMem => (out, 1)
        | .error .invalidMode => (out, 2)
        | .error .invalidChannelIndex => (out, 3)) := by
  have key : ∀ r : Run (Except Error D), cQuery r out = Run.bind r fun r =>
      .done (match r with
        | .ok v => (v, 0)
        | .error .noMem => (out, 1)
        | .error .invalidMode => (out, 2)
        | .error .invalidChannelIndex => (out, 3)) := by
    intro r
    rcases r with ((_ | _ | _) | _) | _ | _ <;> rfl
  cases q <;> try exact key _
  next w =>
    simp only [cAsk, cLoudnessWindow]
    rw [if_neg (by have := w.toNat_lt; omega)]
    exact key _

/-- **C48**, the queries of several states: they ask the Rust functions about the analyzers of the states, and answer as the
other queries do. -/
theorem C48_multiple {E : Env D S} (ss : List (CState D S)) (out : D) :
    let answer := fun r : Except Error D => match r with
      | .ok v => (v, 0)
      | .error .noMem => (out, 1)
      | .error .invalidMode => (out, 2)
      | .error .invalidChannelIndex => (out, 3)
    (cLoudnessGlobalMultiple E ss out =
      Run.bind (loudnessGlobalMultiple E (ss.map CState.internal)) fun r => .done (answer r)) ∧
    cLoudnessRangeMultiple E ss out =
      Run.bind (ebuLoudnessRangeMultiple E (ss.map CState.internal)) fun r => .done (answer r) := by
  intro answer
  have key : ∀ r : Run (Except Error D), cQuery r out = Run.bind r fun r => .done (answer r) := by
    intro r
    rcases r with ((_ | _ | _) | _) | _ | _ <;> rfl
  exact ⟨key _, key _⟩

/-- **C48**: a window argument beyond 32 bits is `NoMem`. -/
theorem C48_window (E : Env D S) (s : CState D S) (out : D) {w : Nat} (hw : 2 ^ 32 ≤ w) :
    cLoudnessWindow E s w out = .done (out, 1) := by
  unfold cLoudnessWindow
  rw [if_pos (by omega)]; rfl

/-- **C48**, constants: the modes of the crate are the values of `enum mode` of the C header
(assets/ebur128.h:82-99), the channel types those of `enum channel`, and the version the one of the header. -/
theorem C48_header :
    (Mode.M.toNat = 1 <<< 0 ∧ Mode.S.toNat = 1 <<< 1 ||| Mode.M.toNat ∧ Mode.I.toNat = 1 <<< 2 ||| Mode.M.toNat ∧
      Mode.LRA.toNat = 1 <<< 3 ||| Mode.S.toNat ∧ Mode.SAMPLE_PEAK.toNat = 1 <<< 4 ||| Mode.M.toNat ∧
      Mode.TRUE_PEAK.toNat = 1 <<< 5 ||| Mode.M.toNat ||| Mode.SAMPLE_PEAK.toNat ∧ Mode.HISTOGRAM.toNat = 1 <<< 6) ∧
    (∀ v ch, transmuteChannel v = .done ch ↔ v = Spec.header ch) ∧
    cGetVersion = (1, 2, 6) := by
  refine ⟨by decide, fun v ch => ?_, rfl⟩
  rw [← Spec.channelOfInt_iff, ← channelTable_header]
  unfold transmuteChannel
  split
  · simp
  · unfold Run.index
    cases channelTable[v.toNat]? <;> simp

/-- **C49**: the recorded sample rate is the analyzer's rate exactly when it is below 2^32; in any case
the analyzer's rate is its low 32 bits. -/
theorem C49_rate {E : Env D S} {s : CState D S} (h : CReachable E s) :
    s.internal.rate = s.samplerate % 2 ^ 32 ∧
    (s.internal.rate = s.samplerate ↔ s.samplerate < 2 ^ 32) := by
  have hm := (cReachable_mirrors h).rate
  refine ⟨hm, ?_⟩
  rw [hm]
  exact ⟨fun h => by have := Nat.mod_lt s.samplerate (show 0 < 2 ^ 32 by omega); omega, Nat.mod_eq_of_lt⟩

/-- A C state whose recorded rate is wrong: 2^32 + 48000. -/
example : ∃ s : CState F64 F32, CReachable Demo.env s ∧ s.samplerate = 2 ^ 32 + 48000 ∧
    s.internal.rate = 48000 := by
  obtain ⟨e, he, -, h1, h2, -⟩ := demo_new (channels := 2) (rate := 48000) (mode := Mode.I) (by omega) (by decide)
  refine ⟨⟨5, 2, 2 ^ 32 + 48000, e⟩, ⟨2, 2 ^ 32 + 48000, 5, _, [], ?_, rfl⟩, rfl, h2⟩
  rw [C49_init]
  erw [he]
  rfl

/-- The three cases of `C48_call` occur: the current window (400 ms) is reported as no change, an oversized
one as `NoMem` (so asking again for the default unlimited history is `NoMem`, not "no change"), and a
value beyond the table of channel types breaks the contract. -/
example : ∃ s : CState F64 F32, CReachable Demo.env s ∧ Spec.NoChange s (.setMaxWindow 400) ∧
    Spec.TooBig Demo.env s (.setMaxHistory (2 ^ 64 - 1)) ∧ s.internal.history = 2 ^ 64 - 1 ∧
    Spec.rustOp s (.setChannel 0 32) = none ∧ Spec.rustOp s (.setChannel 0 6) = some (.setChannel 0 .dualMono) := by
  obtain ⟨e, he, -, h1, h2, hm, hw⟩ := demo_new (channels := 2) (rate := 48000) (mode := Mode.I) (by omega) (by decide)
  refine ⟨⟨5, 2, 48000, e⟩, ⟨2, 48000, 5, _, [], ?_, rfl⟩, ?_, ?_, ?_, rfl, rfl⟩
  · rw [C49_init]
    erw [he]
    rfl
  · show 400 = e.window
    rw [hw]; decide
  · simp [Spec.TooBig]
  · obtain ⟨rfl, -⟩ := Ebu.new_ok he
    rfl

end Verif
