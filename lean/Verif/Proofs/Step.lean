import Verif.Proofs.Good
/-! # Call histories -/

set_option linter.unusedSimpArgs false

namespace Verif
variable {D S T : Type} {Sm : Type → Type}

/-! ## Decoding the input of a call -/

/-- Frames of interleaved data. -/
abbrev interFrames (n : Nat) (l : List T) : List (List T) := chunksExact n l

/-- Frames of planar data. -/
def planarFrames (l : List (List T)) : List (List T) :=
  (List.range (l.headD []).length).map (planarFrame l)

/-- The layout check accepts interleaved data. -/
def interOk (n : Nat) (l : List T) : Prop := n ≠ 0 ∧ l.length % n = 0
/-- The layout check accepts planar data. -/
def planarOk (l : List (List T)) : Prop := l ≠ [] ∧ ∀ d ∈ l, d.length = (l.headD []).length

theorem interleaved_new_eq (n : Nat) (l : List T) :
    (interOk n l → Interleaved.new l n = .ok ⟨l, n⟩) ∧
      (¬ interOk n l → Interleaved.new l n = .error .noMem) := by
  unfold interOk Interleaved.new
  constructor
  · intro h; rw [if_neg h.1, if_neg (by simpa using h.2)]
  · intro h
    by_cases h1 : n = 0
    · rw [if_pos h1]
    · rw [if_neg h1, if_pos (fun h2 => h ⟨h1, h2⟩)]

theorem planar_new_eq (l : List (List T)) :
    (planarOk l → Planar.new l = .ok ⟨l, 0, (l.headD []).length⟩) ∧
      (¬ planarOk l → Planar.new l = .error .noMem) := by
  unfold planarOk Planar.new
  cases l with
  | nil => simp
  | cons d0 ds =>
    simp only [List.headD_cons]
    constructor
    · intro h
      rw [if_neg]
      simp only [Bool.not_eq_true, List.any_eq_false, decide_eq_true_eq, ne_eq, Decidable.not_not]
      exact fun d hd => (h.2 d hd).symm
    · intro h
      rw [if_pos]
      by_cases h' : ∀ d ∈ d0 :: ds, d.length = d0.length
      · exact absurd ⟨by simp, h'⟩ h
      · have : ∃ d, d ∈ d0 :: ds ∧ ¬ d.length = d0.length := by
          by_cases hx : ∃ d, d ∈ d0 :: ds ∧ ¬ d.length = d0.length
          · exact hx
          · exact absurd (fun d hd => by
              by_cases hy : d.length = d0.length
              · exact hy
              · exact absurd ⟨d, hd, hy⟩ hx) h'
        obtain ⟨d, hd, hne⟩ := this
        rw [List.any_eq_true]
        exact ⟨d, hd, by simpa using fun h => hne h.symm⟩

theorem interOk_wf {n : Nat} {l : List T} (h : interOk n l) :
    LawfulSamples.WF (⟨l, n⟩ : Interleaved T) := h

theorem planarOk_wf {l : List (List T)} (h : planarOk l) :
    LawfulSamples.WF (⟨l, 0, (l.headD []).length⟩ : Planar T) :=
  ⟨h.1, Nat.zero_le _, fun ch hch => Nat.le_of_eq (h.2 ch hch).symm⟩

theorem planar_toFrames (l : List (List T)) :
    LawfulSamples.toFrames (⟨l, 0, (l.headD []).length⟩ : Planar T) = planarFrames l := by
  simp only [LawfulSamples.toFrames, planarFrames, Nat.sub_zero, Nat.zero_add]

/-- A call's frames with their sample type. -/
structure Decoded (D S : Type) where
  T : Type
  ops : SampleOps D S T
  frames : List (List T)

/-- The layout check accepts the input of a call to an analyzer with `n` channels. -/
def Input.Ok (n : Nat) : Input D S → Prop
  | .i16 l => interOk n l
  | .i32 l => interOk n l
  | .f32 l => interOk n l
  | .f64 l => interOk n l
  | .pi16 l => planarOk l
  | .pi32 l => planarOk l
  | .pf32 l => planarOk l
  | .pf64 l => planarOk l

/-- Number of channels in the input of a call to an analyzer with `n` channels. -/
def Input.width (n : Nat) : Input D S → Nat
  | .i16 _ | .i32 _ | .f32 _ | .f64 _ => n
  | .pi16 l => l.length
  | .pi32 l => l.length
  | .pf32 l => l.length
  | .pf64 l => l.length

/-- The frames in the input of a call to an analyzer with `n` channels. -/
def Input.decode (E : Env D S) (n : Nat) : Input D S → Decoded D S
  | .i16 l => ⟨_, i16Ops E, interFrames n l⟩
  | .i32 l => ⟨_, i32Ops E, interFrames n l⟩
  | .f32 l => ⟨_, f32Ops E, interFrames n l⟩
  | .f64 l => ⟨_, f64Ops E, interFrames n l⟩
  | .pi16 l => ⟨_, i16Ops E, planarFrames l⟩
  | .pi32 l => ⟨_, i32Ops E, planarFrames l⟩
  | .pf32 l => ⟨_, f32Ops E, planarFrames l⟩
  | .pf64 l => ⟨_, f64Ops E, planarFrames l⟩

/-! ## Seeding -/

/-- `seed_frames` on a list of frames. -/
def Ebu.seedP (E : Env D S) (ops : SampleOps D S T) (e : Ebu D S) (fs : List (List T)) : Ebu D S :=
  { e with filter := e.filter.coreP E ops fs e.channelMap }

theorem Ebu.seedP_inv {E : Env D S} (ops : SampleOps D S T) {e : Ebu D S} (h : e.Inv E)
    {fs : List (List T)} (hf : RectF e.channels fs) :
    (e.seedP E ops fs).Inv E ∧ e.SameCfg (e.seedP E ops fs) :=
  ⟨{ h with
    filter := (Filter.coreP_inv E ops h.filter h.rect hf h.map).1
    rect := (Filter.coreP_inv E ops h.filter h.rect hf h.map).2
    fresh := by
      simp only [Ebu.seedP]
      rw [Filter.resetP_coreP E ops h.filter fs h.map, h.fresh] },
   ⟨rfl, rfl, rfl, rfl, rfl, rfl, rfl⟩⟩

theorem Ebu.seedFrames_eq [Samples Sm] [LawfulSamples Sm] {E : Env D S} (ops : SampleOps D S T)
    {e : Ebu D S} (h : e.Inv E) {src : Sm T} (hw : LawfulSamples.WF src)
    (hn : Samples.channels src = e.channels) :
    e.seedFrames E ops src = .done (e.seedP E ops (LawfulSamples.toFrames src)) := by
  simp only [Ebu.seedFrames, Run.bind_eq, Filter.seed_eq E ops h.filter hw hn h.map, Run.done_bind,
    Ebu.seedP]

theorem Ebu.seedFrames_panic [Samples Sm] {E : Env D S} (ops : SampleOps D S T)
    {e : Ebu D S} (h : e.Inv E) {src : Sm T} (hn : Samples.channels src ≠ e.channels) :
    e.seedFrames E ops src = .panic := by
  have a2 : e.channelMap.length = e.filter.channels := by rw [h.filter.channels, h.map]
  have hf : Run.assert (Samples.channels src = e.filter.channels) = .panic :=
      if_neg (by rw [h.filter.channels]; exact hn)
  simp only [Ebu.seedFrames, Filter.seed, Run.bind_eq, Run.assert_true a2, Run.done_bind, hf,
    Run.panic_bind]

/-! ## The sixteen input methods -/

theorem Ebu.addInput_err {E : Env D S} {e : Ebu D S} {x : Input D S} (hx : ¬ x.Ok e.channels) :
    e.addInput E x = .done (e, .error .noMem) ∧ e.seedInput E x = .done (e, .error .noMem) := by
  cases x <;>
  first
  | simp only [Ebu.addInput, Ebu.seedInput, Ebu.addInterleaved, Ebu.seedInterleaved,
      (interleaved_new_eq _ _).2 hx, and_self]
  | simp only [Ebu.addInput, Ebu.seedInput, Ebu.addPlanar, Ebu.seedPlanar, (planar_new_eq _).2 hx,
      and_self]

theorem Ebu.addInput_cases {E : Env D S} {e : Ebu D S} (h : e.Inv E) (x : Input D S) :
    e.addInput E x = .panic ∨
      ∃ e' r, e.addInput E x = .done (e', r) ∧ e'.Inv E ∧ e.SameCfg e' := by
  by_cases hx : x.Ok e.channels
  · cases x <;>
    first
    | simp only [Ebu.addInput, Ebu.addInterleaved, (interleaved_new_eq _ _).1 hx]
    | simp only [Ebu.addInput, Ebu.addPlanar, (planar_new_eq _).1 hx]
    · exact Ebu.addFrames_cases _ h (interOk_wf hx)
    · exact Ebu.addFrames_cases _ h (interOk_wf hx)
    · exact Ebu.addFrames_cases _ h (interOk_wf hx)
    · exact Ebu.addFrames_cases _ h (interOk_wf hx)
    · exact Ebu.addFrames_cases _ h (planarOk_wf hx)
    · exact Ebu.addFrames_cases _ h (planarOk_wf hx)
    · exact Ebu.addFrames_cases _ h (planarOk_wf hx)
    · exact Ebu.addFrames_cases _ h (planarOk_wf hx)
  · right
    exact ⟨_, _, (Ebu.addInput_err hx).1, h, Ebu.SameCfg.refl e⟩

theorem interFrames_rect {n : Nat} {l : List T} (h : interOk n l) : RectF n (interFrames n l) :=
  (chunksExact_rect h.1 l h.2).1

theorem planarFrames_rect {l : List (List T)} (h : planarOk l) : RectF l.length (planarFrames l) := by
  have := LawfulSamples.rect (planarOk_wf h)
  rw [planar_toFrames] at this
  exact this

theorem Input.decode_rect (E : Env D S) {n : Nat} {x : Input D S} (h : x.Ok n) :
    RectF (x.width n) (x.decode E n).frames := by
  cases x
  · exact interFrames_rect h
  · exact interFrames_rect h
  · exact interFrames_rect h
  · exact interFrames_rect h
  · exact planarFrames_rect h
  · exact planarFrames_rect h
  · exact planarFrames_rect h
  · exact planarFrames_rect h

theorem Ebu.addInput_eq {E : Env D S} {e : Ebu D S} (h : e.Inv E) (hg : e.Good) {n : Nat}
    (hp : e.PosAt n) {x : Input D S} (hx : x.Ok e.channels) (hw : x.width e.channels = e.channels) :
    let d := x.decode E e.channels
    e.addInput E x = .done (e.addP E d.ops d.frames, .ok ()) ∧ (e.addP E d.ops d.frames).Inv E ∧
      e.SameCfg (e.addP E d.ops d.frames) ∧ (e.addP E d.ops d.frames).PosAt (n + d.frames.length) := by
  have inter : ∀ {T : Type} (ops : SampleOps D S T) (l : List T), interOk e.channels l →
      e.addInterleaved E ops l = .done (e.addP E ops (interFrames e.channels l), .ok ()) ∧
      (e.addP E ops (interFrames e.channels l)).Inv E ∧
      e.SameCfg (e.addP E ops (interFrames e.channels l)) ∧
      (e.addP E ops (interFrames e.channels l)).PosAt (n + (interFrames e.channels l).length) := by
    intro T ops l hl
    simp only [Ebu.addInterleaved, (interleaved_new_eq _ _).1 hl]
    exact Ebu.addFrames_eq ops h hg hp (interOk_wf hl) rfl
  have plan : ∀ {T : Type} (ops : SampleOps D S T) (l : List (List T)), planarOk l →
      l.length = e.channels →
      e.addPlanar E ops l = .done (e.addP E ops (planarFrames l), .ok ()) ∧
      (e.addP E ops (planarFrames l)).Inv E ∧
      e.SameCfg (e.addP E ops (planarFrames l)) ∧
      (e.addP E ops (planarFrames l)).PosAt (n + (planarFrames l).length) := by
    intro T ops l hl hc
    simp only [Ebu.addPlanar, (planar_new_eq _).1 hl]
    have := Ebu.addFrames_eq ops h hg hp (planarOk_wf hl) hc
    rw [planar_toFrames] at this
    exact this
  cases x
  · exact inter _ _ hx
  · exact inter _ _ hx
  · exact inter _ _ hx
  · exact inter _ _ hx
  · exact plan _ _ hx hw
  · exact plan _ _ hx hw
  · exact plan _ _ hx hw
  · exact plan _ _ hx hw

theorem Ebu.seedInput_eq {E : Env D S} {e : Ebu D S} (h : e.Inv E) {x : Input D S}
    (hx : x.Ok e.channels) (hw : x.width e.channels = e.channels) :
    let d := x.decode E e.channels
    e.seedInput E x = .done (e.seedP E d.ops d.frames, .ok ()) := by
  have inter : ∀ {T : Type} (ops : SampleOps D S T) (l : List T), interOk e.channels l →
      e.seedInterleaved E ops l = .done (e.seedP E ops (interFrames e.channels l), .ok ()) := by
    intro T ops l hl
    simp only [Ebu.seedInterleaved, (interleaved_new_eq _ _).1 hl, Run.bind_eq,
      Ebu.seedFrames_eq ops h (interOk_wf hl) rfl, Run.done_bind]
    rfl
  have plan : ∀ {T : Type} (ops : SampleOps D S T) (l : List (List T)), planarOk l →
      l.length = e.channels →
      e.seedPlanar E ops l = .done (e.seedP E ops (planarFrames l), .ok ()) := by
    intro T ops l hl hc
    simp only [Ebu.seedPlanar, (planar_new_eq _).1 hl, Run.bind_eq,
      Ebu.seedFrames_eq ops h (planarOk_wf hl) hc, Run.done_bind, planar_toFrames]
  cases x
  · exact inter _ _ hx
  · exact inter _ _ hx
  · exact inter _ _ hx
  · exact inter _ _ hx
  · exact plan _ _ hx hw
  · exact plan _ _ hx hw
  · exact plan _ _ hx hw
  · exact plan _ _ hx hw

theorem Ebu.seedInput_wrong {E : Env D S} {e : Ebu D S} (h : e.Inv E) {x : Input D S}
    (hx : x.Ok e.channels) (hw : x.width e.channels ≠ e.channels) : e.seedInput E x = .panic := by
  have plan : ∀ {T : Type} (ops : SampleOps D S T) (l : List (List T)), planarOk l →
      l.length ≠ e.channels → e.seedPlanar E ops l = .panic := by
    intro T ops l hl hc
    simp only [Ebu.seedPlanar, (planar_new_eq _).1 hl, Run.bind_eq]
    rw [Ebu.seedFrames_panic ops h (by exact hc)]
    rfl
  cases x
  · exact absurd rfl hw
  · exact absurd rfl hw
  · exact absurd rfl hw
  · exact absurd rfl hw
  · exact plan _ _ hx hw
  · exact plan _ _ hx hw
  · exact plan _ _ hx hw
  · exact plan _ _ hx hw

/-- Planar input with the wrong channel count panics unless it has no frames. -/
theorem Ebu.addFrames_wrong [Samples Sm] [LawfulSamples Sm] {E : Env D S} (ops : SampleOps D S T)
    {e : Ebu D S} (h : e.Inv E) {src : Sm T} (hw : LawfulSamples.WF src)
    (hn : Samples.channels src ≠ e.channels) :
    e.addFrames E ops src =
      if Samples.frames src = 0 then .done (e, .ok ()) else .panic := by
  unfold Ebu.addFrames
  split
  · rfl
  · next h0 =>
    rw [if_neg (by have := h.ch1; omega)]
    have hi := Ebu.resetPeaks_inv h
    simp only [Run.bind_eq]
    suffices hs : Ebu.addLoop E ops (2 * Samples.frames src + 2)
        { e with filter := e.filter.resetPeaks E } src = .panic by rw [hs]; rfl
    simp only [Ebu.addLoop, h0, if_false, Run.bind_eq]
    rw [LawfulSamples.frames_eq hw] at h0 ⊢
    split
    · next hle =>
      obtain ⟨a, b, hs, ha, hb, hca, hcb, hfa, hfb⟩ := LawfulSamples.split_eq hw _ hle
      simp only [hs, Run.done_bind, Ebu.blockStep, Run.bind_eq]
      rw [Ebu.processChunk_panic ops hi ha (fun hc => absurd (hca.symm.trans hc) hn)]
      rfl
    · obtain ⟨a, b, hs, ha, hb, hca, hcb, hfa, hfb⟩ :=
        LawfulSamples.split_eq hw _ (Nat.le_refl (LawfulSamples.toFrames src).length)
      simp only [hs, Run.done_bind, Ebu.tailStep, Run.bind_eq]
      rw [Ebu.processChunk_panic ops hi ha (fun hc => absurd (hca.symm.trans hc) hn)]
      rfl

theorem Ebu.addInput_wrong {E : Env D S} {e e' : Ebu D S} (h : e.Inv E) {x : Input D S}
    {r : Except Error Unit} (hx : x.Ok e.channels) (hw : x.width e.channels ≠ e.channels)
    (hs : step E e (.addFrames x) = .done (e', r)) : e' = e ∧ r = .ok () := by
  have plan : ∀ {T : Type} (ops : SampleOps D S T) (l : List (List T)), planarOk l →
      l.length ≠ e.channels → e.addPlanar E ops l = .done (e', r) → e' = e ∧ r = .ok () := by
    intro T ops l hl hc hs
    simp only [Ebu.addPlanar, (planar_new_eq _).1 hl] at hs
    rw [Ebu.addFrames_wrong ops h (planarOk_wf hl) (by exact hc)] at hs
    split at hs
    · cases hs; exact ⟨rfl, rfl⟩
    · cases hs
  cases x
  · exact absurd rfl hw
  · exact absurd rfl hw
  · exact absurd rfl hw
  · exact absurd rfl hw
  · exact plan _ _ hx hw hs
  · exact plan _ _ hx hw hs
  · exact plan _ _ hx hw hs
  · exact plan _ _ hx hw hs

theorem Ebu.seedInput_cases {E : Env D S} {e : Ebu D S} (h : e.Inv E) (x : Input D S) :
    e.seedInput E x = .panic ∨
      ∃ e' r, e.seedInput E x = .done (e', r) ∧ e'.Inv E ∧ e.SameCfg e' := by
  by_cases hx : x.Ok e.channels
  · by_cases hw : x.width e.channels = e.channels
    · right
      have hr := Input.decode_rect E hx
      rw [hw] at hr
      have := Ebu.seedP_inv (x.decode E e.channels).ops h hr
      exact ⟨_, _, Ebu.seedInput_eq h hx hw, this.1, this.2⟩
    · exact .inl (Ebu.seedInput_wrong h hx hw)
  · right
    exact ⟨_, _, (Ebu.addInput_err hx).2, h, Ebu.SameCfg.refl e⟩

/-! ## Any call keeps the invariant -/

theorem Ebu.setChannel_mode {e e' : Ebu D S} {n : Nat} {v : Channel} {r : Except Error Unit}
    (h : e.setChannel n v = .done (e', r)) : e'.mode = e.mode := by
  unfold Ebu.setChannel at h
  split at h
  · cases h; rfl
  · split at h
    · cases h; rfl
    · split at h
      · cases h; rfl
      · cases h

theorem Ebu.setChannelMap_mode {e e' : Ebu D S} {m : List Channel} {r : Except Error Unit}
    (h : e.setChannelMap m = .done (e', r)) : e'.mode = e.mode := by
  unfold Ebu.setChannelMap at h
  split at h
  · cases h; rfl
  · split at h
    · cases h; rfl
    · split at h
      · cases h; rfl
      · cases h

theorem Ebu.setMaxWindow_mode {E : Env D S} {e e' : Ebu D S} {w : Nat} {r : Except Error Unit}
    (h : e.setMaxWindow E w = .done (e', r)) : e'.mode = e.mode := by
  unfold Ebu.setMaxWindow at h
  by_cases hw : clampMs e.mode w = e.window
  · simp only [hw, if_true] at h; cases h; rfl
  · simp only [hw, if_false, Run.bind_eq] at h
    obtain ⟨a, ha, h⟩ := Run.bind_done h
    cases a <;> (cases h; rfl)

theorem Ebu.changeParameters_mode {E : Env D S} {e e' : Ebu D S} (hi : e.Inv E) {c w : Nat}
    {r : Except Error Unit} (h : e.changeParameters E c w = .done (e', r)) : e'.mode = e.mode := by
  rw [Ebu.changeParameters_eq hi] at h
  split at h
  · cases h; rfl
  · split at h
    · cases h; rfl
    · obtain ⟨a, ha, h⟩ := Run.bind_done h
      cases a <;> (cases h; rfl)

theorem step_cases {E : Env D S} {e : Ebu D S} (h : e.Inv E) (op : Op D S) :
    step E e op = .panic ∨
      ∃ e' r, step E e op = .done (e', r) ∧ e'.Inv E ∧ e'.mode = e.mode := by
  cases op with
  | setChannel n v =>
    obtain ⟨e', r, h1, h2⟩ := Ebu.setChannel_inv h n.toNat v
    exact .inr ⟨e', r, h1, h2, Ebu.setChannel_mode h1⟩
  | setChannelMap m =>
    obtain ⟨e', r, h1, h2⟩ := Ebu.setChannelMap_inv h m
    exact .inr ⟨e', r, h1, h2, Ebu.setChannelMap_mode h1⟩
  | changeParameters c r =>
    rcases Ebu.changeParameters_inv h c.toNat r.toNat with h1 | ⟨e', r, h1, h2⟩
    · exact .inl h1
    · exact .inr ⟨e', r, h1, h2, Ebu.changeParameters_mode h h1⟩
  | setMaxWindow w =>
    rcases Ebu.setMaxWindow_inv h w.toNat with h1 | ⟨e', r, h1, h2⟩
    · exact .inl h1
    · exact .inr ⟨e', r, h1, h2, Ebu.setMaxWindow_mode h1⟩
  | setMaxHistory x =>
    refine .inr ⟨(e.setMaxHistory E x.toNat).1, (e.setMaxHistory E x.toNat).2, rfl, Ebu.setMaxHistory_inv h x.toNat, ?_⟩
    unfold Ebu.setMaxHistory
    simp only
    split <;> rfl
  | reset =>
    have := Ebu.reset_eq h
    refine .inr ⟨e.resetP E, .ok (), ?_, this.2, rfl⟩
    simp only [step, Run.bind_eq, this.1, Run.done_bind]
  | addFrames x =>
    rcases Ebu.addInput_cases h x with h1 | ⟨e', r, h1, h2, h3⟩
    · exact .inl h1
    · exact .inr ⟨e', r, h1, h2, h3.mode⟩
  | seedFrames x =>
    rcases Ebu.seedInput_cases h x with h1 | ⟨e', r, h1, h2, h3⟩
    · exact .inl h1
    · exact .inr ⟨e', r, h1, h2, h3.mode⟩

end Verif
