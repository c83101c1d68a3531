import Verif.Proofs.Safe
/-! # What adding frames does to the histories -/

set_option linter.unusedSimpArgs false

namespace Verif
variable {D S T : Type} {Sm : Type → Type}

/-- Obtained by adding energies one by one. -/
inductive Adds (E : Env D S) (P : D → Prop) : History D → History D → Prop where
  | refl (h : History D) : Adds E P h h
  | snoc {h h' h'' : History D} (x : D) : Adds E P h h' → P x → h'.add E x = .done h'' → Adds E P h h''

theorem Adds.trans {E : Env D S} {P : D → Prop} {a b c : History D} (h : Adds E P a b)
    (h' : Adds E P b c) : Adds E P a c := by
  induction h' with
  | refl => exact h
  | snoc x _ hp hx ih => exact .snoc x ih hp hx

/-- Both histories grew by additions only. -/
structure Ebu.Grown (E : Env D S) (P : D → Prop) (e e' : Ebu D S) : Prop where
  block : Adds E P e.blockEnergyHistory e'.blockEnergyHistory
  short : Adds E P e.shortTermBlockEnergyHistory e'.shortTermBlockEnergyHistory

theorem Ebu.Grown.refl (E : Env D S) (P : D → Prop) (e : Ebu D S) : e.Grown E P e := ⟨.refl _, .refl _⟩
theorem Ebu.Grown.trans {E : Env D S} {P : D → Prop} {a b c : Ebu D S} (h : a.Grown E P b)
    (h' : b.Grown E P c) : a.Grown E P c := ⟨h.block.trans h'.block, h.short.trans h'.short⟩

/-- Energies that a gating block measurement can return. -/
def Measured (E : Env D S) (x : D) : Prop :=
  ∃ fpb l idx cm, calcGatingBlock E fpb l idx cm = .done x

theorem Ebu.processChunk_grown [Samples Sm] {E : Env D S} {ops : SampleOps D S T} {e e' : Ebu D S}
    {src : Sm T} (h : e.processChunk E ops src = .done e') : e.Grown E (Measured E) e' := by
  simp only [Ebu.processChunk, Run.bind_eq] at h
  obtain ⟨x, -, h⟩ := Run.bind_done h
  cases h
  exact ⟨.refl _, .refl _⟩

theorem Ebu.recordGating_grown {E : Env D S} {e e' : Ebu D S} (h : e.recordGating E = .done e') :
    e.Grown E (Measured E) e' := by
  unfold Ebu.recordGating at h
  split at h
  · simp only [Run.bind_eq] at h
    obtain ⟨x, hx, h⟩ := Run.bind_done h
    obtain ⟨y, hy, h⟩ := Run.bind_done h
    cases h
    exact ⟨.snoc x (.refl _) ⟨_, _, _, _, hx⟩ hy, .refl _⟩
  · cases h; exact .refl _ _ _

theorem Ebu.energyInInterval_measured {E : Env D S} {e : Ebu D S} {n : Nat} {x : D}
    (h : e.energyInInterval E n = .done (.ok x)) : Measured E x := by
  simp only [Ebu.energyInInterval, Run.bind_eq] at h
  obtain ⟨-, -, h⟩ := Run.bind_done h
  split at h
  · cases h
  · obtain ⟨y, hy, h⟩ := Run.bind_done h
    cases h
    exact ⟨_, _, _, _, hy⟩

theorem Ebu.recordShortTerm_grown {E : Env D S} {e e' : Ebu D S} {k : Nat} {r : Except Error Unit}
    (h : e.recordShortTerm E k = .done (e', r)) : e.Grown E (Measured E) e' := by
  unfold Ebu.recordShortTerm at h
  split at h
  · dsimp only at h
    split at h
    · simp only [Run.bind_eq] at h
      obtain ⟨x, hx, h⟩ := Run.bind_done h
      cases x with
      | error err => cases h; exact ⟨.refl _, .refl _⟩
      | ok v =>
        obtain ⟨y, hy, h⟩ := Run.bind_done h
        cases h
        exact ⟨.refl _, .snoc v (.refl _) (Ebu.energyInInterval_measured hx) hy⟩
    · cases h; exact ⟨.refl _, .refl _⟩
  · cases h; exact .refl _ _ _

theorem Ebu.blockStep_grown [Samples Sm] {E : Env D S} {ops : SampleOps D S T} {e e' : Ebu D S}
    {src : Sm T} {r : Except Error Unit} (h : e.blockStep E ops src = .done (e', r)) :
    e.Grown E (Measured E) e' := by
  simp only [Ebu.blockStep, Run.bind_eq] at h
  obtain ⟨e1, h1, h⟩ := Run.bind_done h
  obtain ⟨e2, h2, h⟩ := Run.bind_done h
  obtain ⟨⟨e3, r3⟩, h3, h⟩ := Run.bind_done h
  have g1 := Ebu.processChunk_grown h1
  have g2 := Ebu.recordGating_grown h2
  have g3 := Ebu.recordShortTerm_grown h3
  have g : e.Grown E (Measured E) e3 := g1.trans (Ebu.Grown.trans ⟨g2.block, g2.short⟩ g3)
  cases r3 with
  | error err => cases h; exact g
  | ok u => cases h; exact ⟨g.block, g.short⟩

theorem Ebu.addLoop_grown [Samples Sm] {E : Env D S} {ops : SampleOps D S T} {fuel : Nat}
    {e e' : Ebu D S} {src : Sm T} {r : Except Error Unit}
    (h : e.addLoop E ops fuel src = .done (e', r)) : e.Grown E (Measured E) e' := by
  induction fuel generalizing e src with
  | zero => cases h
  | succ fuel ih =>
    simp only [Ebu.addLoop] at h
    split at h
    · cases h; exact .refl _ _ _
    · split at h
      · simp only [Run.bind_eq] at h
        obtain ⟨⟨a, b⟩, -, h⟩ := Run.bind_done h
        obtain ⟨⟨e1, r1⟩, h1, h⟩ := Run.bind_done h
        have g := Ebu.blockStep_grown h1
        cases r1 with
        | error err => cases h; exact g
        | ok u => exact g.trans (ih h)
      · simp only [Run.bind_eq] at h
        obtain ⟨⟨a, b⟩, -, h⟩ := Run.bind_done h
        obtain ⟨e1, h1, h⟩ := Run.bind_done h
        have g : e.Grown E (Measured E) e1 := by
          simp only [Ebu.tailStep, Run.bind_eq] at h1
          obtain ⟨e2, h2, h1⟩ := Run.bind_done h1
          have := Ebu.processChunk_grown h2
          cases h1
          exact ⟨this.block, this.short⟩
        exact g.trans (ih h)

theorem Ebu.addFrames_grown [Samples Sm] {E : Env D S} {ops : SampleOps D S T} {e e' : Ebu D S}
    {src : Sm T} {r : Except Error Unit} (h : e.addFrames E ops src = .done (e', r)) :
    e.Grown E (Measured E) e' := by
  unfold Ebu.addFrames at h
  split at h
  · cases h; exact .refl _ _ _
  · split at h
    · cases h; exact .refl _ _ _
    · simp only [Run.bind_eq] at h
      obtain ⟨⟨e1, r1⟩, h1, h⟩ := Run.bind_done h
      have g := Ebu.addLoop_grown h1
      cases r1 with
      | error err => cases h; exact ⟨g.block, g.short⟩
      | ok u => cases h; exact ⟨g.block, g.short⟩

theorem Ebu.addInput_grown {E : Env D S} {e e' : Ebu D S} {x : Input D S} {r : Except Error Unit}
    (h : e.addInput E x = .done (e', r)) : e.Grown E (Measured E) e' := by
  have inter : ∀ {T : Type} {ops : SampleOps D S T} {l : List T},
      e.addInterleaved E ops l = .done (e', r) → e.Grown E (Measured E) e' := by
    intro T ops l h
    unfold Ebu.addInterleaved at h
    split at h
    · cases h; exact .refl _ _ _
    · exact Ebu.addFrames_grown h
  have plan : ∀ {T : Type} {ops : SampleOps D S T} {l : List (List T)},
      e.addPlanar E ops l = .done (e', r) → e.Grown E (Measured E) e' := by
    intro T ops l h
    unfold Ebu.addPlanar at h
    split at h
    · cases h; exact .refl _ _ _
    · exact Ebu.addFrames_grown h
  cases x
  · exact inter h
  · exact inter h
  · exact inter h
  · exact inter h
  · exact plan h
  · exact plan h
  · exact plan h
  · exact plan h

theorem Ebu.seedInput_hist {E : Env D S} {e e' : Ebu D S} {x : Input D S} {r : Except Error Unit}
    (h : e.seedInput E x = .done (e', r)) : e' = { e with filter := e'.filter } := by
  have seed : ∀ {Sm : Type → Type} {T : Type} [Samples Sm] {ops : SampleOps D S T} {src : Sm T} {e1 : Ebu D S},
      e.seedFrames E ops src = .done e1 → e1 = { e with filter := e1.filter } := by
    intro Sm T _ ops src e1 h
    simp only [Ebu.seedFrames, Run.bind_eq] at h
    obtain ⟨f, -, h⟩ := Run.bind_done h
    cases h; rfl
  have inter : ∀ {T : Type} {ops : SampleOps D S T} {l : List T},
      e.seedInterleaved E ops l = .done (e', r) → e' = { e with filter := e'.filter } := by
    intro T ops l h
    unfold Ebu.seedInterleaved at h
    split at h
    · cases h; rfl
    · simp only [Run.bind_eq] at h
      obtain ⟨e1, h1, h⟩ := Run.bind_done h
      cases h; exact seed h1
  have plan : ∀ {T : Type} {ops : SampleOps D S T} {l : List (List T)},
      e.seedPlanar E ops l = .done (e', r) → e' = { e with filter := e'.filter } := by
    intro T ops l h
    unfold Ebu.seedPlanar at h
    split at h
    · cases h; rfl
    · simp only [Run.bind_eq] at h
      obtain ⟨e1, h1, h⟩ := Run.bind_done h
      cases h; exact seed h1
  cases x
  · exact inter h
  · exact inter h
  · exact inter h
  · exact inter h
  · exact plan h
  · exact plan h
  · exact plan h
  · exact plan h

/-! ## Invariants of the histories along any call history -/

/-- A property of (history, limit) pairs kept by every call. -/
theorem runOps_hist {E : Env D S} (PB PS : Nat → History D → Prop)
    (hadd : ∀ m h h' x, PB m h → h.add E x = .done h' → Measured E x → PB m h')
    (hadd' : ∀ m h h' x, PS m h → h.add E x = .done h' → Measured E x → PS m h')
    {e e' : Ebu D S} (hi : e.Inv2 E) (h1 : PB e.history e.blockEnergyHistory)
    (h2 : PS e.history e.shortTermBlockEnergyHistory) (ops : List (Op D S))
    (hreset : (∀ m h, PB m h → PB m h.reset) ∧ (∀ m h, PS m h → PS m h.reset) ∨ Op.reset ∉ ops)
    (hmax : (∀ m m' h, PB m h → m ≠ m' → PB m' (h.setMaxSize E (m' / 100))) ∧
        (∀ m m' h, PS m h → m ≠ m' → PS m' (h.setMaxSize E (m' / 3000))) ∨
      ∀ m, Op.setMaxHistory m ∉ ops)
    (hr : runOps E e ops = .done e') :
    PB e'.history e'.blockEnergyHistory ∧ PS e'.history e'.shortTermBlockEnergyHistory := by
  induction ops generalizing e with
  | nil => cases hr; exact ⟨h1, h2⟩
  | cons op ops ih =>
    simp only [runOps, Run.bind_eq] at hr
    obtain ⟨⟨e1, r⟩, hs, hr⟩ := Run.bind_done hr
    rcases step_inv2 hi op with h3 | ⟨e2, r2, h3, h4, h5⟩
    · rw [h3] at hs; cases hs
    rw [h3] at hs
    cases hs
    have hmax' : (∀ m m' h, PB m h → m ≠ m' → PB m' (h.setMaxSize E (m' / 100))) ∧
        (∀ m m' h, PS m h → m ≠ m' → PS m' (h.setMaxSize E (m' / 3000))) ∨
      ∀ m, Op.setMaxHistory m ∉ ops := by
      rcases hmax with h | h
      · exact .inl h
      · exact .inr fun m hm => h m (List.mem_cons_of_mem _ hm)
    have hreset' : (∀ m h, PB m h → PB m h.reset) ∧ (∀ m h, PS m h → PS m h.reset) ∨ Op.reset ∉ ops := by
      rcases hreset with h | h
      · exact .inl h
      · exact .inr fun hm => h (List.mem_cons_of_mem _ hm)
    have key : PB e1.history e1.blockEnergyHistory ∧ PS e1.history e1.shortTermBlockEnergyHistory := by
      have grown : ∀ {a b : Ebu D S}, a.Grown E (Measured E) b → b.history = a.history →
          PB a.history a.blockEnergyHistory → PS a.history a.shortTermBlockEnergyHistory →
          PB b.history b.blockEnergyHistory ∧ PS b.history b.shortTermBlockEnergyHistory := by
        intro a b g hh hb hs
        rw [hh]
        constructor
        · have := g.block
          revert this hb
          generalize a.blockEnergyHistory = x
          generalize b.blockEnergyHistory = y
          intro hb g
          induction g with
          | refl => exact hb
          | snoc x _ hp hx ih => exact hadd _ _ _ _ ih hx hp
        · have := g.short
          revert this hs
          generalize a.shortTermBlockEnergyHistory = x
          generalize b.shortTermBlockEnergyHistory = y
          intro hb g
          induction g with
          | refl => exact hb
          | snoc x _ hp hx ih => exact hadd' _ _ _ _ ih hx hp
      cases op with
      | setChannel i v =>
        simp only [step, Ebu.setChannel] at h3
        split at h3
        · cases h3; exact ⟨h1, h2⟩
        · split at h3
          · cases h3; exact ⟨h1, h2⟩
          · split at h3 <;> cases h3
            exact ⟨h1, h2⟩
      | setChannelMap m =>
        simp only [step, Ebu.setChannelMap] at h3
        split at h3
        · cases h3; exact ⟨h1, h2⟩
        · split at h3
          · cases h3; exact ⟨h1, h2⟩
          · split at h3 <;> cases h3
            exact ⟨h1, h2⟩
      | changeParameters c r =>
        simp only [step, Ebu.changeParameters_eq hi.inv] at h3
        split at h3
        · cases h3; exact ⟨h1, h2⟩
        · split at h3
          · cases h3; exact ⟨h1, h2⟩
          · obtain ⟨a, -, h3⟩ := Run.bind_done h3
            cases a <;> (cases h3; exact ⟨h1, h2⟩)
      | setMaxWindow w =>
        simp only [step, Ebu.setMaxWindow] at h3
        by_cases hc : clampMs e.mode w.toNat = e.window
        · simp only [hc, if_true] at h3; cases h3; exact ⟨h1, h2⟩
        · simp only [hc, if_false, Run.bind_eq] at h3
          obtain ⟨a, -, h3⟩ := Run.bind_done h3
          cases a <;> (cases h3; exact ⟨h1, h2⟩)
      | setMaxHistory x =>
        rcases hmax with hm | hm
        · simp only [step, Ebu.setMaxHistory] at h3
          split at h3
          · cases h3; exact ⟨h1, h2⟩
          · next hne =>
            cases h3
            exact ⟨hm.1 _ _ _ h1 hne, hm.2 _ _ _ h2 hne⟩
        · exact absurd (List.mem_cons_self ..) (hm x)
      | reset =>
        simp only [step, Run.bind_eq, (Ebu.reset_eq hi.inv).1, Run.done_bind] at h3
        cases h3
        rcases hreset with hm | hm
        · exact ⟨hm.1 _ _ h1, hm.2 _ _ h2⟩
        · exact absurd (List.mem_cons_self ..) hm
      | addFrames x =>
        rcases Ebu.addInput_cases hi.inv x with h6 | ⟨e3, r3, h6, -, h7⟩
        · simp only [step, h6] at h3; cases h3
        · have h6' := h6
          simp only [step, h6] at h3; cases h3
          exact grown (Ebu.addInput_grown h6') h7.history h1 h2
      | seedFrames x =>
        have := Ebu.seedInput_hist h3
        rw [this]
        exact ⟨h1, h2⟩
    exact ih h4 key.1 key.2 hreset' hmax' hr

end Verif
