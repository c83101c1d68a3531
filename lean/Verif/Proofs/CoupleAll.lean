import Verif.Proofs.CouplePeak
import Verif.Props.C24
/-!
# Two analyzers fed related signals from the start
-/

set_option linter.unusedSimpArgs false

namespace Verif
open Fl Spec

/-- Calls that configure an analyzer without replacing its contents. -/
def Spec.Config {D S : Type} : Op D S → Prop
  | .setChannel .. | .setChannelMap .. | .setMaxWindow .. | .setMaxHistory .. => True
  | _ => False

/-- An analyzer that is new, was just reset, or just got another channel count, and then was configured. -/
def Spec.Prepared {D S : Type} (E : Env D S) (e : Ebu D S) : Prop :=
  ∃ e0 cfg, PeakStart E e0 ∧ (∀ op ∈ cfg, Config op) ∧ runOps E e0 cfg = .done e

theorem Spec.PeakStart.started {D S : Type} {E : Env D S} {e : Ebu D S} (h : PeakStart E e) : Started E e := by
  rcases h with ⟨c, r, md, h⟩ | ⟨e1, r, h1, h2⟩ | ⟨e1, c, w, h1, h2, h3⟩
  · exact .new h
  · exact .reset h1 h2
  · exact .change h1 (fun hh => h3 hh.1) h2

theorem config_not_feed {D S : Type} {op : Op D S} (h : Config op) : ¬ Feed op := by
  cases op <;> first | exact absurd h id | exact id

theorem config_quiet {D S : Type} {op : Op D S} (h : Config op) (n r : Nat) : Quiet n r op := by
  cases op <;> first | exact absurd h id | trivial

theorem runOps_started {D S : Type} {E : Env D S} {cfg : List (Op D S)} : ∀ {e0 e : Ebu D S}, Started E e0 →
    (∀ op ∈ cfg, Config op) → runOps E e0 cfg = .done e → Started E e := by
  induction cfg with
  | nil => intro e0 e h _ hr; cases hr; exact h
  | cons op cfg ih =>
    intro e0 e h hc hr
    simp only [runOps, Run.bind_eq] at hr
    obtain ⟨⟨x, s⟩, g1, h1⟩ := Run.bind_done hr
    exact ih (.config h (config_not_feed (hc op (by simp))) g1) (fun o ho => hc o (by simp [ho])) h1

theorem runOps_samePeaks {D S : Type} {E : Env D S} {cfg : List (Op D S)} : ∀ {e0 e : Ebu D S}, e0.Inv E →
    (∀ op ∈ cfg, Config op) → runOps E e0 cfg = .done e → e0.SamePeaks e := by
  induction cfg with
  | nil => intro e0 e _ _ hr; cases hr; exact Ebu.SamePeaks.refl _
  | cons op cfg ih =>
    intro e0 e h hc hr
    simp only [runOps, Run.bind_eq] at hr
    obtain ⟨⟨x, s⟩, g1, h1⟩ := Run.bind_done hr
    exact (quiet_step h g1 (config_quiet (hc op (by simp)) _ _)).trans
      (ih (step_mode h g1).2 (fun o ho => hc o (by simp [ho])) h1)

theorem Spec.Prepared.started {D S : Type} {E : Env D S} {e : Ebu D S} (h : Prepared E e) : Started E e := by
  obtain ⟨e0, cfg, h0, h1, h2⟩ := h
  exact runOps_started h0.started h1 h2

variable {m : Libm F64} {bs : BSearch} {t : Target}

theorem Spec.Prepared.peak {e : Ebu F64 F32} (h : Prepared (ieeeEnv m bs t) e) {c : Nat} (hc : c < e.channels) :
    EPeak t e c 0 0 0 0 := by
  obtain ⟨e0, cfg, h0, h1, h2⟩ := h
  have hs := runOps_samePeaks h0.reachable.inv h1 h2
  exact (h0.peak (by rw [← hs.channels]; exact hc)).same hs

/-- The interpolators start out alike in every channel. -/
theorem Started.mono {e : Ebu F64 F32} (h : Started (ieeeEnv m bs t) e) {c : Nat} (hc : c < e.channels) :
    e.monoOf c = if e.mode.contains Mode.TRUE_PEAK then
      (oversampling e.rate).map fun x => Interp.init (ieeeEnv m bs t) x.1 x.2 1 else none := by
  have h1 := h.blank.tp
  unfold Ebu.monoOf
  rw [h1]
  split
  · rw [initP_over]
    cases oversampling e.rate with
    | none => rfl
    | some x =>
      obtain ⟨taps, factor⟩ := x
      simp only [Option.map_some, Option.bind_some, Scanner.initP.mk]
      split
      · show some ((Interp.init (ieeeEnv m bs t) taps factor e.channels).proj c) = _
        congr 1
        simp only [Interp.proj, Interp.init, List.map_replicate]
        congr 3
        simp only [pick, zeroFrame, List.getD_eq_getElem?_getD, List.getElem?_replicate, hc, if_true,
          Option.getD_some]
        rfl
      · show (List.replicate e.channels (Interp.init (ieeeEnv m bs t) taps factor 1))[c]? = _
        rw [List.getElem?_replicate, if_pos hc]
  · rfl

theorem interpRel_init {V : Val → Val → Prop} {R : F32 → F32 → Prop} (hc : PeakCoupling m bs t V R)
    (taps factor : Nat) : InterpRel R (Interp.init (ieeeEnv m bs t) taps factor 1)
      (Interp.init (ieeeEnv m bs t) taps factor 1) :=
  ⟨rfl, rfl, rfl, rfl, rfl, forall2_replicate (forall2_replicate hc.zero _) _⟩

/-- Analyzers in the same configuration apart from the channels. -/
structure Spec.Alike {D S : Type} (e e' : Ebu D S) : Prop where
  mode : e'.mode = e.mode
  rate : e'.rate = e.rate
  window : e'.window = e.window
  hist : e'.blockEnergyHistory = e.blockEnergyHistory
  short : e'.shortTermBlockEnergyHistory = e.shortTermBlockEnergyHistory

theorem Spec.Alike.refl {D S : Type} (e : Ebu D S) : Alike e e := ⟨rfl, rfl, rfl, rfl, rfl⟩

theorem Spec.Alike.coupled {D S : Type} {E : Env D S} {e e' : Ebu D S} (h : Alike e e') (hs : Started E e)
    (hs' : Started E e') {P : Nat → Nat → Prop} {R : D → D → Prop} (hz : R E.f64.zero E.f64.zero) :
    Coupled P R e e' := by
  have hi := hs.reachable.inv
  have hi' := hs'.reachable.inv
  have hb := hs.blank
  have hb' := hs'.blank
  have h100 : e'.samplesIn100ms = e.samplesIn100ms := by rw [hi.s100, hi'.s100, h.rate]
  have hring : e'.ring = e.ring := by simp only [Ebu.ring, h.rate, h.window]
  exact
    { mode := h.mode
      rate := h.rate
      s100 := h100
      idx := by rw [hb.idx, hb'.idx]
      needed := by rw [hb.needed, hb'.needed, h100]
      stc := by rw [hb.stc, hb'.stc]
      window := h.window
      hist := h.hist
      short := h.short
      coefB := by rw [hi.coef.1, hi'.coef.1, h.rate]
      coefA := by rw [hi.coef.2, hi'.coef.2, h.rate]
      state := by
        intro c c' _ s s' h1 h2
        rw [hb.state] at h1
        rw [hb'.state] at h2
        have e1 := List.eq_of_mem_replicate (List.mem_of_getElem? h1)
        have e2 := List.eq_of_mem_replicate (List.mem_of_getElem? h2)
        rw [e1, e2]
        exact ⟨hz, hz, hz, hz, hz⟩
      row := by
        intro c c' _ r r' h1 h2
        rw [hb.rows hi] at h1
        rw [hb'.rows hi'] at h2
        have e1 := List.eq_of_mem_replicate (List.mem_of_getElem? h1)
        have e2 := List.eq_of_mem_replicate (List.mem_of_getElem? h2)
        rw [e1, e2, hring]
        exact forall2_replicate hz _ }

theorem Paired.imp {V : Val → Val → Prop} {n n' : Nat} {P P' : Nat → Nat → Prop} (hp : ∀ c c', P' c c' → P c c')
    {op op' : Op F64 F32} (h : Paired m bs t n n' P V op op') : Paired m bs t n n' P' V op op' := by
  cases h with
  | add hw hr =>
    exact .add hw fun h => (hr h).imp fun _ _ hf c c' hcc => hf c c' (hp c c' hcc)
  | seed hw hr =>
    exact .seed hw fun h => (hr h).imp fun _ _ hf c c' hcc => hf c c' (hp c c' hcc)

/-- Same loudness and same recorded blocks. -/
structure Spec.SameLoudness {D S : Type} (E : Env D S) (e e' : Ebu D S) : Prop where
  queries : ∀ q, LoudnessQuery q → ask E e q = ask E e' q
  blocks : e.gatingBlockCountAndEnergy E = e'.gatingBlockCountAndEnergy E
  hist : e.blockEnergyHistory = e'.blockEnergyHistory
  short : e.shortTermBlockEnergyHistory = e'.shortTermBlockEnergyHistory

theorem couple_loudness {D S : Type} {E : Env D S} {e e' e1 e1' : Ebu D S} (hs : Started E e) (hs' : Started E e')
    (h : Alike e e') (ha : Adequate e.mode e.rate e.window) {P : Nat → Nat → Prop} {R : D → D → Prop}
    (hc : Coupling E e.channelMap e'.channelMap P R) (hz : R E.f64.zero E.f64.zero) {ops ops' : List (Op D S)}
    (hops : List.Forall₂ (Matching E e.channels e'.channels P R) ops ops')
    (h1 : runOps E e ops = .done e1) (h2 : runOps E e' ops' = .done e1') : SameLoudness E e1 e1' := by
  obtain ⟨hcp, c1, c2, r1, r2⟩ := Coupled.run hc (h.coupled hs hs' hz) hs.reachable hs'.reachable ha hops h1 h2
  have hc' : Coupling E e1.channelMap e1'.channelMap P R := by rw [c1.map, c2.map]; exact hc
  obtain ⟨g1, g2⟩ := hcp.answers hc' r1.inv r2.inv
  exact ⟨g1, g2, hcp.hist.symm, hcp.short.symm⟩

theorem couple_peaks {e e' e1 e1' : Ebu F64 F32} (hs : Prepared (ieeeEnv m bs t) e)
    (hs' : Prepared (ieeeEnv m bs t) e') (h : Alike e e') (ha : Adequate e.mode e.rate e.window)
    {P : Nat → Nat → Prop} (hP : ∀ c c', P c c' → c < e.channels ∧ c' < e'.channels) {V : Val → Val → Prop}
    {R : F32 → F32 → Prop} (hc : PeakCoupling m bs t V R) {ops ops' : List (Op F64 F32)}
    (hops : List.Forall₂ (Paired m bs t e.channels e'.channels P V) ops ops')
    (h1 : runOps (ieeeEnv m bs t) e ops = .done e1) (h2 : runOps (ieeeEnv m bs t) e' ops' = .done e1')
    {c c' : UInt32} (hcc : P c.toNat c'.toNat) {q : UInt32 → Query} (hq : PeakQuery q) :
    ask (ieeeEnv m bs t) e1 (q c) = ask (ieeeEnv m bs t) e1' (q c') := by
  have ha' : Adequate e'.mode e'.rate e'.window := by rw [h.mode, h.rate, h.window]; exact ha
  have h0 : PeaksCoupled t P R e e' := by
    refine ⟨fun c c' hcc => ?_, fun c c' hcc => ?_⟩
    · obtain ⟨l1, l2⟩ := hP c c' hcc
      exact ⟨l1, l2, 0, 0, 0, 0, hs.peak l1, hs'.peak l2⟩
    · obtain ⟨l1, l2⟩ := hP c c' hcc
      rw [hs.started.mono l1, hs'.started.mono l2, h.mode, h.rate]
      split
      · cases oversampling e.rate with
        | none => exact .none
        | some x => exact .some (interpRel_init hc _ _)
      · exact .none
  have hr := PeaksCoupled.run hc h0 h.mode hs.started.reachable hs'.started.reachable ha ha' hops h1 h2
  have hmode : e1'.mode = e1.mode := by
    have key : ∀ {ops : List (Op F64 F32)} {x y : Ebu F64 F32}, Reachable (ieeeEnv m bs t) x →
        runOps (ieeeEnv m bs t) x ops = .done y → y.mode = x.mode := by
      intro ops
      induction ops with
      | nil => intro x y _ hh; cases hh; rfl
      | cons op ops ih =>
        intro x y hx hh
        simp only [runOps, Run.bind_eq] at hh
        obtain ⟨⟨z, s⟩, g1, hh⟩ := Run.bind_done hh
        rw [ih (hx.step g1) hh, (step_mode hx.inv g1).1]
    rw [key hs'.started.reachable h2, key hs.started.reachable h1, h.mode]
  exact hr.answers hmode hcc hq

end Verif
