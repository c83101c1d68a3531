import Verif.Props.C01_C03
/-! # C04–C07: call histories and configuration changes -/

namespace Verif
variable {D S : Type}

/-! ## C04 -/

/-- **C04**: after any sequence of public calls (that returned), with any arguments. -/
theorem C04_invariants {E : Env D S} {channels rate : Nat} {mode : Mode} {e0 e : Ebu D S}
    {ops : List (Op D S)} (h0 : Ebu.new E channels rate mode = .done (.ok e0))
    (h : runOps E e0 ops = .done e) :
    (1 ≤ e.channels ∧ e.channels ≤ 64) ∧ (16 ≤ e.rate ∧ e.rate ≤ 2822400) ∧ e.mode = mode ∧
    e.channelMap.length = e.channels ∧ (Channel.dualMono ∈ e.channelMap → e.channels = 1) ∧
    400 ≤ e.window ∧ (mode.contains Mode.S = true → 3000 ≤ e.window) ∧
    e.samplePeak.length = e.channels ∧ e.truePeak.length = e.channels ∧
    e.filter.samplePeak.length = e.channels ∧ e.filter.truePeak.length = e.channels := by
  obtain ⟨h2, hm⟩ := runOps_inv2 (Ebu.new_inv2 h0) ops h
  have hi := h2.inv
  have hmode : e.mode = mode := by
    obtain ⟨rfl, -⟩ := Ebu.new_ok h0
    exact hm
  exact ⟨⟨hi.ch1, hi.ch64⟩, ⟨hi.rate16, hi.rateMax⟩, hmode, hi.map, hi.dual, hi.win,
    fun hs => hi.winS (hmode ▸ hs), hi.samplePeak, hi.truePeak, hi.filter.samplePeak,
    hi.filter.truePeak⟩

/-- A non-trivial history: setting dual mono and a longer window, then resetting, does return. -/
example : ∃ e0 e : Ebu F64 F32, Ebu.new Demo.env 1 48000 Mode.I = .done (.ok e0) ∧
    runOps Demo.env e0 [.setChannel 0 .dualMono, .setMaxHistory 5000, .reset] = .done e ∧
    Channel.dualMono ∈ e.channelMap := by
  obtain ⟨e, he, hr, h1, -⟩ := demo_new (channels := 1) (rate := 48000) (mode := Mode.I) (by omega)
    (by decide)
  obtain ⟨map, hs, hl, hg⟩ := (C03_setChannel hr 0 .dualMono).1 (by rw [h1]; exact ⟨by omega, fun _ => ⟨rfl, rfl⟩⟩)
  obtain ⟨e1, r1, h4⟩ : ∃ e1 r1, (Ebu.setMaxHistory Demo.env { e with channelMap := map } 5000) = (e1, r1) :=
    ⟨_, _, rfl⟩
  have hi : ({ e with channelMap := map } : Ebu F64 F32).Inv2 Demo.env := by
    rcases step_inv2 hr.inv2 (.setChannel 0 .dualMono) with h5 | ⟨e', r, h5, h6, -⟩
    · simp only [step] at h5; erw [hs] at h5; cases h5
    · simp only [step] at h5; erw [hs] at h5; cases h5; exact h6
  have hi2 : e1.Inv2 Demo.env := by
    rcases step_inv2 hi (.setMaxHistory 5000) with h5 | ⟨e', r, h5, h6, -⟩
    · simp only [step] at h5; cases h5
    · simp only [step] at h5; erw [h4] at h5; cases h5; exact h6
  have hmap : e1.channelMap = map := by
    have : (Ebu.setMaxHistory Demo.env { e with channelMap := map } 5000).1.channelMap = map := by
      unfold Ebu.setMaxHistory; simp only; split <;> rfl
    rw [h4] at this; exact this
  refine ⟨e, e1.resetP Demo.env, he, ?_, ?_⟩
  · simp only [runOps, step, Run.bind_eq]
    erw [hs]
    simp only [Run.done_bind]
    erw [h4]
    simp only [(Ebu.reset_eq hi2.inv).1, Run.done_bind]
  · show Channel.dualMono ∈ e1.channelMap
    rw [hmap]
    have := hg 0
    rw [if_pos rfl] at this
    exact List.mem_of_getElem? this

/-! ## C05 -/

/-- **C05**: every failing call other than adding frames leaves the analyzer exactly as it was. -/
theorem C05_config_error {E : Env D S} {e e' : Ebu D S} (hr : Reachable E e) {op : Op D S} {x : Error}
    (hop : ∀ inp, op ≠ .addFrames inp) (h : step E e op = .done (e', .error x)) : e' = e := by
  have hi := hr.inv
  cases op with
  | setChannel i v =>
    simp only [step, Ebu.setChannel] at h
    split at h
    · cases h; rfl
    · split at h
      · cases h; rfl
      · split at h <;> cases h
  | setChannelMap m =>
    simp only [step, Ebu.setChannelMap] at h
    split at h
    · cases h; rfl
    · split at h
      · cases h; rfl
      · split at h <;> cases h
  | changeParameters c r =>
    simp only [step, Ebu.changeParameters_eq hi] at h
    split at h
    · cases h; rfl
    · split at h
      · cases h
      · obtain ⟨a, -, h⟩ := Run.bind_done h
        cases a <;> cases h; rfl
  | setMaxWindow w =>
    simp only [step, Ebu.setMaxWindow] at h
    split at h
    · cases h
    · obtain ⟨a, -, h⟩ := Run.bind_done h
      cases a <;> cases h; rfl
  | setMaxHistory x =>
    simp only [step, Ebu.setMaxHistory] at h
    split at h <;> cases h
  | reset =>
    simp only [step, Run.bind_eq, (Ebu.reset_eq hi).1, Run.done_bind] at h
    cases h
  | addFrames inp => exact absurd rfl (hop inp)
  | seedFrames inp =>
    by_cases hx : inp.Ok e.channels
    · by_cases hw : inp.width e.channels = e.channels
      · simp only [step, Ebu.seedInput_eq hi hx hw] at h; cases h
      · simp only [step, Ebu.seedInput_wrong hi hx hw] at h; cases h
    · simp only [step, (Ebu.addInput_err hx).2] at h
      cases h; rfl

/-- **C05** for adding frames, in every configuration whose buffer holds the blocks its mode needs
(every rate of 146 Hz or more does): an error can only be the layout check and changes nothing. -/
theorem C05_add_error {E : Env D S} {e e' : Ebu D S} (hr : Reachable E e)
    (ha : Spec.Adequate e.mode e.rate e.window) {inp : Input D S} {x : Error}
    (h : step E e (.addFrames inp) = .done (e', .error x)) : e' = e ∧ x = .noMem := by
  have hi := hr.inv
  have hg := hi.good_iff.2 ha
  obtain ⟨n, hp⟩ := hr.inv2.pos hg
  by_cases hx : inp.Ok e.channels
  · by_cases hw : inp.width e.channels = e.channels
    · simp only [step, (Ebu.addInput_eq hi hg hp hx hw).1] at h; cases h
    · cases (Ebu.addInput_wrong hi hx hw h).2
  · simp only [step, (Ebu.addInput_err hx).1] at h
    cases h; exact ⟨rfl, rfl⟩

/-- **C05** for adding frames, in every configuration: the layout check rejects with `NoMem` and changes
nothing; every other error is `InvalidMode`. -/
theorem C05_add_rejected {E : Env D S} (e : Ebu D S) {inp : Input D S}
    (hx : ¬ inp.Ok e.channels) : step E e (.addFrames inp) = .done (e, .error .noMem) :=
  (Ebu.addInput_err hx).1

/-- The restriction of `C05_add_error` is needed: at 25 Hz in mode `LRA` the 3 s buffer is shorter than 30
steps, and `add_frames` of 90 frames fails with `InvalidMode` after having consumed them. -/
theorem C05_add_error_low_rate :
    ∃ (e e' : Ebu F64 F32), Ebu.new Demo.env 1 25 Mode.LRA = .done (.ok e) ∧
      step Demo.env e (.addFrames (.i16 (List.replicate 90 0))) = .done (e', .error .invalidMode) ∧
      e' ≠ e := by
  obtain ⟨e, he, -⟩ := demo_new (channels := 1) (rate := 25) (mode := Mode.LRA) (by omega) (by decide)
  refine ⟨e, ?_⟩
  obtain ⟨rfl, -⟩ := Ebu.new_ok he
  have key : (match step Demo.env (Ebu.init Demo.env 1 25 Mode.LRA)
      (.addFrames (.i16 (List.replicate 90 0))) with
    | .done (e', .error .invalidMode) => e'.audioDataIndex != 0
    | _ => false) = true := by decide +kernel
  split at key
  · next e' h => exact ⟨e', he, h, fun hh => by rw [hh] at key; revert key; decide⟩
  · cases key

/-- The hypotheses of `C05_config_error` are met by a rejected channel index. -/
example : ∃ e e' : Ebu F64 F32, Reachable Demo.env e ∧
    step Demo.env e (.setChannel 7 .left) = .done (e', .error .invalidChannelIndex) := by
  obtain ⟨e, -, hr, h1, -⟩ := demo_new (channels := 2) (rate := 48000) (mode := Mode.I) (by omega)
    (by decide)
  refine ⟨e, e, hr, (C03_setChannel hr 7 .left).2 ?_⟩
  rw [h1]; rintro ⟨h, -⟩; omega

/-! ## C06 -/

/-- **C06**, no-op case. -/
theorem C06_same {E : Env D S} {e : Ebu D S} (hr : Reachable E e) :
    e.changeParameters E e.channels e.rate = .done (e, .ok ()) := by
  have := hr.inv
  have h1 := this.ch1
  have h2 := this.ch64
  have h3 := this.rate16
  have h4 := this.rateMax
  rw [Ebu.changeParameters_eq this, if_neg (by omega), if_pos ⟨rfl, rfl⟩]

/-- **C06**: when a change to different values succeeds, the signal path is that of a new analyzer `f`
with these values (only the ring buffer has the length for the current window), the histories, window and
limits are kept, and channel map and peaks are reset exactly when the channel count changed. -/
theorem C06_change {E : Env D S} {e e' f : Ebu D S} (hr : Reachable E e) {channels rate : Nat}
    (hne : ¬ (channels = e.channels ∧ rate = e.rate))
    (h : e.changeParameters E channels rate = .done (e', .ok ()))
    (hf : Ebu.new E channels rate e.mode = .done (.ok f)) :
    (e'.channels = channels ∧ e'.rate = rate ∧ e'.mode = e.mode ∧
      e'.window = e.window ∧ e'.history = e.history) ∧
    (e'.filter = f.filter ∧ e'.neededFrames = f.neededFrames ∧ e'.audioDataIndex = f.audioDataIndex ∧
      e'.shortTermFrameCounter = f.shortTermFrameCounter ∧ e'.samplesIn100ms = f.samplesIn100ms) ∧
    e'.audioData = List.replicate (Spec.capacity rate e.window * channels) E.f64.zero ∧
    (e'.blockEnergyHistory = e.blockEnergyHistory ∧
      e'.shortTermBlockEnergyHistory = e.shortTermBlockEnergyHistory) ∧
    (channels ≠ e.channels → e'.channelMap = f.channelMap ∧ e'.samplePeak = f.samplePeak ∧
      e'.truePeak = f.truePeak) ∧
    (channels = e.channels → e'.channelMap = e.channelMap ∧ e'.samplePeak = e.samplePeak ∧
      e'.truePeak = e.truePeak) := by
  rw [Ebu.changeParameters_eq hr.inv] at h
  split at h
  · cases h
  · next hv =>
    split at h
    · next h2 => exact absurd ⟨h2.2.symm, h2.1.symm⟩ hne
    · obtain ⟨a, -, h⟩ := Run.bind_done h
      cases a with
      | error x => cases h
      | ok l =>
        cases h
        obtain ⟨rfl, -⟩ := Ebu.new_ok hf
        refine ⟨⟨rfl, rfl, rfl, rfl, rfl⟩, ⟨rfl, rfl, rfl, rfl, rfl⟩, ?_, ⟨rfl, rfl⟩, ?_, ?_⟩
        · rw [← ringFrames_capacity (by omega)]; rfl
        · intro hc
          simp only [Ebu.changeP, if_pos (fun h => hc h.symm : ¬ e.channels = channels), ne_eq]
          exact ⟨rfl, rfl, rfl⟩
        · intro hc
          simp only [Ebu.changeP, hc, ne_eq, not_true, if_false, and_self]

/-- On 64-bit targets the change succeeds for every documented channel count and rate, so the hypotheses
of `C06_change` are met. -/
theorem C06_accepts {E : Env D S} (h64 : 2 ^ 64 - 1 ≤ E.usizeMax) {e : Ebu D S} (hr : Reachable E e)
    {channels rate : Nat} (hv : Spec.ValidArgs channels rate) :
    (∃ e', e.changeParameters E channels rate = .done (e', .ok ())) ∧
      ∃ f, Ebu.new E channels rate e.mode = .done (.ok f) := by
  refine ⟨?_, (C01_new_64 E h64 channels rate e.mode).1.2 ⟨hv, hr.inv.modeM⟩⟩
  obtain ⟨h1, h2, h3, h4⟩ := hv
  rw [Ebu.changeParameters_eq hr.inv, if_neg (by omega)]
  split
  · exact ⟨_, rfl⟩
  · rw [allocate_64 h64 h2 h4 hr.inv2.win32]; exact ⟨_, rfl⟩

/-- On 64-bit targets anything else is `NoMem`. -/
theorem C06_rejects {E : Env D S} {e : Ebu D S} (hr : Reachable E e)
    {channels rate : Nat} (hv : ¬ Spec.ValidArgs channels rate) :
    e.changeParameters E channels rate = .done (e, .error .noMem) := by
  rw [Ebu.changeParameters_eq hr.inv, if_pos]
  unfold Spec.ValidArgs at hv; omega

example : ∃ e e' f : Ebu F64 F32, Reachable Demo.env e ∧ ¬ (6 = e.channels ∧ 44100 = e.rate) ∧
    e.changeParameters Demo.env 6 44100 = .done (e', .ok ()) ∧
    Ebu.new Demo.env 6 44100 e.mode = .done (.ok f) := by
  obtain ⟨e, -, hr, h1, -⟩ := demo_new (channels := 2) (rate := 48000) (mode := Mode.I) (by omega)
    (by decide)
  obtain ⟨⟨e', h2⟩, f, h3⟩ := C06_accepts (Nat.le_refl _) hr (channels := 6) (rate := 44100)
    (by unfold Spec.ValidArgs; omega)
  exact ⟨e, e', f, hr, by rw [h1]; omega, h2, h3⟩

/-! ## C07 -/

/-- **C07**: the window becomes `max w (minimum for the mode)`; if that is the current window nothing
changes, otherwise the ring buffer is silent and the block counters restart, and nothing else changes. -/
theorem C07_setMaxWindow {E : Env D S} {e e' : Ebu D S} (hr : Reachable E e) {w : Nat}
    (h : e.setMaxWindow E w = .done (e', .ok ())) :
    e'.window = max w (Spec.minWindow e.mode) ∧
    (max w (Spec.minWindow e.mode) = e.window → e' = e) ∧
    (max w (Spec.minWindow e.mode) ≠ e.window → e' = { e with
      window := max w (Spec.minWindow e.mode)
      audioData := List.replicate
        (Spec.capacity e.rate (max w (Spec.minWindow e.mode)) * e.channels) E.f64.zero
      neededFrames := 4 * Spec.hop e.rate
      audioDataIndex := 0
      shortTermFrameCounter := 0 }) := by
  have hi := hr.inv
  have hc : clampMs e.mode w = max w (Spec.minWindow e.mode) := by
    unfold clampMs Spec.minWindow
    split
    · rfl
    · rw [if_pos hi.modeM]
  simp only [Ebu.setMaxWindow, hc] at h
  generalize max w (Spec.minWindow e.mode) = w' at *
  by_cases hw : w' = e.window
  · rw [if_pos hw] at h
    cases h
    exact ⟨hw.symm, fun _ => rfl, fun hn => absurd hw hn⟩
  · rw [if_neg hw] at h
    obtain ⟨a, ha, h⟩ := Run.bind_done h
    cases a with
    | error x => cases h
    | ok l =>
      cases h
      have hl := allocate_ok ha
      refine ⟨rfl, fun hn => absurd hn hw, fun _ => ?_⟩
      rw [hl, ringFrames_capacity hi.rate16, show 4 * Spec.hop e.rate = e.samplesIn100ms * 4 by
        rw [hi.s100, Nat.mul_comm]; rfl]

/-- On 64-bit targets every `u32` window is accepted. -/
theorem C07_accepts {E : Env D S} (h64 : 2 ^ 64 - 1 ≤ E.usizeMax) {e : Ebu D S} (hr : Reachable E e)
    {w : Nat} (hw : w < 2 ^ 32) : ∃ e', e.setMaxWindow E w = .done (e', .ok ()) := by
  simp only [Ebu.setMaxWindow]
  split
  · exact ⟨_, rfl⟩
  · rw [allocate_64 h64 hr.inv.ch64 hr.inv.rateMax (clampMs_lt _ hw)]; exact ⟨_, rfl⟩

example : ∃ e e' : Ebu F64 F32, Reachable Demo.env e ∧
    e.setMaxWindow Demo.env 10000 = .done (e', .ok ()) ∧ max 10000 (Spec.minWindow e.mode) ≠ e.window := by
  obtain ⟨e, -, hr, h1, -, hm, hw⟩ := demo_new (channels := 2) (rate := 48000) (mode := Mode.I) (by omega)
    (by decide)
  obtain ⟨e', h2⟩ := C07_accepts (Nat.le_refl _) hr (w := 10000) (by omega)
  refine ⟨e, e', hr, h2, ?_⟩
  rw [hm, hw]; decide

end Verif
