import Verif.Props.C08
/-! # C42: reset -/

namespace Verif
variable {D S : Type}

theorem History.reset_new {h : History D} {m : Nat} {b : Bool} (hi : h.Inv) (hk : h.isHist = b)
    (hm : ∀ q mx, h = .queue q mx → mx = m) : h.reset = History.new b m := by
  cases h with
  | queue q mx =>
    cases hk
    rw [← hm q mx rfl]
    rfl
  | histogram l =>
    cases hk
    simp only [History.reset, History.new, List.map_const', show l.length = 1000 from hi]
    rfl

/-- **C42**: `reset` never fails, and leaves exactly the state of a new analyzer `f` with the same channels,
rate and mode, with the current channel map, maximum window (an all-zero ring buffer of that window) and
history limits. -/
theorem C42_reset {E : Env D S} {e f : Ebu D S} (hr : Reachable E e)
    (hf : Ebu.new E e.channels e.rate e.mode = .done (.ok f)) :
    e.reset E = .done { f with
      channelMap := e.channelMap
      window := e.window
      audioData := List.replicate (Spec.capacity e.rate e.window * e.channels) E.f64.zero
      history := e.history
      blockEnergyHistory := History.new (e.mode.contains Mode.HISTOGRAM) (e.history / 100)
      shortTermBlockEnergyHistory := History.new (e.mode.contains Mode.HISTOGRAM) (e.history / 3000) } := by
  have h := hr.inv
  obtain ⟨rfl, -⟩ := Ebu.new_ok hf
  rw [(Ebu.reset_eq h).1]
  congr 1
  simp only [Ebu.resetP, Ebu.init, List.map_const', h.data, h.ring_eq, h.truePeak, h.samplePeak, h.fresh,
    Nat.mul_comm e.channels, h.s100]
  rw [History.reset_new h.hist h.histKind (fun q mx hq => ((C08_content_partial hr).1 hq).1),
    History.reset_new h.stHist h.stHistKind (fun q mx hq => ((C08_content_partial hr).2 hq).1)]

/-- **C42** in terms of public calls: with the default history limit, `reset` gives the state reached from
a new analyzer by `set_channel_map` and `set_max_window`. -/
theorem C42_public {E : Env D S} (h64 : 2 ^ 64 - 1 ≤ E.usizeMax) {e : Ebu D S} (hr : Reachable E e)
    (hh : e.history = E.usizeMax) :
    ∃ f e', Ebu.new E e.channels e.rate e.mode = .done (.ok f) ∧ e.reset E = .done e' ∧
      runOps E f [.setChannelMap e.channelMap, .setMaxWindow (UInt32.ofNat e.window)] = .done e' := by
  have h := hr.inv
  obtain ⟨f, hf⟩ := (C01_new_64 E h64 e.channels e.rate e.mode).1.2
    ⟨⟨h.ch1, h.ch64, h.rate16, h.rateMax⟩, h.modeM⟩
  refine ⟨f, _, hf, C42_reset hr hf, ?_⟩
  have hfr := reachable_new hf
  obtain ⟨rfl, -⟩ := Ebu.new_ok hf
  have hm : Ebu.setChannelMap (Ebu.init E e.channels e.rate e.mode) e.channelMap = .done
      ({ Ebu.init E e.channels e.rate e.mode with channelMap := e.channelMap }, .ok ()) := by
    refine (C03_setChannelMap hfr e.channelMap).1 ⟨h.map, fun i v hv => ⟨?_, fun hd => ?_⟩⟩
    · have := (List.getElem?_eq_some_iff.1 hv).1
      rw [h.map] at this; exact this
    · subst hd
      have h1 := h.dual (List.mem_of_getElem? hv)
      refine ⟨h1, ?_⟩
      have := (List.getElem?_eq_some_iff.1 hv).1
      rw [h.map] at this; omega
  have hw : (UInt32.ofNat e.window).toNat = e.window := by
    rw [UInt32.toNat_ofNat']
    exact Nat.mod_eq_of_lt hr.inv2.win32
  have hfr2 : Reachable E ({ Ebu.init E e.channels e.rate e.mode with channelMap := e.channelMap }) :=
    ⟨_, _, _, _, [.setChannelMap e.channelMap], hf, by
      simp only [runOps, step, Run.bind_eq, hm, Run.done_bind]⟩
  obtain ⟨e1, he1⟩ := C07_accepts h64 hfr2 hr.inv2.win32
  obtain ⟨h1, h2, h3⟩ := C07_setMaxWindow hfr2 he1
  have hmax : max e.window (Spec.minWindow e.mode) = e.window := Nat.max_eq_left h.minWindow
  simp only [runOps, step, Run.bind_eq, hm, Run.done_bind, hw, he1]
  congr 1
  by_cases hc : e.window = Spec.minWindow e.mode
  · have hc' : (Ebu.init E e.channels e.rate e.mode).window = e.window := hc.symm
    rw [h2 (hmax.trans hc)]
    have hcap := ringFrames_capacity h.rate16 e.window
    simp only [hh, ← hcap]
    show _ = ({ Ebu.init E e.channels e.rate e.mode with
      channelMap := e.channelMap, window := e.window,
      audioData := List.replicate (ringFrames e.rate e.window * e.channels) E.f64.zero } : Ebu D S)
    rw [← hc']
    rfl
  · rw [h3 (fun hx => hc (hmax.symm.trans hx))]
    rw [show max e.window (Spec.minWindow (Ebu.init E e.channels e.rate e.mode).mode) = e.window from hmax]
    have h4 : 4 * Spec.hop e.rate = s100 e.rate * 4 := Nat.mul_comm _ _
    simp only [hh]
    show ({ Ebu.init E e.channels e.rate e.mode with
      channelMap := e.channelMap, window := e.window,
      audioData := List.replicate (Spec.capacity e.rate e.window * e.channels) E.f64.zero
      neededFrames := 4 * Spec.hop e.rate
      audioDataIndex := 0
      shortTermFrameCounter := 0 } : Ebu D S) = _
    rw [h4]
    rfl

/-- Resetting twice is resetting once, and what follows a reset does not depend on what preceded it: two
reachable analyzers with the same configuration are equal after `reset`. -/
theorem C42_forgets {E : Env D S} (h64 : 2 ^ 64 - 1 ≤ E.usizeMax) {e₁ e₂ : Ebu D S} (hr₁ : Reachable E e₁)
    (hr₂ : Reachable E e₂) (h : e₁.channels = e₂.channels ∧ e₁.rate = e₂.rate ∧ e₁.mode = e₂.mode ∧
      e₁.channelMap = e₂.channelMap ∧ e₁.window = e₂.window ∧ e₁.history = e₂.history) :
    e₁.reset E = e₂.reset E := by
  obtain ⟨h1, h2, h3, h4, h5, h6⟩ := h
  have hi := hr₁.inv
  obtain ⟨f, hf⟩ := (C01_new_64 E h64 e₁.channels e₁.rate e₁.mode).1.2
    ⟨⟨hi.ch1, hi.ch64, hi.rate16, hi.rateMax⟩, hi.modeM⟩
  rw [C42_reset hr₁ hf, C42_reset hr₂ (by rw [← h1, ← h2, ← h3]; exact hf), h1, h2, h3, h4, h5, h6]

/-- Hypotheses: a mono analyzer with dual mono set. -/
example : ∃ e f : Ebu F64 F32, Reachable Demo.env e ∧ e.channelMap = [.dualMono] ∧
    Ebu.new Demo.env e.channels e.rate e.mode = .done (.ok f) ∧ e.history = Demo.env.usizeMax := by
  obtain ⟨e, he, -⟩ := demo_new (channels := 1) (rate := 48000) (mode := Mode.I) (by omega) (by decide)
  obtain ⟨rfl, -⟩ := Ebu.new_ok he
  refine ⟨{ Ebu.init Demo.env 1 48000 Mode.I with channelMap := [.dualMono] }, _, ?_, rfl, he, rfl⟩
  exact ⟨_, _, _, _, [.setChannelMap [.dualMono]], he, rfl⟩

end Verif
