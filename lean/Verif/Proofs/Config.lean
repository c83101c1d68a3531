import Verif.Proofs.FilterCore
import Verif.Model.Api
/-! # The analyzer invariant and the configuration calls -/

set_option linter.unusedSimpArgs false

namespace Verif
variable {D S T : Type} {Sm : Type → Type}

/-! ## Modes -/

theorem Mode.S_M (m : Mode) : m.contains Mode.S = true → m.contains Mode.M = true := by
  revert m; decide +kernel
theorem Mode.LRA_S (m : Mode) : m.contains Mode.LRA = true → m.contains Mode.S = true := by
  revert m; decide +kernel
theorem Mode.I_M (m : Mode) : m.contains Mode.I = true → m.contains Mode.M = true := by
  revert m; decide +kernel
theorem Mode.TP_SP (m : Mode) :
    m.contains Mode.TRUE_PEAK = true → m.contains Mode.SAMPLE_PEAK = true := by
  revert m; decide +kernel

/-! ## Buffer size -/

/-- `samples_in_100ms`. -/
def s100 (rate : Nat) : Nat := (rate + 5) / 10

/-- Number of frames the ring buffer holds. -/
def ringFrames (rate window : Nat) : Nat :=
  if rate * window / 1000 % s100 rate ≠ 0 then
    rate * window / 1000 + s100 rate - rate * window / 1000 % s100 rate
  else rate * window / 1000

theorem ringFrames_mod (rate window : Nat) : ringFrames rate window % s100 rate = 0 := by
  unfold ringFrames
  generalize rate * window / 1000 = f
  generalize s100 rate = s
  split
  · rcases Nat.eq_zero_or_pos s with h | h
    · subst h; simp
    · have h1 := Nat.mod_lt f h
      have h2 := Nat.div_add_mod f s
      have : f + s - f % s = s * (f / s + 1) := by rw [Nat.mul_add]; omega
      rw [this, Nat.mul_mod_right]
  · omega

theorem s100_pos {rate : Nat} (hr : 16 ≤ rate) : 0 < s100 rate := by unfold s100; omega

theorem ringFrames_ge {rate : Nat} (hr : 16 ≤ rate) (window : Nat) :
    rate * window / 1000 ≤ ringFrames rate window := by
  have h0 := s100_pos hr
  unfold ringFrames
  have := Nat.mod_lt (rate * window / 1000) h0
  split <;> omega

theorem ringFrames_le (rate window : Nat) : ringFrames rate window ≤ rate * window / 1000 + s100 rate := by
  unfold ringFrames
  split <;> omega

theorem ringFrames_pos {rate window : Nat} (hr : 16 ≤ rate) (hw : 400 ≤ window) :
    0 < ringFrames rate window := by
  have h1 := ringFrames_ge hr window
  have h2 : 16 * 400 ≤ rate * window := Nat.mul_le_mul hr hw
  omega

/-- What `allocate_audio_data` returns. -/
theorem allocate_eq (E : Env D S) (channels rate window : Nat) :
    allocateAudioData E channels rate window =
      if E.usizeMax < rate * window ∨
          (rate * window / 1000 % s100 rate ≠ 0 ∧ E.usizeMax < rate * window / 1000 + s100 rate) ∨
          E.usizeMax < ringFrames rate window * channels then .done (.error .noMem)
      else if 8 * (ringFrames rate window * channels) ≤ E.usizeMax / 2 then
        .done (.ok (List.replicate (ringFrames rate window * channels) E.f64.zero))
      else .panic := by
  have hfr : (if rate * window / 1000 % ((rate + 5) / 10) ≠ 0 then
      rate * window / 1000 + (rate + 5) / 10 - rate * window / 1000 % ((rate + 5) / 10)
      else rate * window / 1000) = ringFrames rate window := rfl
  simp only [allocateAudioData, vec8, Run.bind_eq, hfr]
  by_cases h1 : E.usizeMax < rate * window
  · rw [if_pos h1, if_pos (.inl h1)]
  · rw [if_neg h1]
    by_cases h2 : rate * window / 1000 % ((rate + 5) / 10) ≠ 0 ∧
        E.usizeMax < rate * window / 1000 + (rate + 5) / 10
    · rw [if_pos h2, if_pos (.inr (.inl h2))]
    · rw [if_neg h2]
      by_cases h3 : E.usizeMax < ringFrames rate window * channels
      · rw [if_pos h3, if_pos (.inr (.inr h3))]
      · have hc : ¬(E.usizeMax < rate * window ∨
            (rate * window / 1000 % s100 rate ≠ 0 ∧ E.usizeMax < rate * window / 1000 + s100 rate) ∨
            E.usizeMax < ringFrames rate window * channels) := by
          rintro (h | h | h)
          · exact h1 h
          · exact h2 h
          · exact h3 h
        rw [if_neg h3, if_neg hc]
        split <;> rfl

theorem allocate_ok {E : Env D S} {channels rate window : Nat} {l : List D}
    (h : allocateAudioData E channels rate window = .done (.ok l)) :
    l = List.replicate (ringFrames rate window * channels) E.f64.zero := by
  rw [allocate_eq] at h
  split at h
  · cases h
  · split at h
    · cases h; rfl
    · cases h

theorem allocate_err {E : Env D S} {channels rate window : Nat} {x : Error}
    (h : allocateAudioData E channels rate window = .done (.error x)) : x = .noMem := by
  rw [allocate_eq] at h
  split at h
  · cases h; rfl
  · split at h <;> cases h

theorem allocate_ne_hang (E : Env D S) (channels rate window : Nat) :
    allocateAudioData E channels rate window ≠ .hang := by
  rw [allocate_eq]
  split
  · intro h; cases h
  · split <;> (intro h; cases h)

/-- On a 64-bit target allocation of any admissible buffer succeeds. -/
theorem allocate_64 {E : Env D S} (h64 : 2 ^ 64 - 1 ≤ E.usizeMax) {channels rate window : Nat}
    (hc : channels ≤ 64) (hr : rate ≤ 2822400) (hw : window < 2 ^ 32) :
    allocateAudioData E channels rate window =
      .done (.ok (List.replicate (ringFrames rate window * channels) E.f64.zero)) := by
  have h1 : rate * window ≤ 2822400 * 2 ^ 32 := Nat.mul_le_mul hr (Nat.le_of_lt hw)
  have h2 := ringFrames_le rate window
  have h3 : s100 rate ≤ 282240 := by unfold s100; omega
  have h4 : ringFrames rate window * channels ≤ ringFrames rate window * 64 :=
    Nat.mul_le_mul_left _ hc
  rw [allocate_eq, if_neg (by omega), if_pos (by omega)]

/-! ## Invariant -/

/-- Frames in the ring buffer of an analyzer. -/
def Ebu.ring (e : Ebu D S) : Nat := ringFrames e.rate e.window

/-- The ring buffer, one row per channel. -/
def Ebu.rows (e : Ebu D S) : List (List D) := chunksExact e.ring e.audioData

/-- The structural invariant of an analyzer, for every configuration. -/
structure Ebu.Inv (E : Env D S) (e : Ebu D S) : Prop where
  ch1 : 1 ≤ e.channels
  ch64 : e.channels ≤ 64
  rate16 : 16 ≤ e.rate
  rateMax : e.rate ≤ 2822400
  s100 : e.samplesIn100ms = s100 e.rate
  modeM : e.mode.contains Mode.M = true
  win : 400 ≤ e.window
  winS : e.mode.contains Mode.S = true → 3000 ≤ e.window
  data : e.audioData.length = e.channels * e.ring
  idx : e.audioDataIndex ≤ e.ring
  needed : 1 ≤ e.neededFrames
  map : e.channelMap.length = e.channels
  dual : Channel.dualMono ∈ e.channelMap → e.channels = 1
  filter : e.filter.Inv e.channels
  rect : e.filter.RectTp
  fresh : e.filter.resetP E = Filter.init E e.rate e.channels (e.mode.contains Mode.SAMPLE_PEAK)
    (e.mode.contains Mode.TRUE_PEAK)
  samplePeak : e.samplePeak.length = e.channels
  truePeak : e.truePeak.length = e.channels
  hist : e.blockEnergyHistory.Inv
  histKind : e.blockEnergyHistory.isHist = e.mode.contains Mode.HISTOGRAM
  stHist : e.shortTermBlockEnergyHistory.Inv
  stHistKind : e.shortTermBlockEnergyHistory.isHist = e.mode.contains Mode.HISTOGRAM

theorem Ebu.Inv.ring_pos {E : Env D S} {e : Ebu D S} (h : e.Inv E) : 0 < e.ring :=
  ringFrames_pos h.rate16 h.win

theorem Ebu.Inv.rows_spec {E : Env D S} {e : Ebu D S} (h : e.Inv E) :
    e.rows.length = e.channels ∧ (∀ r ∈ e.rows, r.length = e.ring) ∧ e.rows.flatten = e.audioData := by
  have hp := h.ring_pos
  have := chunksExact_rect (n := e.ring) (by omega) e.audioData (by rw [h.data]; simp)
  refine ⟨?_, this.1, this.2.1⟩
  rw [Ebu.rows, this.2.2, h.data, Nat.mul_div_cancel _ hp]

/-- The configuration an analyzer keeps while frames are added. -/
structure Ebu.SameCfg (e e' : Ebu D S) : Prop where
  mode : e'.mode = e.mode
  rate : e'.rate = e.rate
  channels : e'.channels = e.channels
  map : e'.channelMap = e.channelMap
  s100 : e'.samplesIn100ms = e.samplesIn100ms
  window : e'.window = e.window
  history : e'.history = e.history

theorem Ebu.SameCfg.refl (e : Ebu D S) : e.SameCfg e := ⟨rfl, rfl, rfl, rfl, rfl, rfl, rfl⟩
theorem Ebu.SameCfg.trans {e e' e'' : Ebu D S} (h : e.SameCfg e') (h' : e'.SameCfg e'') :
    e.SameCfg e'' :=
  ⟨h'.mode.trans h.mode, h'.rate.trans h.rate, h'.channels.trans h.channels, h'.map.trans h.map,
    h'.s100.trans h.s100, h'.window.trans h.window, h'.history.trans h.history⟩

/-! ## Construction -/

/-- The analyzer `EbuR128::new` returns. -/
def Ebu.init (E : Env D S) (channels rate : Nat) (mode : Mode) : Ebu D S :=
  let window := if mode.contains Mode.S then 3000 else 400
  { mode := mode
    rate := rate
    channels := channels
    audioData := List.replicate (ringFrames rate window * channels) E.f64.zero
    audioDataIndex := 0
    neededFrames := s100 rate * 4
    channelMap := defaultChannelMap channels
    samplesIn100ms := s100 rate
    filter := Filter.init E rate channels (mode.contains Mode.SAMPLE_PEAK)
      (mode.contains Mode.TRUE_PEAK)
    blockEnergyHistory := History.new (mode.contains Mode.HISTOGRAM) (E.usizeMax / 100)
    shortTermBlockEnergyHistory := History.new (mode.contains Mode.HISTOGRAM) (E.usizeMax / 3000)
    shortTermFrameCounter := 0
    samplePeak := List.replicate channels E.f64.zero
    truePeak := List.replicate channels E.f64.zero
    window := window
    history := E.usizeMax }

theorem Ebu.new_ok {E : Env D S} {channels rate : Nat} {mode : Mode} {e : Ebu D S}
    (h : Ebu.new E channels rate mode = .done (.ok e)) :
    e = Ebu.init E channels rate mode ∧ 1 ≤ channels ∧ channels ≤ 64 ∧ 16 ≤ rate ∧ rate ≤ 2822400 ∧
      mode.contains Mode.M = true := by
  unfold Ebu.new at h
  split at h
  · cases h
  · next hc =>
    split at h
    · cases h
    · next hr =>
      simp only [MAX_CHANNELS, MAX_RATE] at hc hr
      split at h
      · cases h
      · next hm =>
        have hm' : mode.contains Mode.M = true := by
          cases h1 : mode.contains Mode.M
          · cases h2 : mode.contains Mode.S
            · simp [h1, h2] at hm
            · rw [Mode.S_M mode h2] at h1; cases h1
          · rfl
        simp only [Run.bind_eq] at h
        obtain ⟨r, hr1, h⟩ := Run.bind_done h
        cases r with
        | error x => cases h
        | ok l =>
          have hl := allocate_ok hr1
          rw [Filter.new_eq E (by omega) (by omega)] at h
          cases h
          refine ⟨?_, by omega, by omega, by omega, by omega, hm'⟩
          simp only [hl, Ebu.init, Verif.s100]

theorem defaultChannelMap_length (n : Nat) : (defaultChannelMap n).length = n := by
  unfold defaultChannelMap
  split
  · rfl
  · rfl
  · simp; omega

theorem defaultChannelMap_dual (n : Nat) : Channel.dualMono ∉ defaultChannelMap n := by
  unfold defaultChannelMap
  split
  · decide
  · decide
  · intro h
    rcases List.mem_append.1 h with h | h
    · have := List.mem_of_mem_take h
      revert this; decide
    · have := List.eq_of_mem_replicate (List.mem_of_mem_drop h)
      cases this

theorem History.new_inv (b : Bool) (max : Nat) :
    (History.new b max : History D).Inv ∧ (History.new b max : History D).isHist = b := by
  unfold History.new
  cases b
  · exact ⟨trivial, rfl⟩
  · exact ⟨by simp only [if_true, Inv, List.length_replicate], rfl⟩

theorem Ebu.init_inv (E : Env D S) {channels rate : Nat} {mode : Mode} (h1 : 1 ≤ channels)
    (h2 : channels ≤ 64) (h3 : 16 ≤ rate) (h4 : rate ≤ 2822400) (h5 : mode.contains Mode.M = true) :
    (Ebu.init E channels rate mode).Inv E where
  ch1 := h1
  ch64 := h2
  rate16 := h3
  rateMax := h4
  s100 := rfl
  modeM := h5
  win := by simp only [Ebu.init]; split <;> omega
  winS := by intro h; simp only [Ebu.init] at h ⊢; simp [h]
  data := by simp [Ebu.init, Ebu.ring, Nat.mul_comm]
  idx := Nat.zero_le _
  needed := by simp only [Ebu.init]; have := s100_pos h3; omega
  map := defaultChannelMap_length _
  dual := fun h => absurd h (defaultChannelMap_dual _)
  filter := (Filter.init_inv E rate h1 _ _).1
  rect := (Filter.init_inv E rate h1 _ _).2
  fresh := Filter.resetP_init E rate channels _ _
  samplePeak := by simp [Ebu.init]
  truePeak := by simp [Ebu.init]
  hist := (History.new_inv _ _).1
  histKind := (History.new_inv _ _).2
  stHist := (History.new_inv _ _).1
  stHistKind := (History.new_inv _ _).2

theorem Ebu.new_inv {E : Env D S} {channels rate : Nat} {mode : Mode} {e : Ebu D S}
    (h : Ebu.new E channels rate mode = .done (.ok e)) : e.Inv E := by
  obtain ⟨rfl, h1, h2, h3, h4, h5⟩ := Ebu.new_ok h
  exact Ebu.init_inv E h1 h2 h3 h4 h5

/-! ## Channel maps -/

theorem Ebu.setChannel_inv {E : Env D S} {e : Ebu D S} (h : e.Inv E) (n : Nat) (v : Channel) :
    ∃ e' r, e.setChannel n v = .done (e', r) ∧ e'.Inv E := by
  unfold Ebu.setChannel
  split
  · exact ⟨_, _, rfl, h⟩
  · split
    · exact ⟨_, _, rfl, h⟩
    · rw [if_pos (by rw [h.map]; omega)]
      refine ⟨_, _, rfl, { h with map := ?_, dual := ?_ }⟩
      · simp [h.map]
      · intro hm
        next h1 h2 =>
        rcases List.mem_or_eq_of_mem_set hm with hm | hm
        · exact h.dual hm
        · by_cases h3 : e.channels = 1
          · exact h3
          · exact absurd ⟨hm.symm, .inl h3⟩ h2

theorem Ebu.setChannelMap_inv {E : Env D S} {e : Ebu D S} (h : e.Inv E) (m : List Channel) :
    ∃ e' r, e.setChannelMap m = .done (e', r) ∧ e'.Inv E := by
  unfold Ebu.setChannelMap
  split
  · exact ⟨_, _, rfl, h⟩
  · next h1 =>
    simp only [ne_eq, Decidable.not_not] at h1
    split
    · exact ⟨_, _, rfl, h⟩
    · next h2 =>
      rw [if_pos (by rw [h.map, h1])]
      refine ⟨_, _, rfl, { h with map := h1, dual := ?_ }⟩
      intro hm
      simp only at hm
      obtain ⟨i, hi⟩ := List.mem_iff_getElem?.1 hm
      simp only [Bool.not_eq_true, List.any_eq_false, decide_eq_true_eq] at h2
      have := h2 (Channel.dualMono, i) (by rw [List.mem_zipIdx_iff_getElem?]; exact hi)
      simp only [true_and, not_or, Decidable.not_not] at this
      exact this.1

/-! ## Windows, histories, reset -/

theorem clampMs_ge {mode : Mode} (hm : mode.contains Mode.M = true) (w : Nat) :
    400 ≤ clampMs mode w ∧ (mode.contains Mode.S = true → 3000 ≤ clampMs mode w) := by
  unfold clampMs
  by_cases h : mode.contains Mode.S = true
  · rw [if_pos h]; omega
  · rw [if_neg h, if_pos hm]; exact ⟨by omega, fun h' => absurd h' h⟩

/-- A restart of the ring buffer with a given window. -/
def Ebu.restartP (E : Env D S) (e : Ebu D S) (window : Nat) : Ebu D S :=
  { e with
    audioData := List.replicate (ringFrames e.rate window * e.channels) E.f64.zero
    window := window
    neededFrames := e.samplesIn100ms * 4
    audioDataIndex := 0
    shortTermFrameCounter := 0 }

theorem Ebu.setMaxWindow_inv {E : Env D S} {e : Ebu D S} (h : e.Inv E) (w : Nat) :
    e.setMaxWindow E w = .panic ∨ ∃ e' r, e.setMaxWindow E w = .done (e', r) ∧ e'.Inv E := by
  unfold Ebu.setMaxWindow
  have hc := clampMs_ge h.modeM w
  generalize hw : clampMs e.mode w = w' at hc
  by_cases h1 : w' = e.window
  · simp only [h1, if_true]; exact .inr ⟨_, _, rfl, h⟩
  · simp only [h1, if_false, Run.bind_eq]
    cases ha : allocateAudioData E e.channels e.rate w' with
    | hang => exact (allocate_ne_hang _ _ _ _ ha).elim
    | panic => exact .inl rfl
    | done r =>
      right
      cases r with
      | error x => exact ⟨_, _, rfl, h⟩
      | ok l =>
        have hl := allocate_ok ha
        refine ⟨_, _, rfl, { h with win := hc.1, winS := hc.2, data := ?_, idx := ?_, needed := ?_ }⟩
        · simp [hl, Ebu.ring, Nat.mul_comm]
        · exact Nat.zero_le _
        · have := s100_pos h.rate16
          simp only [h.s100]; omega

theorem History.setMaxSize_inv (E : Env D S) {x : History D} (h : x.Inv) (max : Nat) :
    (x.setMaxSize E max).Inv ∧ (x.setMaxSize E max).isHist = x.isHist := by
  cases x with
  | histogram l => exact ⟨h, rfl⟩
  | queue q m =>
    unfold History.setMaxSize
    simp only
    split <;> exact ⟨trivial, rfl⟩

theorem Ebu.setMaxHistory_inv {E : Env D S} {e : Ebu D S} (h : e.Inv E) (x : Nat) :
    (e.setMaxHistory E x).1.Inv E := by
  unfold Ebu.setMaxHistory
  simp only
  split
  · exact h
  · exact { h with
      hist := (History.setMaxSize_inv E h.hist _).1
      histKind := (History.setMaxSize_inv E h.hist _).2.trans h.histKind
      stHist := (History.setMaxSize_inv E h.stHist _).1
      stHistKind := (History.setMaxSize_inv E h.stHist _).2.trans h.stHistKind }

theorem History.reset_inv {x : History D} (h : x.Inv) : x.reset.Inv ∧ x.reset.isHist = x.isHist := by
  cases x with
  | histogram l => exact ⟨by simpa only [History.reset, Inv, List.length_map] using h, rfl⟩
  | queue q m => exact ⟨trivial, rfl⟩

/-- `reset` without faults. -/
def Ebu.resetP (E : Env D S) (e : Ebu D S) : Ebu D S :=
  { e with
    audioData := e.audioData.map fun _ => E.f64.zero
    neededFrames := e.samplesIn100ms * 4
    audioDataIndex := 0
    shortTermFrameCounter := 0
    truePeak := e.truePeak.map fun _ => E.f64.zero
    samplePeak := e.samplePeak.map fun _ => E.f64.zero
    filter := e.filter.resetP E
    blockEnergyHistory := e.blockEnergyHistory.reset
    shortTermBlockEnergyHistory := e.shortTermBlockEnergyHistory.reset }

theorem Ebu.reset_eq {E : Env D S} {e : Ebu D S} (h : e.Inv E) :
    e.reset E = .done (e.resetP E) ∧ (e.resetP E).Inv E := by
  refine ⟨?_, ?_⟩
  · simp only [Ebu.reset, Run.bind_eq, Filter.reset_eq E h.filter, Run.done_bind, Ebu.resetP]
  · have hf := Filter.init_inv E e.rate h.ch1 (e.mode.contains Mode.SAMPLE_PEAK)
      (e.mode.contains Mode.TRUE_PEAK)
    rw [← h.fresh] at hf
    exact { h with
      data := by simp only [Ebu.resetP, List.length_map]; exact h.data
      idx := Nat.zero_le _
      needed := by have := s100_pos h.rate16; simp only [Ebu.resetP, h.s100]; omega
      filter := hf.1
      rect := hf.2
      fresh := by simp only [Ebu.resetP]; rw [Filter.resetP_idem, h.fresh]
      samplePeak := by simp only [Ebu.resetP, List.length_map]; exact h.samplePeak
      truePeak := by simp only [Ebu.resetP, List.length_map]; exact h.truePeak
      hist := (History.reset_inv h.hist).1
      histKind := (History.reset_inv h.hist).2.trans h.histKind
      stHist := (History.reset_inv h.stHist).1
      stHistKind := (History.reset_inv h.stHist).2.trans h.stHistKind }

/-! ## Changing parameters -/

/-- The analyzer after a successful effective `change_parameters`. -/
def Ebu.changeP (E : Env D S) (e : Ebu D S) (channels rate : Nat) : Ebu D S :=
  { e with
    channels := channels
    rate := rate
    samplesIn100ms := s100 rate
    audioData := List.replicate (ringFrames rate e.window * channels) E.f64.zero
    channelMap := if e.channels ≠ channels then defaultChannelMap channels else e.channelMap
    samplePeak := if e.channels ≠ channels then List.replicate channels E.f64.zero else e.samplePeak
    truePeak := if e.channels ≠ channels then List.replicate channels E.f64.zero else e.truePeak
    filter := Filter.init E rate channels (e.mode.contains Mode.SAMPLE_PEAK)
      (e.mode.contains Mode.TRUE_PEAK)
    neededFrames := s100 rate * 4
    audioDataIndex := 0
    shortTermFrameCounter := 0 }

theorem Ebu.changeP_inv {E : Env D S} {e : Ebu D S} (h : e.Inv E) {channels rate : Nat}
    (h1 : 1 ≤ channels) (h2 : channels ≤ 64) (h3 : 16 ≤ rate) (h4 : rate ≤ 2822400) :
    (e.changeP E channels rate).Inv E where
  ch1 := h1
  ch64 := h2
  rate16 := h3
  rateMax := h4
  s100 := rfl
  modeM := h.modeM
  win := h.win
  winS := h.winS
  data := by simp [Ebu.changeP, Ebu.ring, Nat.mul_comm]
  idx := Nat.zero_le _
  needed := by simp only [Ebu.changeP]; have := s100_pos h3; omega
  map := by
    simp only [Ebu.changeP]
    split
    · exact defaultChannelMap_length _
    · next hc => simp only [ne_eq, Decidable.not_not] at hc; rw [h.map, hc]
  dual := by
    simp only [Ebu.changeP]
    split
    · exact fun hd => absurd hd (defaultChannelMap_dual _)
    · next hc => simp only [ne_eq, Decidable.not_not] at hc; rw [← hc]; exact h.dual
  filter := (Filter.init_inv E rate h1 _ _).1
  rect := (Filter.init_inv E rate h1 _ _).2
  fresh := Filter.resetP_init E rate channels _ _
  samplePeak := by
    simp only [Ebu.changeP]
    split
    · simp
    · next hc => simp only [ne_eq, Decidable.not_not] at hc; rw [h.samplePeak, hc]
  truePeak := by
    simp only [Ebu.changeP]
    split
    · simp
    · next hc => simp only [ne_eq, Decidable.not_not] at hc; rw [h.truePeak, hc]
  hist := h.hist
  histKind := h.histKind
  stHist := h.stHist
  stHistKind := h.stHistKind

theorem Ebu.changeParameters_eq {E : Env D S} {e : Ebu D S} (h : e.Inv E) (channels rate : Nat) :
    e.changeParameters E channels rate =
      if channels = 0 ∨ 64 < channels ∨ rate < 16 ∨ 2822400 < rate then .done (e, .error .noMem)
      else if e.rate = rate ∧ e.channels = channels then .done (e, .ok ())
      else Run.bind (allocateAudioData E channels rate e.window) fun r =>
        match r with
        | .error x => .done (e, .error x)
        | .ok _ => .done (e.changeP E channels rate, .ok ()) := by
  simp only [Ebu.changeParameters]
  by_cases hc : channels = 0 ∨ MAX_CHANNELS < channels
  · rw [if_pos hc, if_pos (by simp only [MAX_CHANNELS] at hc; omega)]
  · rw [if_neg hc]
    by_cases hr : ¬(16 ≤ rate ∧ rate ≤ MAX_RATE)
    · rw [if_pos hr, if_pos (by simp only [MAX_RATE] at hr; omega)]
    · rw [if_neg hr, if_neg (c := channels = 0 ∨ _) (by simp only [MAX_RATE, MAX_CHANNELS] at hr hc; omega)]
      simp only [MAX_RATE, MAX_CHANNELS] at hr hc
      by_cases he : e.rate = rate ∧ e.channels = channels
      · rw [if_pos he, if_pos he]
      · rw [if_neg he, if_neg he]
        simp only [Run.bind_eq]
        cases ha : allocateAudioData E channels rate e.window with
        | hang => rfl
        | panic => rfl
        | done r =>
          cases r with
          | error x => rfl
          | ok l =>
            have hl := allocate_ok ha
            simp only [Run.done_bind, Filter.new_eq E (show 0 < rate by omega)
              (show 0 < channels by omega)]
            have hs := h.s100
            simp only [Verif.s100] at hs
            by_cases hch : e.channels = channels
            · have hrt : e.rate ≠ rate := fun hx => he ⟨hx, hch⟩
              simp [hch, hrt, hl, Ebu.changeP, Verif.s100]
            · by_cases hrt : e.rate = rate
              · simp [hch, hrt, hl, Ebu.changeP, Verif.s100, hs]
              · simp [hch, hrt, hl, Ebu.changeP, Verif.s100]

theorem Ebu.changeParameters_inv {E : Env D S} {e : Ebu D S} (h : e.Inv E) (channels rate : Nat) :
    e.changeParameters E channels rate = .panic ∨
      ∃ e' r, e.changeParameters E channels rate = .done (e', r) ∧ e'.Inv E := by
  rw [Ebu.changeParameters_eq h]
  split
  · exact .inr ⟨_, _, rfl, h⟩
  · next hb =>
    split
    · exact .inr ⟨_, _, rfl, h⟩
    · cases ha : allocateAudioData E channels rate e.window with
      | hang => exact (allocate_ne_hang _ _ _ _ ha).elim
      | panic => exact .inl rfl
      | done r =>
        right
        cases r with
        | error x => exact ⟨_, _, rfl, h⟩
        | ok l => exact ⟨_, _, rfl, Ebu.changeP_inv h (by omega) (by omega) (by omega) (by omega)⟩

end Verif
