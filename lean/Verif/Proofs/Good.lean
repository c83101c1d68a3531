import Verif.Proofs.Add
/-! # Adding frames when the ring buffer holds the windows the mode needs -/

set_option linter.unusedSimpArgs false

namespace Verif
variable {D S T : Type} {Sm : Type → Type}

/-- The ring buffer holds 400 ms, and 3 s if the loudness range is measured. -/
structure Ebu.Good (e : Ebu D S) : Prop where
  gate : e.samplesIn100ms * 4 ≤ e.ring
  short : e.mode.contains Mode.LRA = true → e.samplesIn100ms * 30 ≤ e.ring

/-- Frames until the next 100 ms step, `n` frames after the start. -/
def needAt (s n : Nat) : Nat := if n < 4 * s then 4 * s - n else s - n % s

/-- Short-term frame counter `n` frames after the start. -/
def stcAt (s n : Nat) : Nat := if n < 30 * s then n else 20 * s + n % (10 * s)

/-- The counters are those of `n` frames after the last restart. -/
structure Ebu.PosAt (e : Ebu D S) (n : Nat) : Prop where
  idx : e.audioDataIndex = n % e.ring
  needed : e.neededFrames = needAt e.samplesIn100ms n
  stc : e.shortTermFrameCounter = if e.mode.contains Mode.LRA then stcAt e.samplesIn100ms n else 0

/-! ## Counter arithmetic -/

theorem needAt_pos {s : Nat} (hs : 0 < s) (n : Nat) : 0 < needAt s n := by
  unfold needAt
  have := Nat.mod_lt n hs
  split <;> omega

theorem needAt_add {s n k : Nat} (hs : 0 < s) (h : k < needAt s n) :
    needAt s (n + k) = needAt s n - k := by
  unfold needAt at *
  have hm := Nat.mod_lt n hs
  by_cases h1 : n < 4 * s
  · rw [if_pos h1] at h ⊢; rw [if_pos (by omega)]; omega
  · rw [if_neg h1] at h ⊢; rw [if_neg (by omega)]
    rw [show (n + k) % s = n % s + k from ?_]
    · omega
    · have h2 := Nat.div_add_mod n s
      rw [← h2, Nat.add_assoc, Nat.mul_add_mod, Nat.mul_add_mod, Nat.mod_mod,
        Nat.mod_eq_of_lt (a := n % s + k) (by omega)]

/-- At the end of a step. -/
theorem needAt_end {s n : Nat} (hs : 0 < s) :
    (n + needAt s n) % s = 0 ∧ 4 * s ≤ n + needAt s n ∧ needAt s (n + needAt s n) = s := by
  have hm := Nat.mod_lt n hs
  have key : (n + needAt s n) % s = 0 ∧ 4 * s ≤ n + needAt s n := by
    unfold needAt
    by_cases h1 : n < 4 * s
    · rw [if_pos h1, show n + (4 * s - n) = 4 * s by omega]
      exact ⟨by simp, Nat.le_refl _⟩
    · rw [if_neg h1]
      refine ⟨?_, by omega⟩
      have h2 := Nat.div_add_mod n s
      have : n + (s - n % s) = s * (n / s + 1) := by rw [Nat.mul_add]; omega
      rw [this, Nat.mul_mod_right]
  refine ⟨key.1, key.2, ?_⟩
  generalize n + needAt s n = m at *
  unfold needAt
  rw [if_neg (by omega), key.1]
  omega

theorem mod_add_of_lt {n k L : Nat} (h : n % L + k < L) : (n + k) % L = n % L + k := by
  have h2 := Nat.div_add_mod n L
  rw [← h2, Nat.add_assoc, Nat.mul_add_mod, Nat.mul_add_mod, Nat.mod_mod, Nat.mod_eq_of_lt h]

theorem mod_add_of_eq {n k L : Nat} (h : n % L + k = L) : (n + k) % L = 0 := by
  have h2 := Nat.div_add_mod n L
  rw [← h2, Nat.add_assoc, h]
  simp

/-- The rest of a step fits in front of any boundary that is a multiple of `s` (and at least `4s`). -/
theorem idx_need {s n L : Nat} (hs : 0 < s) (hL : L % s = 0) (h4 : 4 * s ≤ L) :
    n % L + needAt s n ≤ L := by
  obtain ⟨q, rfl⟩ := Nat.dvd_of_mod_eq_zero hL
  have hm := Nat.mod_lt n hs
  have hmL := Nat.mod_lt n (show 0 < s * q by omega)
  unfold needAt
  by_cases h1 : n < 4 * s
  · rw [if_pos h1]
    have : n % (s * q) ≤ n := Nat.mod_le _ _
    by_cases h2 : n < s * q
    · rw [Nat.mod_eq_of_lt h2]; omega
    · have : n % (s * q) = 0 ∨ True := .inr trivial
      omega
  · rw [if_neg h1]
    have h3 : n % (s * q) % s = n % s := Nat.mod_mul_right_mod n s q
    generalize n % (s * q) = r at *
    have h5 := Nat.div_add_mod r s
    have h6 : r / s < q := by
      rw [Nat.div_lt_iff_lt_mul hs, Nat.mul_comm]; exact hmL
    have h7 : s * (r / s + 1) ≤ s * q := Nat.mul_le_mul_left _ h6
    rw [Nat.mul_add] at h7
    omega

theorem stcAt_add {s n k : Nat} (hs : 0 < s) (h : k < needAt s n) :
    stcAt s (n + k) = stcAt s n + k := by
  have h30 := idx_need (n := n) (L := 30 * s) hs (by simp) (by omega)
  have h10 := idx_need (n := n) (L := 10 * s) hs (by simp) (by omega)
  unfold stcAt
  by_cases h1 : n < 30 * s
  · rw [Nat.mod_eq_of_lt h1] at h30
    rw [if_pos h1, if_pos (by omega)]
  · rw [if_neg h1, if_neg (by omega), mod_add_of_lt (by omega)]
    omega

/-- At the end of a step the counter has reached `30 s` exactly every second from 3 s on. -/
theorem stcAt_end {s n : Nat} (hs : 0 < s) :
    let m := n + needAt s n
    (stcAt s n + needAt s n = s * 30 ↔ 30 * s ≤ m ∧ m % (10 * s) = 0) ∧
    stcAt s m = if 30 * s ≤ m ∧ m % (10 * s) = 0 then s * 20 else stcAt s n + needAt s n := by
  intro m
  have h30 := idx_need (n := n) (L := 30 * s) hs (by simp) (by omega)
  have h10 := idx_need (n := n) (L := 10 * s) hs (by simp) (by omega)
  have hm10 := Nat.mod_lt n (show 0 < 10 * s by omega)
  by_cases h1 : n < 30 * s
  · rw [Nat.mod_eq_of_lt h1] at h30
    have hst : stcAt s n = n := if_pos h1
    rw [hst]
    by_cases h2 : m = 30 * s
    · have h3 : m % (10 * s) = 0 := by rw [h2, show 30 * s = 10 * s * 3 by omega, Nat.mul_mod_right]
      refine ⟨⟨fun _ => ⟨by omega, h3⟩, fun _ => by omega⟩, ?_⟩
      rw [if_pos ⟨by omega, h3⟩]
      unfold stcAt
      rw [if_neg (by omega), h3]
      omega
    · have h3 : ¬ 30 * s ≤ m := by omega
      refine ⟨⟨fun h => by omega, fun h => absurd h.1 h3⟩, ?_⟩
      rw [if_neg (fun h => h3 h.1)]
      exact if_pos (by omega)
  · have hst : stcAt s n = 20 * s + n % (10 * s) := if_neg h1
    rw [hst]
    by_cases h2 : n % (10 * s) + needAt s n = 10 * s
    · have h3 : m % (10 * s) = 0 := mod_add_of_eq h2
      refine ⟨⟨fun _ => ⟨by omega, h3⟩, fun _ => by omega⟩, ?_⟩
      rw [if_pos ⟨by omega, h3⟩]
      unfold stcAt
      rw [if_neg (by omega), h3]
      omega
    · have h3 : m % (10 * s) = n % (10 * s) + needAt s n := mod_add_of_lt (by omega)
      have hp := needAt_pos hs n
      have h4 : ¬ (30 * s ≤ m ∧ m % (10 * s) = 0) := by omega
      refine ⟨⟨fun h => by omega, fun h => absurd h h4⟩, ?_⟩
      rw [if_neg h4]
      unfold stcAt
      rw [if_neg (by omega), h3]
      omega

/-! ## The steps -/

theorem Ebu.Inv.idx_room {E : Env D S} {e : Ebu D S} (h : e.Inv E) (hg : e.Good) {n : Nat}
    (hp : e.PosAt n) : e.audioDataIndex + e.neededFrames ≤ e.ring := by
  have hs := s100_pos h.rate16
  rw [hp.idx, hp.needed, h.s100]
  refine idx_need hs ?_ ?_
  · exact ringFrames_mod e.rate e.window
  · have := hg.gate; rw [h.s100] at this; omega

theorem Ebu.advanceP_pos {E : Env D S} (ops : SampleOps D S T) {e : Ebu D S} (h : e.Inv E)
    (hg : e.Good) {n : Nat} (hp : e.PosAt n) {fs : List (List T)}
    (hk : fs.length < e.neededFrames) : (e.advanceP E ops fs).PosAt (n + fs.length) := by
  have hroom := h.idx_room hg hp
  have hs : 0 < e.samplesIn100ms := by rw [h.s100]; exact s100_pos h.rate16
  have hk' := hk
  rw [hp.needed] at hk'
  refine ⟨?_, ?_, ?_⟩
  · show e.audioDataIndex + fs.length = (n + fs.length) % e.ring
    have := hp.idx
    rw [mod_add_of_lt (by omega), this]
  · show e.neededFrames - fs.length = needAt e.samplesIn100ms (n + fs.length)
    rw [needAt_add hs hk', hp.needed]
  · have := hp.stc
    show (if e.mode.contains Mode.LRA then e.shortTermFrameCounter + fs.length
      else e.shortTermFrameCounter) =
      if e.mode.contains Mode.LRA then stcAt e.samplesIn100ms (n + fs.length) else 0
    split
    · next hl => rw [if_pos hl] at this; rw [stcAt_add hs hk', this]
    · next hl => rw [this, if_neg hl]

theorem Ebu.shortP_fields (E : Env D S) (e : Ebu D S) :
    (e.shortP E).mode = e.mode ∧ (e.shortP E).rate = e.rate ∧ (e.shortP E).channels = e.channels ∧
    (e.shortP E).audioData = e.audioData ∧ (e.shortP E).audioDataIndex = e.audioDataIndex ∧
    (e.shortP E).samplesIn100ms = e.samplesIn100ms ∧ (e.shortP E).window = e.window ∧
    (e.shortP E).filter = e.filter ∧ (e.shortP E).blockEnergyHistory = e.blockEnergyHistory ∧
    (e.shortP E).channelMap = e.channelMap := by
  unfold Ebu.shortP
  split <;> exact ⟨rfl, rfl, rfl, rfl, rfl, rfl, rfl, rfl, rfl, rfl⟩

theorem Ebu.completeP_sameCfg (E : Env D S) (e : Ebu D S) : e.SameCfg (e.completeP E) := by
  unfold Ebu.completeP Ebu.shortP
  split <;> exact ⟨rfl, rfl, rfl, rfl, rfl, rfl, rfl⟩

theorem Ebu.completeP_inv {E : Env D S} {e : Ebu D S} {k : Nat}
    (h : ({ e with neededFrames := k } : Ebu D S).Inv E) : (e.completeP E).Inv E := by
  have h1 : ({ e.gateP E with neededFrames := k } : Ebu D S).Inv E := by
    refine { h with hist := ?_, histKind := ?_ }
    · simp only [Ebu.gateP]
      split
      · exact History.addP_inv E h.hist _
      · exact h.hist
    · simp only [Ebu.gateP]
      split
      · exact (History.addP_isHist E _ _).trans h.histKind
      · exact h.histKind
  have h2 : ({ (e.gateP E).shortP E with neededFrames := k } : Ebu D S).Inv E := by
    unfold Ebu.shortP
    split
    · exact { h1 with
        stHist := History.addP_inv E h1.stHist _
        stHistKind := (History.addP_isHist E _ _).trans h1.stHistKind }
    · exact h1
  have h3 := Ebu.wrap_inv h2
  exact h3

theorem Ebu.completeP_pos {E : Env D S} (ops : SampleOps D S T) {e : Ebu D S} (h : e.Inv E)
    (hg : e.Good) {n : Nat} (hp : e.PosAt n) {fs : List (List T)} (hf : RectF e.channels fs)
    (hk : fs.length = e.neededFrames) :
    ((e.advanceP E ops fs).completeP E).PosAt (n + fs.length) := by
  have hroom := h.idx_room hg hp
  have hs : 0 < e.samplesIn100ms := by rw [h.s100]; exact s100_pos h.rate16
  have hk' := hk
  rw [hp.needed] at hk'
  have hadv := Ebu.advanceP_inv ops h hf (by omega) (k := 1) (Nat.le_refl 1)
  have hstride : (e.advanceP E ops fs).audioData.length / (e.advanceP E ops fs).channels = e.ring :=
    (Ebu.stride_eq hadv.1 :)
  have hsame := Ebu.completeP_sameCfg E (e.advanceP E ops fs)
  have hring : ((e.advanceP E ops fs).completeP E).ring = e.ring := by
    simp only [Ebu.ring, hsame.rate, hsame.window]; rfl
  have hend := needAt_end (n := n) hs
  refine ⟨?_, ?_, ?_⟩
  · rw [hring]
    have hi : ((e.advanceP E ops fs).completeP E).audioDataIndex =
        if e.audioDataIndex + fs.length = e.ring then 0 else e.audioDataIndex + fs.length := by
      obtain ⟨f1, f2, f3, f4, f5, f6, f7, f8⟩ := Ebu.shortP_fields E ((e.advanceP E ops fs).gateP E)
      simp only [Ebu.completeP, Ebu.wrap, f3, f4, f5]
      rw [← hstride]
      rfl
    rw [hi]
    have hidx := hp.idx
    split
    · rw [mod_add_of_eq (by omega)]
    · rw [mod_add_of_lt (by omega), hidx]
  · rw [hsame.s100]
    show ((e.advanceP E ops fs).completeP E).neededFrames = needAt e.samplesIn100ms _
    rw [hk', hend.2.2]
    obtain ⟨f1, f2, f3, f4, f5, f6, f7, f8⟩ := Ebu.shortP_fields E ((e.advanceP E ops fs).gateP E)
    simp only [Ebu.completeP, Ebu.wrap, f6]
    rfl
  · rw [hsame.mode, hsame.s100]
    show ((e.advanceP E ops fs).completeP E).shortTermFrameCounter =
      if e.mode.contains Mode.LRA then stcAt e.samplesIn100ms (n + fs.length) else 0
    have hst := hp.stc
    have h3 := stcAt_end (n := n) hs
    simp only at h3
    rw [hk']
    by_cases hl : e.mode.contains Mode.LRA = true
    · rw [if_pos hl] at hst ⊢
      rw [h3.2]
      simp only [Ebu.completeP, Ebu.wrap, Ebu.shortP, Ebu.gateP, Ebu.advanceP, hl, if_true, true_and,
        hst, hk']
      by_cases h4 : stcAt e.samplesIn100ms n + needAt e.samplesIn100ms n = e.samplesIn100ms * 30
      · rw [if_pos h4, if_pos (h3.1.1 h4)]
      · rw [if_neg h4, if_neg (fun h5 => h4 (h3.1.2 h5))]
    · rw [if_neg hl] at hst ⊢
      simp only [Ebu.completeP, Ebu.wrap, Ebu.shortP, Ebu.gateP, Ebu.advanceP, hl, if_false,
        false_and, hst]
      rfl

theorem Ebu.recordShortTerm_eq {E : Env D S} {e : Ebu D S} (h : e.Inv E)
    (hg : e.mode.contains Mode.LRA = true → e.samplesIn100ms * 30 ≤ e.ring) (k : Nat) :
    e.recordShortTerm E k = .done
      (({ e with shortTermFrameCounter :=
          if e.mode.contains Mode.LRA then e.shortTermFrameCounter + k
          else e.shortTermFrameCounter } : Ebu D S).shortP E, .ok ()) := by
  unfold Ebu.recordShortTerm Ebu.shortP
  by_cases hl : e.mode.contains Mode.LRA = true
  · have h' : ({ e with shortTermFrameCounter := e.shortTermFrameCounter + k } : Ebu D S).Inv E :=
      { h with }
    rw [if_pos hl]
    simp only [hl, if_true, true_and, Run.bind_eq]
    by_cases hc : e.shortTermFrameCounter + k = e.samplesIn100ms * 30
    · rw [if_pos hc, if_pos hc]
      have hr : ¬ (Ebu.ring { e with shortTermFrameCounter := e.shortTermFrameCounter + k }) <
          e.samplesIn100ms * 30 := by
        have := hg hl
        show ¬ e.ring < _
        omega
      have he := Ebu.energyInInterval_eq h' (e.samplesIn100ms * 30)
      rw [if_neg hr] at he
      simp only [Ebu.energyShortterm, he, Run.done_bind, History.add_eq E h.stHist]
    · rw [if_neg hc, if_neg hc]
  · rw [if_neg hl]
    simp only [if_neg hl]
    rw [if_neg (fun h => hl h.1)]

theorem Ebu.blockStep_eq [Samples Sm] [LawfulSamples Sm] {E : Env D S} (ops : SampleOps D S T)
    {e : Ebu D S} (h : e.Inv E) (hg : e.Good) {src : Sm T} (hw : LawfulSamples.WF src)
    (hn : Samples.channels src = e.channels)
    (hl : (LawfulSamples.toFrames src).length = e.neededFrames)
    (hi : e.audioDataIndex + e.neededFrames ≤ e.ring) :
    e.blockStep E ops src =
      .done ((e.advanceP E ops (LawfulSamples.toFrames src)).completeP E, .ok ()) := by
  have hi' : e.audioDataIndex + (LawfulSamples.toFrames src).length ≤ e.ring := by omega
  have hrect : RectF e.channels (LawfulSamples.toFrames src) := by
    rw [← hn]; exact LawfulSamples.rect hw
  have hadv := (Ebu.advanceP_inv ops h hrect hi' h.needed).1
  generalize hfs : LawfulSamples.toFrames src = fs at *
  -- the state on which the gating block is measured
  let e1 : Ebu D S := { e with
        filter := e.filter.processP E ops fs e.channelMap
        audioData := (rowsP E ops e.filter fs e.rows e.audioDataIndex e.channelMap).flatten
        audioDataIndex := e.audioDataIndex + e.neededFrames }
  have h1 : e1.Inv E := { hadv with idx := hi }
  have hpc := Ebu.processChunk_eq ops h hw hn (by rw [hfs]; exact hi')
  rw [hfs] at hpc
  have hgate : e1.recordGating E = .done (e1.gateP E) := by
    unfold Ebu.recordGating Ebu.gateP
    split
    · simp only [Run.bind_eq, Ebu.calc_eq h1 (n := e1.samplesIn100ms * 4) hg.gate, Run.done_bind,
        History.add_eq E h1.hist]
    · rfl
  have h2 : (e1.gateP E).Inv E := by
    refine { h1 with hist := ?_, histKind := ?_ }
    · simp only [Ebu.gateP]
      split
      · exact History.addP_inv E h1.hist _
      · exact h1.hist
    · simp only [Ebu.gateP]
      split
      · exact (History.addP_isHist E _ _).trans h1.histKind
      · exact h1.histKind
  have hshort := Ebu.recordShortTerm_eq h2 hg.short e.neededFrames
  simp only [Ebu.blockStep, Run.bind_eq, hpc, Run.done_bind]
  show (Run.bind (e1.recordGating E) fun e => _) = _
  rw [hgate]
  simp only [Run.done_bind]
  rw [hshort]
  simp only [Run.done_bind, Ebu.completeP]
  congr 2
  by_cases hl' : e.mode.contains Mode.LRA = true
  · simp only [Ebu.advanceP, Ebu.gateP, Ebu.shortP, hl', if_true, e1, true_and, hl, Ebu.wrap, Ebu.energyP,
      Ebu.rows, Ebu.ring]
    split <;> rfl
  · simp only [Ebu.advanceP, Ebu.gateP, Ebu.shortP, hl', if_false, e1, false_and, hl, Ebu.wrap, Ebu.energyP,
      Ebu.rows, Ebu.ring]
    rfl

/-- The loop of `add_frames` on a list of frames. -/
def Ebu.addLoopP (E : Env D S) (ops : SampleOps D S T) : Nat → Ebu D S → List (List T) → Ebu D S
  | 0, e, _ => e
  | fuel + 1, e, fs =>
    if fs.length = 0 then e
    else if e.neededFrames ≤ fs.length then
      Ebu.addLoopP E ops fuel ((e.advanceP E ops (fs.take e.neededFrames)).completeP E)
        (fs.drop e.neededFrames)
    else e.advanceP E ops fs

theorem Ebu.Good.of_same {e e' : Ebu D S} (hg : e.Good) (h : e.SameCfg e') : e'.Good := by
  have hr : e'.ring = e.ring := by simp only [Ebu.ring, h.rate, h.window]
  refine ⟨?_, ?_⟩
  · rw [hr, h.s100]; exact hg.gate
  · rw [hr, h.s100, h.mode]; exact hg.short

theorem Ebu.addLoop_eq [Samples Sm] [LawfulSamples Sm] {E : Env D S} (ops : SampleOps D S T)
    (fuel : Nat) {e : Ebu D S} (h : e.Inv E) (hg : e.Good) {n : Nat} (hp : e.PosAt n) {src : Sm T}
    (hw : LawfulSamples.WF src) (hn : Samples.channels src = e.channels)
    (hfuel : (LawfulSamples.toFrames src).length + 1 < fuel) :
    e.addLoop E ops fuel src = .done (e.addLoopP E ops fuel (LawfulSamples.toFrames src), .ok ()) ∧
      (e.addLoopP E ops fuel (LawfulSamples.toFrames src)).Inv E ∧
      e.SameCfg (e.addLoopP E ops fuel (LawfulSamples.toFrames src)) ∧
      (e.addLoopP E ops fuel (LawfulSamples.toFrames src)).PosAt
        (n + (LawfulSamples.toFrames src).length) := by
  induction fuel generalizing e src n with
  | zero => omega
  | succ fuel ih =>
    have hroom := h.idx_room hg hp
    simp only [Ebu.addLoop, LawfulSamples.frames_eq hw, Ebu.addLoopP]
    by_cases h0 : (LawfulSamples.toFrames src).length = 0
    · simp only [h0, if_true]
      exact ⟨trivial, h, Ebu.SameCfg.refl e, hp⟩
    · simp only [h0, if_false]
      by_cases hle : e.neededFrames ≤ (LawfulSamples.toFrames src).length
      · simp only [hle, if_true]
        obtain ⟨a, b, hs, ha, hb, hca, hcb, hfa, hfb⟩ := LawfulSamples.split_eq hw _ hle
        have hla : (LawfulSamples.toFrames a).length = e.neededFrames := by
          rw [hfa, List.length_take]; omega
        have hrect : RectF e.channels (LawfulSamples.toFrames a) := by
          rw [← hn, ← hca]; exact LawfulSamples.rect ha
        simp only [Run.bind_eq, hs, Run.done_bind,
          Ebu.blockStep_eq ops h hg ha (hca.trans hn) hla hroom]
        have hadv := Ebu.advanceP_inv ops h hrect (by omega) (k := 1) (Nat.le_refl 1)
        have hinv := Ebu.completeP_inv hadv.1
        have hsame := hadv.2.trans (Ebu.completeP_sameCfg E (e.advanceP E ops (LawfulSamples.toFrames a)))
        have hpos := Ebu.completeP_pos ops h hg hp hrect hla
        have hlb : (LawfulSamples.toFrames b).length + 1 < fuel := by
          rw [hfb, List.length_drop]; have := h.needed; omega
        have := ih hinv (hg.of_same hsame) hpos hb (by rw [hcb, hn, hsame.channels]) hlb
        rw [hfb, hfa] at this
        refine ⟨?_, this.2.1, ?_, ?_⟩
        · rw [hfa]; exact this.1
        · rw [hfa] at hsame; exact hsame.trans this.2.2.1
        · have hp' := this.2.2.2
          rw [show n + (List.take e.neededFrames (LawfulSamples.toFrames src)).length +
            (List.drop e.neededFrames (LawfulSamples.toFrames src)).length =
            n + (LawfulSamples.toFrames src).length by
              rw [List.length_take, List.length_drop]; omega] at hp'
          exact hp'
      · simp only [hle, if_false]
        obtain ⟨a, b, hs, ha, hb, hca, hcb, hfa, hfb⟩ :=
          LawfulSamples.split_eq hw _ (Nat.le_refl (LawfulSamples.toFrames src).length)
        rw [List.take_length] at hfa
        rw [List.drop_length] at hfb
        simp only [Run.bind_eq, hs, Run.done_bind]
        rw [← hfa] at hle ⊢
        have hrect : RectF e.channels (LawfulSamples.toFrames a) := by
          rw [← hn, ← hca]; exact LawfulSamples.rect ha
        rw [Ebu.tailStep_eq ops h ha (hca.trans hn) (by omega)]
        simp only [Run.done_bind]
        have hadv := Ebu.advanceP_inv ops h hrect (by omega)
          (k := e.neededFrames - (LawfulSamples.toFrames a).length) (by omega)
        have hpos := Ebu.advanceP_pos ops h hg hp (fs := LawfulSamples.toFrames a) (by omega)
        refine ⟨?_, hadv.1, hadv.2, hpos⟩
        cases fuel with
        | zero => omega
        | succ fuel =>
          have hb0 : Samples.frames b = 0 := by rw [LawfulSamples.frames_eq hb, hfb]; rfl
          simp only [Ebu.addLoop, hb0, if_true]

/-- `add_frames` on a list of frames. -/
def Ebu.addP (E : Env D S) (ops : SampleOps D S T) (e : Ebu D S) (fs : List (List T)) : Ebu D S :=
  if fs.length = 0 then e
  else (Ebu.addLoopP E ops (2 * fs.length + 2) { e with filter := e.filter.resetPeaks E } fs).updatePeaks E

theorem Ebu.addFrames_eq [Samples Sm] [LawfulSamples Sm] {E : Env D S} (ops : SampleOps D S T)
    {e : Ebu D S} (h : e.Inv E) (hg : e.Good) {n : Nat} (hp : e.PosAt n) {src : Sm T}
    (hw : LawfulSamples.WF src) (hn : Samples.channels src = e.channels) :
    e.addFrames E ops src = .done (e.addP E ops (LawfulSamples.toFrames src), .ok ()) ∧
      (e.addP E ops (LawfulSamples.toFrames src)).Inv E ∧
      e.SameCfg (e.addP E ops (LawfulSamples.toFrames src)) ∧
      (e.addP E ops (LawfulSamples.toFrames src)).PosAt (n + (LawfulSamples.toFrames src).length) := by
  simp only [Ebu.addFrames, Ebu.addP, LawfulSamples.frames_eq hw]
  by_cases h0 : (LawfulSamples.toFrames src).length = 0
  · simp only [h0, if_true]
    exact ⟨trivial, h, Ebu.SameCfg.refl e, hp⟩
  · have hc : ¬ e.channels = 0 := by have := h.ch1; omega
    simp only [h0, if_false, hc]
    have hp' : ({ e with filter := e.filter.resetPeaks E } : Ebu D S).PosAt n := ⟨hp.idx, hp.needed, hp.stc⟩
    have hg' : ({ e with filter := e.filter.resetPeaks E } : Ebu D S).Good := ⟨hg.gate, hg.short⟩
    have := Ebu.addLoop_eq ops (2 * (LawfulSamples.toFrames src).length + 2) (Ebu.resetPeaks_inv h) hg' hp'
      hw hn (by omega)
    simp only [Run.bind_eq, this.1, Run.done_bind]
    obtain ⟨-, h1, h2, h3⟩ := this
    refine ⟨trivial, (Ebu.updatePeaks_inv h1).1, ?_, ⟨h3.idx, h3.needed, h3.stc⟩⟩
    exact ⟨h2.mode, h2.rate, h2.channels, h2.map, h2.s100, h2.window, h2.history⟩

end Verif
