import Verif.Proofs.Step
import Verif.Spec.Buffer
/-! # Call histories that cannot fail -/

set_option linter.unusedSimpArgs false

namespace Verif
variable {D S T : Type} {Sm : Type → Type}
open Spec

/-! ## Buffer arithmetic -/

theorem roundUp_mod (n m : Nat) : roundUp n m % m = 0 := Nat.mul_mod_left _ _

theorem le_roundUp {m : Nat} (hm : 0 < m) (n : Nat) : n ≤ roundUp n m := by
  unfold roundUp
  have h1 := Nat.div_add_mod (n + m - 1) m
  have h2 := Nat.mod_lt (n + m - 1) hm
  rw [Nat.mul_comm] at h1
  omega

theorem roundUp_lt {m : Nat} (hm : 0 < m) (n : Nat) : roundUp n m < n + m := by
  unfold roundUp
  have h1 := Nat.div_add_mod (n + m - 1) m
  rw [Nat.mul_comm] at h1
  omega

theorem roundUp_mono {n n' : Nat} (m : Nat) (h : n ≤ n') : roundUp n m ≤ roundUp n' m :=
  Nat.mul_le_mul_right _ (Nat.div_le_div_right (by omega))

theorem mul_le_roundUp {m : Nat} (hm : 0 < m) (n k : Nat) :
    (k + 1) * m ≤ roundUp n m ↔ k * m < n := by
  unfold roundUp
  constructor
  · intro h
    have := Nat.le_of_mul_le_mul_right h hm
    rw [Nat.le_div_iff_mul_le hm, Nat.add_mul] at this
    omega
  · intro h
    refine Nat.mul_le_mul_right _ ?_
    rw [Nat.le_div_iff_mul_le hm, Nat.add_mul]
    omega

theorem ringFrames_capacity {rate : Nat} (hr : 16 ≤ rate) (window : Nat) :
    ringFrames rate window = capacity rate window := by
  have hs : 0 < hop rate := s100_pos hr
  unfold ringFrames capacity
  show (if rate * window / 1000 % hop rate ≠ 0 then
    rate * window / 1000 + hop rate - rate * window / 1000 % hop rate
    else rate * window / 1000) = _
  generalize rate * window / 1000 = x
  generalize hop rate = s at *
  have h1 := Nat.div_add_mod x s
  have h2 := Nat.mod_lt x hs
  have h3 : roundUp x s = if x % s ≠ 0 then s * (x / s) + s else s * (x / s) := by
    unfold roundUp
    split
    · rw [show x + s - 1 = s * (x / s) + s + (x % s - 1) by omega, ← Nat.mul_succ, Nat.mul_comm _ s,
        Nat.mul_add_div hs, Nat.div_eq_of_lt (a := x % s - 1) (by omega)]
    · rw [show x + s - 1 = s * (x / s) + (s - 1) by omega, Nat.mul_add_div hs,
        Nat.div_eq_of_lt (a := s - 1) (by omega), Nat.mul_comm]
      rfl
  rw [h3]
  split <;> omega

theorem capacity_mono (rate : Nat) {w w' : Nat} (h : w ≤ w') : capacity rate w ≤ capacity rate w' :=
  roundUp_mono _ (Nat.div_le_div_right (Nat.mul_le_mul_left _ h))

theorem hop_pos {rate : Nat} (hr : 16 ≤ rate) : 0 < hop rate := by unfold hop; omega

/-- Which rates have a 400 ms buffer that holds four steps. -/
theorem capacity_400 {rate : Nat} (hr : 16 ≤ rate) :
    4 * hop rate ≤ capacity rate 400 ↔ 18 ≤ rate := by
  rw [capacity, mul_le_roundUp (hop_pos hr)]
  unfold hop; omega

theorem capacity_3000_4 {rate : Nat} (hr : 16 ≤ rate) : 4 * hop rate ≤ capacity rate 3000 := by
  rw [capacity, mul_le_roundUp (hop_pos hr)]
  unfold hop; omega

/-- Which rates have a 3 s buffer that holds thirty steps. -/
theorem capacity_3000 {rate : Nat} (hr : 16 ≤ rate) :
    30 * hop rate ≤ capacity rate 3000 ↔ 29 * hop rate < 3 * rate := by
  rw [capacity, mul_le_roundUp (hop_pos hr)]
  omega

theorem capacity_3000_146 {rate : Nat} (hr : 146 ≤ rate) : 30 * hop rate ≤ capacity rate 3000 := by
  rw [capacity_3000 (by omega)]
  unfold hop; omega

theorem Spec.Adequate.mono {mode : Mode} {rate ms ms' : Nat} (h : Adequate mode rate ms)
    (hm : ms ≤ ms') : Adequate mode rate ms' :=
  ⟨Nat.le_trans h.1 (capacity_mono rate hm), fun hl => Nat.le_trans (h.2 hl) (capacity_mono rate hm)⟩

theorem adequate_146 (mode : Mode) {rate : Nat} (hr : 146 ≤ rate) :
    Adequate mode rate (minWindow mode) := by
  unfold Adequate minWindow
  by_cases hS : mode.contains Mode.S = true
  · rw [if_pos hS]
    exact ⟨capacity_3000_4 (by omega), fun _ => capacity_3000_146 hr⟩
  · rw [if_neg hS]
    exact ⟨(capacity_400 (by omega)).2 (by omega), fun h => absurd (Mode.LRA_S mode h) hS⟩

theorem Ebu.Inv.minWindow {E : Env D S} {e : Ebu D S} (h : e.Inv E) : minWindow e.mode ≤ e.window := by
  unfold Spec.minWindow
  split
  · next hs => exact h.winS hs
  · exact h.win

theorem Ebu.Inv.adequate {E : Env D S} {e : Ebu D S} (h : e.Inv E) (hr : 146 ≤ e.rate) :
    Adequate e.mode e.rate e.window := (adequate_146 e.mode hr).mono h.minWindow

theorem Ebu.Inv.ring_eq {E : Env D S} {e : Ebu D S} (h : e.Inv E) :
    e.ring = capacity e.rate e.window := ringFrames_capacity h.rate16 _

theorem Ebu.Inv.good_iff {E : Env D S} {e : Ebu D S} (h : e.Inv E) :
    e.Good ↔ Adequate e.mode e.rate e.window := by
  have h2 := h.ring_eq
  have h3 : e.samplesIn100ms = hop e.rate := h.s100
  constructor
  · rintro ⟨g1, g2⟩
    refine ⟨?_, fun hl => ?_⟩
    · rw [h2, h3] at g1; omega
    · have := g2 hl; rw [h2, h3] at this; omega
  · rintro ⟨g1, g2⟩
    refine ⟨?_, fun hl => ?_⟩
    · rw [h2, h3]; omega
    · have := g2 hl; rw [h2, h3]; omega

/-! ## Positions -/

theorem posAt_zero {e : Ebu D S} (h1 : e.audioDataIndex = 0)
    (h2 : e.neededFrames = e.samplesIn100ms * 4) (h3 : e.shortTermFrameCounter = 0)
    (h4 : 0 < e.samplesIn100ms) : e.PosAt 0 := by
  refine ⟨by rw [h1, Nat.zero_mod], ?_, ?_⟩
  · rw [h2, needAt, if_pos (by omega)]; omega
  · rw [h3, stcAt, if_pos (show 0 < 30 * e.samplesIn100ms by omega)]; split <;> rfl

/-- Invariant of every call history. -/
structure Ebu.Inv2 (E : Env D S) (e : Ebu D S) : Prop where
  inv : e.Inv E
  win32 : e.window < 2 ^ 32
  pos : e.Good → ∃ n, e.PosAt n

theorem Ebu.init_inv2 (E : Env D S) {channels rate : Nat} {mode : Mode} (h1 : 1 ≤ channels)
    (h2 : channels ≤ 64) (h3 : 16 ≤ rate) (h4 : rate ≤ 2822400) (h5 : mode.contains Mode.M = true) :
    (Ebu.init E channels rate mode).Inv2 E where
  inv := Ebu.init_inv E h1 h2 h3 h4 h5
  win32 := by simp only [Ebu.init]; split <;> omega
  pos _ := ⟨0, posAt_zero rfl rfl rfl (s100_pos h3)⟩

theorem clampMs_lt (mode : Mode) {w : Nat} (hw : w < 2 ^ 32) : clampMs mode w < 2 ^ 32 := by
  unfold clampMs
  split
  · omega
  · split <;> omega

theorem Ebu.SameCfg.good_iff {e e' : Ebu D S} (h : e.SameCfg e') : e'.Good ↔ e.Good :=
  ⟨fun hg => hg.of_same ⟨h.mode.symm, h.rate.symm, h.channels.symm, h.map.symm, h.s100.symm,
    h.window.symm, h.history.symm⟩, fun hg => hg.of_same h⟩

theorem step_inv2 {E : Env D S} {e : Ebu D S} (h2 : e.Inv2 E) (op : Op D S) :
    step E e op = .panic ∨
      ∃ e' r, step E e op = .done (e', r) ∧ e'.Inv2 E ∧ e'.mode = e.mode := by
  rcases step_cases h2.inv op with hs | ⟨e', r, hs, hi, hm⟩
  · exact .inl hs
  right
  refine ⟨e', r, hs, ?_, hm⟩
  have hpos : 0 < e.samplesIn100ms := by rw [h2.inv.s100]; exact s100_pos h2.inv.rate16
  cases op with
  | setChannel i v =>
    simp only [step, Ebu.setChannel] at hs
    split at hs
    · cases hs; exact h2
    · split at hs
      · cases hs; exact h2
      · split at hs
        · cases hs
          refine ⟨hi, h2.win32, fun hg => ?_⟩
          obtain ⟨n, hp⟩ := h2.pos ⟨hg.gate, hg.short⟩
          exact ⟨n, hp.idx, hp.needed, hp.stc⟩
        · cases hs
  | setChannelMap m =>
    simp only [step, Ebu.setChannelMap] at hs
    split at hs
    · cases hs; exact h2
    · split at hs
      · cases hs; exact h2
      · split at hs
        · cases hs
          refine ⟨hi, h2.win32, fun hg => ?_⟩
          obtain ⟨n, hp⟩ := h2.pos ⟨hg.gate, hg.short⟩
          exact ⟨n, hp.idx, hp.needed, hp.stc⟩
        · cases hs
  | changeParameters c r =>
    simp only [step, Ebu.changeParameters_eq h2.inv] at hs
    split at hs
    · cases hs; exact h2
    · next hr =>
      split at hs
      · cases hs; exact h2
      · obtain ⟨a, -, hs⟩ := Run.bind_done hs
        cases a with
        | error x => cases hs; exact h2
        | ok l => cases hs; exact ⟨hi, h2.win32, fun _ => ⟨0, posAt_zero rfl rfl rfl (s100_pos (by omega))⟩⟩
  | setMaxWindow w =>
    have hc : clampMs e.mode w.toNat < 2 ^ 32 := clampMs_lt _ w.toNat_lt
    simp only [step, Ebu.setMaxWindow] at hs
    by_cases h1 : clampMs e.mode w.toNat = e.window
    · simp only [h1, if_true] at hs; cases hs; exact h2
    · simp only [h1, if_false, Run.bind_eq] at hs
      obtain ⟨a, -, hs⟩ := Run.bind_done hs
      cases a with
      | error x => cases hs; exact h2
      | ok l => cases hs; exact ⟨hi, hc, fun _ => ⟨0, posAt_zero rfl rfl rfl hpos⟩⟩
  | setMaxHistory x =>
    simp only [step, Ebu.setMaxHistory] at hs
    split at hs
    · cases hs; exact h2
    · cases hs
      refine ⟨hi, h2.win32, fun hg => ?_⟩
      obtain ⟨n, hp⟩ := h2.pos ⟨hg.gate, hg.short⟩
      exact ⟨n, hp.idx, hp.needed, hp.stc⟩
  | reset =>
    simp only [step, Run.bind_eq, (Ebu.reset_eq h2.inv).1, Run.done_bind] at hs
    cases hs
    exact ⟨hi, h2.win32, fun _ => ⟨0, posAt_zero rfl rfl rfl hpos⟩⟩
  | addFrames x =>
    have hsame : e.SameCfg e' := by
      rcases Ebu.addInput_cases h2.inv x with h1 | ⟨e1, r1, h1, -, h3⟩
      · simp only [step, h1] at hs; cases hs
      · simp only [step, h1] at hs; cases hs; exact h3
    refine ⟨hi, by rw [hsame.window]; exact h2.win32, fun hg => ?_⟩
    have hg0 := hsame.good_iff.1 hg
    obtain ⟨n, hp⟩ := h2.pos hg0
    by_cases hx : x.Ok e.channels
    · by_cases hw : x.width e.channels = e.channels
      · obtain ⟨h1, -, -, h4⟩ := Ebu.addInput_eq h2.inv hg0 hp hx hw
        simp only [step, h1] at hs
        cases hs
        exact ⟨_, h4⟩
      · -- a wrong channel count either panics or there are no frames
        refine ⟨n, ?_⟩
        have : e' = e := (Ebu.addInput_wrong h2.inv hx hw hs).1
        rw [this]; exact hp
    · simp only [step, (Ebu.addInput_err hx).1] at hs
      cases hs; exact ⟨n, hp⟩
  | seedFrames x =>
    by_cases hx : x.Ok e.channels
    · by_cases hw : x.width e.channels = e.channels
      · simp only [step, Ebu.seedInput_eq h2.inv hx hw] at hs
        cases hs
        refine ⟨hi, h2.win32, fun hg => ?_⟩
        obtain ⟨n, hp⟩ := h2.pos ⟨hg.gate, hg.short⟩
        exact ⟨n, hp.idx, hp.needed, hp.stc⟩
      · simp only [step, Ebu.seedInput_wrong h2.inv hx hw] at hs
        cases hs
    · simp only [step, (Ebu.addInput_err hx).2] at hs
      cases hs; exact h2

theorem runOps_inv2 {E : Env D S} {e e' : Ebu D S} (h : e.Inv2 E) (ops : List (Op D S))
    (hr : runOps E e ops = .done e') : e'.Inv2 E ∧ e'.mode = e.mode := by
  induction ops generalizing e with
  | nil => cases hr; exact ⟨h, rfl⟩
  | cons op ops ih =>
    simp only [runOps, Run.bind_eq] at hr
    rcases step_inv2 h op with h1 | ⟨e1, r, h1, h2, h3⟩
    · rw [h1] at hr; cases hr
    · rw [h1, Run.done_bind] at hr
      have := ih h2 hr
      exact ⟨this.1, this.2.trans h3⟩

theorem Ebu.new_inv2 {E : Env D S} {channels rate : Nat} {mode : Mode} {e : Ebu D S}
    (h : Ebu.new E channels rate mode = .done (.ok e)) : e.Inv2 E := by
  obtain ⟨rfl, h1, h2, h3, h4, h5⟩ := Ebu.new_ok h
  exact Ebu.init_inv2 E h1 h2 h3 h4 h5

/-- States reachable from a new analyzer by any sequence of calls that did not panic. -/
def Reachable (E : Env D S) (e : Ebu D S) : Prop :=
  ∃ channels rate mode e0 ops, Ebu.new E channels rate mode = .done (.ok e0) ∧
    runOps E e0 ops = .done e

theorem Reachable.inv2 {E : Env D S} {e : Ebu D S} (h : Reachable E e) : e.Inv2 E := by
  obtain ⟨c, r, m, e0, ops, h1, h2⟩ := h
  exact (runOps_inv2 (Ebu.new_inv2 h1) ops h2).1

theorem Reachable.inv {E : Env D S} {e : Ebu D S} (h : Reachable E e) : e.Inv E := h.inv2.inv

/-- Reachable states exist: a new analyzer. -/
theorem reachable_new {E : Env D S} {channels rate : Nat} {mode : Mode} {e : Ebu D S}
    (h : Ebu.new E channels rate mode = .done (.ok e)) : Reachable E e :=
  ⟨_, _, _, e, [], h, rfl⟩

theorem Reachable.step {E : Env D S} {e e' : Ebu D S} (h : Reachable E e) {op : Op D S}
    {r : Except Error Unit} (hs : Verif.step E e op = .done (e', r)) : Reachable E e' := by
  obtain ⟨c, rt, m, e0, ops, h1, h2⟩ := h
  refine ⟨c, rt, m, e0, ops ++ [op], h1, ?_⟩
  clear h1
  induction ops generalizing e0 with
  | nil => cases h2; simp only [List.nil_append, runOps, Run.bind_eq, hs, Run.done_bind]
  | cons o ops ih =>
    simp only [runOps, Run.bind_eq] at h2
    obtain ⟨a, h3, h4⟩ := Run.bind_done h2
    simp only [List.cons_append, runOps, Run.bind_eq, h3, Run.done_bind]
    exact ih _ h4

/-- Input that adding or seeding accepts without panic: planar input has the analyzer's channel count. -/
def Op.Fits (e : Ebu D S) : Op D S → Prop
  | .addFrames x => Spec.Adequate e.mode e.rate e.window ∧
      (x.Ok e.channels → x.width e.channels = e.channels)
  | .seedFrames x => x.Ok e.channels → x.width e.channels = e.channels
  | _ => True

theorem step_total {E : Env D S} (h64 : 2 ^ 64 - 1 ≤ E.usizeMax) {e : Ebu D S} (h2 : e.Inv2 E)
    {op : Op D S} (hf : op.Fits e) : ∃ e' r, step E e op = .done (e', r) := by
  cases op with
  | setChannel i v => exact let ⟨e', r, h, _⟩ := Ebu.setChannel_inv h2.inv i.toNat v; ⟨e', r, h⟩
  | setChannelMap m => exact let ⟨e', r, h, _⟩ := Ebu.setChannelMap_inv h2.inv m; ⟨e', r, h⟩
  | changeParameters c r =>
    simp only [step, Ebu.changeParameters_eq h2.inv]
    split
    · exact ⟨_, _, rfl⟩
    · split
      · exact ⟨_, _, rfl⟩
      · rw [allocate_64 h64 (by omega) (by omega) h2.win32]
        exact ⟨_, _, rfl⟩
  | setMaxWindow w =>
    have hc : clampMs e.mode w.toNat < 2 ^ 32 := clampMs_lt _ w.toNat_lt
    simp only [step, Ebu.setMaxWindow]
    by_cases h1 : clampMs e.mode w.toNat = e.window
    · simp only [h1, if_true]; exact ⟨_, _, rfl⟩
    · simp only [h1, if_false, Run.bind_eq, allocate_64 h64 h2.inv.ch64 h2.inv.rateMax hc, Run.done_bind]
      exact ⟨_, _, rfl⟩
  | setMaxHistory x => exact ⟨_, _, rfl⟩
  | reset =>
    simp only [step, Run.bind_eq, (Ebu.reset_eq h2.inv).1, Run.done_bind]
    exact ⟨_, _, rfl⟩
  | addFrames x =>
    obtain ⟨ha, hf⟩ := hf
    have hg := h2.inv.good_iff.2 ha
    obtain ⟨n, hp⟩ := h2.pos hg
    by_cases hx : x.Ok e.channels
    · exact ⟨_, _, (Ebu.addInput_eq h2.inv hg hp hx (hf hx)).1⟩
    · exact ⟨_, _, (Ebu.addInput_err hx).1⟩
  | seedFrames x =>
    by_cases hx : x.Ok e.channels
    · exact ⟨_, _, Ebu.seedInput_eq h2.inv hx (hf hx)⟩
    · exact ⟨_, _, (Ebu.addInput_err hx).2⟩

end Verif
