import Verif.Props.C04_C07
import Verif.Proofs.Query
/-! # C10: which windows fit the buffer -/

namespace Verif
variable {D S : Type}

theorem s100_hop {E : Env D S} {e : Ebu D S} (h : e.Inv E) : e.samplesIn100ms = Spec.hop e.rate := h.s100

/-- **C10** momentary loudness, exactly: in every reachable state it is `Ok` when the buffer holds 400 ms and
`InvalidMode` otherwise. -/
theorem C10_momentary {E : Env D S} {e : Ebu D S} (hr : Reachable E e) :
    (4 * Spec.hop e.rate ≤ Spec.capacity e.rate e.window →
      ∃ v, ask E e .loudnessMomentary = .done (.ok v)) ∧
    (Spec.capacity e.rate e.window < 4 * Spec.hop e.rate →
      ask E e .loudnessMomentary = .done (.error .invalidMode)) := by
  have h := hr.inv
  simp only [ask, Ebu.loudnessMomentary_eq h, h.ring_eq, s100_hop h, Nat.mul_comm (Spec.hop e.rate)]
  exact ⟨fun hc => ⟨_, by rw [if_neg (by omega)]⟩, fun hc => by rw [if_pos hc]⟩

/-- **C10**: from 18 Hz on momentary loudness is always available. -/
theorem C10_momentary_ok {E : Env D S} {e : Ebu D S} (hr : Reachable E e) (hrate : 18 ≤ e.rate) :
    ∃ v, ask E e .loudnessMomentary = .done (.ok v) := by
  refine (C10_momentary hr).1 (Nat.le_trans ?_ (capacity_mono _ hr.inv.win))
  exact (capacity_400 (by omega)).2 hrate

/-- **C10**: the exception is exactly 16 and 17 Hz without `S` (as long as the window is not enlarged). -/
theorem C10_momentary_fails {E : Env D S} {e : Ebu D S} (hr : Reachable E e)
    (hw : e.window = Spec.minWindow e.mode) :
    ask E e .loudnessMomentary = .done (.error .invalidMode) ↔
      (e.rate = 16 ∨ e.rate = 17) ∧ e.mode.contains Mode.S = false := by
  have h16 := hr.inv.rate16
  obtain ⟨h1, h2⟩ := C10_momentary hr
  have key : Spec.capacity e.rate e.window < 4 * Spec.hop e.rate ↔
      (e.rate = 16 ∨ e.rate = 17) ∧ e.mode.contains Mode.S = false := by
    rw [hw, Spec.minWindow]
    split
    · next hs =>
      have := capacity_3000_4 h16
      rw [hs]
      exact ⟨fun _ => by omega, fun h => by cases h.2⟩
    · next hs =>
      have := capacity_400 h16
      have hs' : e.mode.contains Mode.S = false := by simpa using hs
      exact ⟨fun h => ⟨by omega, hs'⟩, fun h => by omega⟩
  rw [← key]
  refine ⟨fun h => ?_, h2⟩
  by_cases hc : 4 * Spec.hop e.rate ≤ Spec.capacity e.rate e.window
  · obtain ⟨v, hv⟩ := h1 hc
    rw [hv] at h; cases h
  · omega

/-- **C10** short-term loudness, exactly. -/
theorem C10_shortterm {E : Env D S} {e : Ebu D S} (hr : Reachable E e) :
    (30 * Spec.hop e.rate ≤ Spec.capacity e.rate e.window →
      ∃ v, ask E e .loudnessShortterm = .done (.ok v)) ∧
    (Spec.capacity e.rate e.window < 30 * Spec.hop e.rate →
      ask E e .loudnessShortterm = .done (.error .invalidMode)) := by
  have h := hr.inv
  simp only [ask, Ebu.loudnessShortterm_eq h, h.ring_eq, s100_hop h, Nat.mul_comm (Spec.hop e.rate)]
  exact ⟨fun hc => ⟨_, by rw [if_neg (by omega)]⟩, fun hc => by rw [if_pos hc]⟩

/-- **C10**: with `S`, from 146 Hz on short-term loudness is always available. -/
theorem C10_shortterm_ok {E : Env D S} {e : Ebu D S} (hr : Reachable E e) (hrate : 146 ≤ e.rate)
    (hS : e.mode.contains Mode.S = true) : ∃ v, ask E e .loudnessShortterm = .done (.ok v) :=
  (C10_shortterm hr).1 (Nat.le_trans (capacity_3000_146 hrate) (capacity_mono _ (hr.inv.winS hS)))

/-- **C10**: with `S` and the default window short-term loudness is missing exactly at the rates whose last
digit `t` is 5 or more and whose other digits are at most `29 - 3 * t` (the largest is 145). -/
theorem C10_shortterm_fails {E : Env D S} {e : Ebu D S} (hr : Reachable E e) (hw : e.window = 3000) :
    ask E e .loudnessShortterm = .done (.error .invalidMode) ↔
      5 ≤ e.rate % 10 ∧ e.rate / 10 + 3 * (e.rate % 10) ≤ 29 := by
  have h16 := hr.inv.rate16
  obtain ⟨h1, h2⟩ := C10_shortterm hr
  have key : Spec.capacity e.rate e.window < 30 * Spec.hop e.rate ↔
      5 ≤ e.rate % 10 ∧ e.rate / 10 + 3 * (e.rate % 10) ≤ 29 := by
    have := capacity_3000 h16
    rw [hw]
    have h3 : Spec.hop e.rate = e.rate / 10 + if 5 ≤ e.rate % 10 then 1 else 0 := by
      unfold Spec.hop; split <;> omega
    split at h3 <;> omega
  rw [← key]
  refine ⟨fun h => ?_, h2⟩
  by_cases hc : 30 * Spec.hop e.rate ≤ Spec.capacity e.rate e.window
  · obtain ⟨v, hv⟩ := h1 hc
    rw [hv] at h; cases h
  · omega

/-- **C10**: without `S` and with the default window there is no short-term loudness. -/
theorem C10_shortterm_without_S {E : Env D S} {e : Ebu D S} (hr : Reachable E e) (hw : e.window = 400) :
    ask E e .loudnessShortterm = .done (.error .invalidMode) := by
  refine (C10_shortterm hr).2 ?_
  have h16 := hr.inv.rate16
  have := roundUp_lt (hop_pos h16) (e.rate * 400 / 1000)
  rw [hw]
  unfold Spec.capacity
  unfold Spec.hop at *
  omega

example : ∃ e : Ebu F64 F32, Reachable Demo.env e ∧ 146 ≤ e.rate ∧ e.mode.contains Mode.S = true ∧
    e.window = 3000 := by
  obtain ⟨e, -, hr, -, h1, hm, hw⟩ := demo_new (channels := 2) (rate := 48000) (mode := Mode.LRA) (by omega)
    (by decide)
  exact ⟨e, hr, by omega, by rw [hm]; decide, by rw [hw]; decide⟩

/-- The failing rates exist: 145 Hz with `S`, 17 Hz without. -/
example : (∃ e : Ebu F64 F32, Reachable Demo.env e ∧
      ask Demo.env e .loudnessShortterm = .done (.error .invalidMode) ∧ e.mode = Mode.S) ∧
    (∃ e : Ebu F64 F32, Reachable Demo.env e ∧
      ask Demo.env e .loudnessMomentary = .done (.error .invalidMode)) := by
  constructor
  · obtain ⟨e, -, hr, -, h1, hm, hw⟩ := demo_new (channels := 2) (rate := 145) (mode := Mode.S) (by omega)
      (by decide)
    exact ⟨e, hr, (C10_shortterm_fails hr (by rw [hw]; decide)).2 (by omega), hm⟩
  · obtain ⟨e, -, hr, -, h1, hm, hw⟩ := demo_new (channels := 2) (rate := 17) (mode := Mode.I) (by omega)
      (by decide)
    exact ⟨e, hr, (C10_momentary_fails hr (by rw [hw, hm])).2 ⟨by omega, by rw [hm]; decide⟩⟩

end Verif
