import Verif.Proofs.Safe
import Verif.Spec.Demo
/-! # C01–C03: construction and channel maps -/

namespace Verif
variable {D S : Type}

/-! ## C01 -/

/-- The arguments the documentation of `EbuR128::new` admits. -/
def Spec.ValidArgs (channels rate : Nat) : Prop :=
  1 ≤ channels ∧ channels ≤ 64 ∧ 16 ≤ rate ∧ rate ≤ 2822400

/-- Some size computed for the buffer of `channels * capacity` samples does not fit `usize`. -/
def Spec.SizeOverflow (usizeMax channels rate ms : Nat) : Prop :=
  usizeMax < rate * ms ∨
  (¬ Spec.hop rate ∣ rate * ms / 1000 ∧ usizeMax < rate * ms / 1000 + Spec.hop rate) ∨
  usizeMax < Spec.capacity rate ms * channels

theorem new_eq (E : Env D S) (channels rate : Nat) (mode : Mode)
    (hv : Spec.ValidArgs channels rate) (hm : mode.contains Mode.M = true) :
    Ebu.new E channels rate mode =
      Run.bind (allocateAudioData E channels rate (Spec.minWindow mode)) fun r =>
        match r with
        | .error x => .done (.error x)
        | .ok _ => .done (.ok (Ebu.init E channels rate mode)) := by
  obtain ⟨h1, h2, h3, h4⟩ := hv
  unfold Ebu.new
  rw [if_neg (by simp only [MAX_CHANNELS]; omega), if_neg (by simp only [MAX_RATE]; omega)]
  simp only [hm, Bool.not_true, Bool.and_false, Bool.false_eq_true, if_false, Run.bind_eq]
  show Run.bind (allocateAudioData E channels rate (Spec.minWindow mode)) _ = _
  cases ha : allocateAudioData E channels rate (Spec.minWindow mode) with
  | hang => rfl
  | panic => rfl
  | done r =>
    cases r with
    | error x => rfl
    | ok l =>
      have hl := allocate_ok ha
      simp only [Run.done_bind, Filter.new_eq E (show 0 < rate by omega) (show 0 < channels by omega)]
      subst hl
      rfl

theorem sizeOverflow_iff (usizeMax : Nat) {channels rate : Nat} (hr : 16 ≤ rate) (ms : Nat) :
    Spec.SizeOverflow usizeMax channels rate ms ↔
    (usizeMax < rate * ms ∨
          (rate * ms / 1000 % s100 rate ≠ 0 ∧ usizeMax < rate * ms / 1000 + s100 rate) ∨
          usizeMax < ringFrames rate ms * channels) := by
  unfold Spec.SizeOverflow
  rw [ringFrames_capacity hr, Nat.dvd_iff_mod_eq_zero]
  exact Iff.rfl

/-- **C01** for any `usize` width.  Invalid channel counts and rates: `NoMem`; otherwise a mode without
`M`: `InvalidMode`; otherwise a size that does not fit `usize`: `NoMem`; otherwise a buffer of more than
`isize::MAX` bytes: `Vec` panics; otherwise `Ok`, and the accessors return the arguments. -/
theorem C01_new (E : Env D S) (channels rate : Nat) (mode : Mode) :
    (¬ Spec.ValidArgs channels rate → Ebu.new E channels rate mode = .done (.error .noMem)) ∧
    (Spec.ValidArgs channels rate → mode.contains Mode.M = false →
      Ebu.new E channels rate mode = .done (.error .invalidMode)) ∧
    (Spec.ValidArgs channels rate → mode.contains Mode.M = true →
      (Spec.SizeOverflow E.usizeMax channels rate (Spec.minWindow mode) →
        Ebu.new E channels rate mode = .done (.error .noMem)) ∧
      (¬ Spec.SizeOverflow E.usizeMax channels rate (Spec.minWindow mode) →
        (E.usizeMax / 2 < 8 * (Spec.capacity rate (Spec.minWindow mode) * channels) →
          Ebu.new E channels rate mode = .panic) ∧
        (8 * (Spec.capacity rate (Spec.minWindow mode) * channels) ≤ E.usizeMax / 2 →
          ∃ e, Ebu.new E channels rate mode = .done (.ok e) ∧ e.channels = channels ∧ e.rate = rate ∧
            e.mode = mode ∧ e.window = Spec.minWindow mode ∧ e.history = E.usizeMax))) := by
  refine ⟨?_, ?_, ?_⟩
  · intro hv
    unfold Ebu.new
    by_cases hc : channels = 0 ∨ MAX_CHANNELS < channels
    · rw [if_pos hc]
    · rw [if_neg hc, if_pos]
      simp only [MAX_CHANNELS, MAX_RATE] at hc ⊢
      unfold Spec.ValidArgs at hv
      omega
  · rintro ⟨h1, h2, h3, h4⟩ hm
    have hs : mode.contains Mode.S = false := by
      cases hs : mode.contains Mode.S
      · rfl
      · rw [Mode.S_M mode hs] at hm; cases hm
    unfold Ebu.new
    rw [if_neg (by simp only [MAX_CHANNELS]; omega), if_neg (by simp only [MAX_RATE]; omega)]
    simp [hm, hs]
  · intro hv hm
    rw [new_eq E channels rate mode hv hm, allocate_eq]
    have hr : 16 ≤ rate := hv.2.2.1
    have ho := sizeOverflow_iff E.usizeMax (channels := channels) hr (Spec.minWindow mode)
    refine ⟨fun h => ?_, fun h => ⟨fun h2 => ?_, fun h2 => ?_⟩⟩
    · rw [if_pos (ho.1 h)]; rfl
    · rw [if_neg (fun h' => h (ho.2 h')), if_neg (by rw [ringFrames_capacity hr]; omega)]; rfl
    · rw [if_neg (fun h' => h (ho.2 h')), if_pos (by rw [ringFrames_capacity hr]; omega)]
      exact ⟨_, rfl, rfl, rfl, rfl, rfl, rfl⟩

/-- **C01** on 64-bit targets: `Ok` exactly for the documented arguments, never a panic. -/
theorem C01_new_64 (E : Env D S) (h64 : 2 ^ 64 - 1 ≤ E.usizeMax) (channels rate : Nat) (mode : Mode) :
    ((∃ e, Ebu.new E channels rate mode = .done (.ok e)) ↔
      Spec.ValidArgs channels rate ∧ mode.contains Mode.M = true) ∧
    ∃ r, Ebu.new E channels rate mode = .done r := by
  obtain ⟨ha, hb, hc⟩ := C01_new E channels rate mode
  by_cases hv : Spec.ValidArgs channels rate
  · cases hm : mode.contains Mode.M
    · rw [hb hv hm]
      exact ⟨⟨fun ⟨_, h⟩ => (by cases h), fun h => (by cases h.2)⟩, _, rfl⟩
    · rw [new_eq E channels rate mode hv hm, allocate_64 h64 hv.2.1 hv.2.2.2
        (by unfold Spec.minWindow; split <;> omega)]
      exact ⟨⟨fun _ => ⟨hv, rfl⟩, fun _ => ⟨_, rfl⟩⟩, _, rfl⟩
  · rw [ha hv]
    exact ⟨⟨fun ⟨_, h⟩ => (by cases h), fun h => absurd h.1 hv⟩, _, rfl⟩

/-- The panic of `C01_new` is real: on a 32-bit target 64 channels at 1431655 Hz in mode `S` ask for
more than `isize::MAX` bytes although every size fits `usize`. -/
theorem C01_new_32_panics (E : Env D S) (h32 : E.usizeMax = 2 ^ 32 - 1) :
    Ebu.new E 64 1431655 Mode.S = .panic := by
  have h := (C01_new E 64 1431655 Mode.S).2.2 (by unfold Spec.ValidArgs; omega) (by decide)
  have hw : Spec.minWindow Mode.S = 3000 := by decide
  refine (h.2 ?_).1 ?_
  · rw [hw, h32]; unfold Spec.SizeOverflow; decide
  · rw [hw, h32]; decide

/-- A realistic configuration is accepted. -/
example : ∃ e, Ebu.new Demo.env 2 48000 (Mode.I ||| Mode.LRA) = .done (.ok e) ∧ e.window = 3000 := by
  obtain ⟨e, h, -, -, -, hw, -⟩ :=
    (((C01_new Demo.env 2 48000 (Mode.I ||| Mode.LRA)).2.2 (by unfold Spec.ValidArgs; omega)
      (by decide)).2 (by unfold Spec.SizeOverflow; decide)).2 (by decide)
  exact ⟨e, h, hw⟩

/-! ## C02 -/

/-- The documented default assignment. -/
def Spec.defaultChannel (channels i : Nat) : Channel :=
  if channels = 4 then [Channel.left, .right, .leftSurround, .rightSurround].getD i .unused
  else if channels = 5 then
    [Channel.left, .right, .center, .leftSurround, .rightSurround].getD i .unused
  else [Channel.left, .right, .center, .unused, .leftSurround, .rightSurround].getD i .unused

theorem defaultChannelMap_get (channels i : Nat) (hi : i < channels) :
    (defaultChannelMap channels)[i]? = some (Spec.defaultChannel channels i) := by
  unfold defaultChannelMap
  split
  · match i, hi with
    | 0, _ | 1, _ | 2, _ | 3, _ => rfl
  · match i, hi with
    | 0, _ | 1, _ | 2, _ | 3, _ | 4, _ => rfl
  · next h4 h5 =>
    unfold Spec.defaultChannel
    rw [if_neg h4, if_neg h5]
    by_cases h6 : i < 6
    · rw [List.getElem?_append_left (by simp; omega), List.getElem?_take_of_lt (by omega),
        List.getD_eq_getElem?_getD, List.getElem?_eq_getElem (by simpa using h6)]
      rfl
    · rw [List.getElem?_append_right (by simp; omega)]
      simp only [List.length_take, List.length_cons, List.length_nil, List.getElem?_drop]
      rw [List.getElem?_replicate, if_pos (by omega), List.getD_eq_getElem?_getD,
        List.getElem?_eq_none (by simp; omega)]
      rfl

/-- **C02** after `new`. -/
theorem C02_new {E : Env D S} {channels rate : Nat} {mode : Mode} {e : Ebu D S}
    (h : Ebu.new E channels rate mode = .done (.ok e)) :
    e.channelMap.length = channels ∧
      ∀ i, i < channels → e.channelMap[i]? = some (Spec.defaultChannel channels i) := by
  obtain ⟨rfl, -⟩ := Ebu.new_ok h
  exact ⟨defaultChannelMap_length _, fun i hi => defaultChannelMap_get _ i hi⟩

/-- **C02** after a change of the channel count. -/
theorem C02_change {E : Env D S} {e e' : Ebu D S} (hr : Reachable E e) {channels rate : Nat}
    (h : e.changeParameters E channels rate = .done (e', .ok ())) (hc : channels ≠ e.channels) :
    e'.channelMap.length = channels ∧
      ∀ i, i < channels → e'.channelMap[i]? = some (Spec.defaultChannel channels i) := by
  rw [Ebu.changeParameters_eq hr.inv] at h
  split at h
  · cases h
  · split at h
    · next h2 => exact absurd h2.2.symm hc
    · obtain ⟨r, -, h⟩ := Run.bind_done h
      cases r with
      | error x => cases h
      | ok l =>
        cases h
        simp only [Ebu.changeP]
        rw [if_pos (fun h => hc h.symm)]
        exact ⟨defaultChannelMap_length _, fun i hi => defaultChannelMap_get _ i hi⟩

example : ∃ e, Ebu.new Demo.env 6 48000 Mode.I = .done (.ok e) ∧ e.channelMap[3]? = some .unused ∧
    e.channelMap[5]? = some .rightSurround := by
  obtain ⟨e, h⟩ := (C01_new_64 Demo.env (Nat.le_refl _) 6 48000 Mode.I).1.2
    ⟨by unfold Spec.ValidArgs; omega, by decide⟩
  exact ⟨e, h, (C02_new h).2 3 (by omega), (C02_new h).2 5 (by omega)⟩

/-! ## C03 -/

/-- `v` may be assigned to channel `i` of `n`. -/
def Spec.Assignable (n i : Nat) (v : Channel) : Prop := i < n ∧ (v = .dualMono → n = 1 ∧ i = 0)

/-- **C03** `set_channel`: accepted exactly when assignable; then exactly entry `i` of the map becomes
`v` and nothing else changes; otherwise `InvalidChannelIndex` and nothing changes. -/
theorem C03_setChannel {E : Env D S} {e : Ebu D S} (hr : Reachable E e) (i : Nat) (v : Channel) :
    (Spec.Assignable e.channels i v →
      ∃ map', e.setChannel i v = .done ({ e with channelMap := map' }, .ok ()) ∧
        map'.length = e.channelMap.length ∧
        ∀ j, map'[j]? = if j = i then some v else e.channelMap[j]?) ∧
    (¬ Spec.Assignable e.channels i v →
      e.setChannel i v = .done (e, .error .invalidChannelIndex)) := by
  have hm := hr.inv.map
  unfold Ebu.setChannel Spec.Assignable
  constructor
  · rintro ⟨h1, h2⟩
    rw [if_neg (by omega), if_neg (by rintro ⟨hv, h⟩; have := h2 hv; omega), if_pos (by omega)]
    refine ⟨_, rfl, by simp, fun j => ?_⟩
    rw [List.getElem?_set]
    by_cases hj : i = j
    · subst hj; rw [if_pos rfl, if_pos (by omega), if_pos rfl]
    · rw [if_neg hj, if_neg (fun h => hj h.symm)]
  · intro h
    by_cases h1 : e.channels ≤ i
    · rw [if_pos h1]
    · rw [if_neg h1, if_pos]
      by_cases hv : v = .dualMono
      · refine ⟨hv, ?_⟩
        by_cases h2 : e.channels = 1
        · right; intro h3; exact h ⟨by omega, fun _ => ⟨h2, h3⟩⟩
        · left; exact h2
      · exact absurd ⟨by omega, fun h => absurd h hv⟩ h

/-- **C03** `set_channel_map`. -/
theorem C03_setChannelMap {E : Env D S} {e : Ebu D S} (hr : Reachable E e) (map : List Channel) :
    ((map.length = e.channels ∧ ∀ i v, map[i]? = some v → Spec.Assignable e.channels i v) →
      e.setChannelMap map = .done ({ e with channelMap := map }, .ok ())) ∧
    (¬ (map.length = e.channels ∧ ∀ i v, map[i]? = some v → Spec.Assignable e.channels i v) →
      e.setChannelMap map = .done (e, .error .invalidChannelIndex)) := by
  have hm := hr.inv.map
  unfold Ebu.setChannelMap
  constructor
  · rintro ⟨h1, h2⟩
    rw [if_neg (by omega), if_neg, if_pos (by omega)]
    simp only [Bool.not_eq_true, List.any_eq_false, decide_eq_true_eq]
    rintro ⟨v, i⟩ hv ⟨hd, hx⟩
    rw [List.mem_zipIdx_iff_getElem?] at hv
    have := (h2 i v hv).2 hd
    omega
  · intro h
    by_cases h1 : map.length ≠ e.channels
    · rw [if_pos h1]
    · rw [if_neg h1, if_pos]
      rw [List.any_eq_true]
      simp only [ne_eq, Decidable.not_not] at h1
      by_cases hx : ∃ x ∈ map.zipIdx, decide (x.1 = Channel.dualMono ∧ (e.channels ≠ 1 ∨ x.2 ≠ 0)) = true
      · exact hx
      · refine absurd ⟨h1, fun i v hv => ⟨?_, fun hd => ?_⟩⟩ h
        · rw [← h1]; exact (List.getElem?_eq_some_iff.1 hv).1
        · by_cases hy : e.channels = 1 ∧ i = 0
          · exact hy
          · refine absurd ⟨(v, i), List.mem_zipIdx_iff_getElem?.2 hv, ?_⟩ hx
            simp only [decide_eq_true_eq]
            exact ⟨hd, by omega⟩

/-- A new mono analyzer accepts dual mono on its only channel. -/
example : ∃ e : Ebu F64 F32, Reachable Demo.env e ∧ Spec.Assignable e.channels 0 .dualMono := by
  have hv : Spec.ValidArgs 1 48000 := by unfold Spec.ValidArgs; omega
  obtain ⟨e, h⟩ := (C01_new_64 Demo.env (Nat.le_refl _) 1 48000 Mode.I).1.2 ⟨hv, by decide⟩
  refine ⟨e, reachable_new h, ?_⟩
  obtain ⟨rfl, -⟩ := Ebu.new_ok h
  exact ⟨Nat.one_pos, fun _ => ⟨rfl, rfl⟩⟩


/-- New analyzers for the examples. -/
theorem demo_new {channels rate : Nat} {mode : Mode} (h : 1 ≤ channels ∧ channels ≤ 64 ∧ 16 ≤ rate ∧
    rate ≤ 2822400) (hm : mode.contains Mode.M = true) :
    ∃ e, Ebu.new Demo.env channels rate mode = .done (.ok e) ∧ Reachable Demo.env e ∧
      e.channels = channels ∧ e.rate = rate ∧ e.mode = mode ∧ e.window = Spec.minWindow mode := by
  obtain ⟨e, he⟩ := (C01_new_64 Demo.env (Nat.le_refl _) channels rate mode).1.2 ⟨h, hm⟩
  refine ⟨e, he, reachable_new he, ?_⟩
  obtain ⟨rfl, -⟩ := Ebu.new_ok he
  exact ⟨rfl, rfl, rfl, rfl⟩

end Verif
