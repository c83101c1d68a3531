import Verif.Props.C09
import Verif.Proofs.FloatOps
/-! # C41 and C45: which queries answer, and with which error -/

namespace Verif
variable {D S : Type}

namespace Spec

/-- The bits of a mode are all set. -/
def Has (mode bits : Mode) : Prop := mode &&& bits = bits

instance (mode bits : Mode) : Decidable (Has mode bits) := inferInstanceAs (Decidable (_ = _))

/-- The error a query must report (`none`: it must succeed). -/
def queryError (usizeMax : Nat) (mode : Mode) (channels rate window : Nat) : Query → Option Error
  | .loudnessGlobal | .relativeThreshold => if Has mode Mode.I then none else some .invalidMode
  | .loudnessRange => if Has mode Mode.LRA then none else some .invalidMode
  | .samplePeak c | .prevSamplePeak c =>
    if ¬Has mode Mode.SAMPLE_PEAK then some .invalidMode
    else if c.toNat < channels then none else some .invalidChannelIndex
  | .truePeak c | .prevTruePeak c =>
    if ¬Has mode Mode.TRUE_PEAK then some .invalidMode
    else if c.toNat < channels then none else some .invalidChannelIndex
  | .loudnessMomentary => if 4 * hop rate ≤ capacity rate window then none else some .invalidMode
  | .loudnessShortterm => if 30 * hop rate ≤ capacity rate window then none else some .invalidMode
  | .loudnessWindow w =>
    if rate * w.toNat ≤ usizeMax ∧ rate * w.toNat / 1000 ≤ capacity rate window then none
    else some .invalidMode

end Spec

theorem contains_iff (mode bits : Mode) : mode.contains bits = true ↔ Spec.Has mode bits := by
  simp [Mode.contains, Spec.Has]

/-- **C41**: every query fails with exactly the documented error, and succeeds otherwise. -/
theorem C41_queries (m : Libm F64) (bs : BSearch) (t : Target) (ht : t.usizeMax < 2 ^ 64)
    {e : Ebu F64 F32} (hr : Reachable (ieeeEnv m bs t) e) (q : Query) :
    match Spec.queryError t.usizeMax e.mode e.channels e.rate e.window q with
    | none => ∃ v, ask (ieeeEnv m bs t) e q = .done (.ok v)
    | some err => ask (ieeeEnv m bs t) e q = .done (.error err) := by
  have h := hr.inv
  have pk : ∀ (b : Bool) (bits : Mode) (n : UInt32) (v : F64) (a : Run (Except Error F64)),
      e.mode.contains bits = b → a = .done (peakQuery b e.channels n.toNat v) →
      match (if ¬Spec.Has e.mode bits then some Error.invalidMode
        else if n.toNat < e.channels then none else some .invalidChannelIndex) with
      | none => ∃ v, a = .done (.ok v)
      | some err => a = .done (.error err) := by
    intro b bits n v a hb ha
    have hh := contains_iff e.mode bits
    rw [hb] at hh
    subst ha
    cases b with
    | false =>
      rw [if_pos (fun h' => by cases hh.2 h')]
      rfl
    | true =>
      rw [if_neg (fun h' => h' (hh.1 rfl))]
      by_cases hc : n.toNat < e.channels
      · rw [if_pos hc]
        exact ⟨v, by simp [peakQuery]; omega⟩
      · rw [if_neg hc]
        simp [peakQuery]; omega
  have win : ∀ (p : Prop) [Decidable p] (v : F64) (a : Run (Except Error F64)) (q : Prop) [Decidable q],
      (q ↔ ¬p) → a = .done (if q then .error .invalidMode else .ok v) →
      match (if p then none else some Error.invalidMode) with
      | none => ∃ v, a = .done (.ok v)
      | some err => a = .done (.error err) := by
    intro p _ v a q _ hpq ha
    subst ha
    by_cases hp : p
    · rw [if_pos hp, if_neg (fun hq => hpq.1 hq hp)]; exact ⟨v, rfl⟩
    · rw [if_neg hp, if_pos (hpq.2 hp)]
  have md : ∀ (bits : Mode) (v : F64) (a : Run (Except Error F64)),
      a = .done (if e.mode.contains bits then .ok v else .error .invalidMode) →
      match (if Spec.Has e.mode bits then none else some Error.invalidMode) with
      | none => ∃ v, a = .done (.ok v)
      | some err => a = .done (.error err) := by
    intro bits v a ha
    have hh := contains_iff e.mode bits
    refine win (Spec.Has e.mode bits) v a (¬ e.mode.contains bits = true) (by rw [hh]) ?_
    rw [ha]; by_cases hc : e.mode.contains bits = true <;> simp [hc]
  cases q with
  | loudnessGlobal => exact md _ _ _ (Ebu.loudnessGlobal_eq h)
  | loudnessMomentary =>
    refine win _ _ _ _ ?_ (Ebu.loudnessMomentary_eq h)
    rw [h.ring_eq, s100_hop h]; omega
  | loudnessShortterm =>
    refine win _ _ _ _ ?_ (Ebu.loudnessShortterm_eq h)
    rw [h.ring_eq, s100_hop h]; omega
  | loudnessWindow w =>
    refine win _ _ _ _ ?_ (Ebu.loudnessWindow_eq h _)
    rw [h.ring_eq]
    show t.usizeMax < _ ∨ _ ↔ _
    omega
  | loudnessRange =>
    exact md _ _ _ (Ebu.loudnessRange_eq (pctOk_ieee m bs t (Nat.le_of_lt ht))
      (pctOk_ieee m bs t (Nat.sub_le _ _)) h)
  | samplePeak n => exact pk _ _ _ _ _ rfl (Ebu.getSamplePeak_eq h _)
  | prevSamplePeak n => exact pk _ _ _ _ _ rfl (Ebu.getPrevSamplePeak_eq h _)
  | truePeak n => exact pk _ _ _ _ _ rfl (Ebu.getTruePeak_eq h _)
  | prevTruePeak n => exact pk _ _ _ _ _ rfl (Ebu.getPrevTruePeak_eq h _)
  | relativeThreshold =>
    refine md Mode.I (e.blockEnergyHistory.relativeThreshold (ieeeEnv m bs t)) (Run.done (e.relativeThreshold (ieeeEnv m bs t))) ?_
    unfold Ebu.relativeThreshold
    cases e.mode.contains Mode.I <;> rfl

/-- The hypotheses are met, and both errors and success occur. -/
example : ∃ e : Ebu F64 F32, Reachable Demo.env e ∧
    Spec.queryError (2 ^ 64 - 1) e.mode e.channels e.rate e.window .loudnessRange = some .invalidMode ∧
    Spec.queryError (2 ^ 64 - 1) e.mode e.channels e.rate e.window (.truePeak 2) =
      some .invalidChannelIndex ∧
    Spec.queryError (2 ^ 64 - 1) e.mode e.channels e.rate e.window (.truePeak 1) = none := by
  obtain ⟨e, -, hr, hc, h1, hm, hw⟩ := demo_new (channels := 2) (rate := 48000) (mode := Mode.TRUE_PEAK)
    (by omega) (by decide)
  exact ⟨e, hr, by rw [hm, hc, h1, hw]; decide, by rw [hm, hc, h1, hw]; decide,
    by rw [hm, hc, h1, hw]; decide⟩

/-! ## C45 -/

/-- **C45**: which windows are accepted (any environment). -/
theorem C45_accepts {E : Env D S} {e : Ebu D S} (hr : Reachable E e) (w : UInt32) :
    ((e.rate * w.toNat ≤ E.usizeMax ∧ e.rate * w.toNat / 1000 ≤ Spec.capacity e.rate e.window) →
      ∃ v, ask E e (.loudnessWindow w) = .done (.ok v)) ∧
    (¬(e.rate * w.toNat ≤ E.usizeMax ∧ e.rate * w.toNat / 1000 ≤ Spec.capacity e.rate e.window) →
      ask E e (.loudnessWindow w) = .done (.error .invalidMode)) := by
  have h := hr.inv
  simp only [ask, Ebu.loudnessWindow_eq h, h.ring_eq]
  exact ⟨fun hc => ⟨_, by rw [if_neg (by omega)]⟩, fun hc => by rw [if_pos (by omega)]⟩

/-- On a 64-bit target the product cannot overflow: only the buffer limits the window, and every window up
to `max_window()` is accepted. -/
theorem C45_up_to_window {E : Env D S} (h64 : 2 ^ 64 - 1 ≤ E.usizeMax) {e : Ebu D S} (hr : Reachable E e)
    (w : UInt32) (hw : w.toNat ≤ e.window) : ∃ v, ask E e (.loudnessWindow w) = .done (.ok v) := by
  refine (C45_accepts hr w).1 ⟨?_, ?_⟩
  · have h1 := hr.inv.rateMax
    have h2 := w.toNat_lt
    have := Nat.mul_le_mul h1 (Nat.le_of_lt h2)
    have : 2822400 * 2 ^ 32 ≤ 2 ^ 64 - 1 := by decide
    omega
  · refine Nat.le_trans ?_ (le_roundUp (hop_pos hr.inv.rate16) _)
    exact Nat.div_le_div_right (Nat.mul_le_mul_left _ hw)

/-- A sum over no frames. -/
theorem energyP_zero (m : Libm F64) (bs : BSearch) (t : Target) (e : Ebu F64 F32) :
    e.energyP (ieeeEnv m bs t) 0 = .nan := by
  have hw : ∀ ch : Channel, weightChannel (Fl.arith Fmt.b64) ch (Fl.zero false) = Fl.zero false := by
    intro ch; cases ch <;> decide +kernel
  have hz : Fl.add (Fl.zero false : F64) (Fl.zero false) = Fl.zero false := by decide +kernel
  have hc : ∀ (idx : Nat) (x : Channel × List F64),
      addChan (Fl.arith Fmt.b64) 0 idx (Fl.zero false) x = Fl.zero false := by
    intro idx x
    unfold addChan
    split
    · rfl
    · have : ringWindow 0 idx x.2 = [] := by
        unfold ringWindow
        rw [if_neg (by omega), Nat.sub_zero, List.drop_eq_nil_iff]
        exact List.length_take_le ..
      rw [chanEnergyP, this]
      show Fl.add (Fl.zero false) (weightChannel (Fl.arith Fmt.b64) x.1 (Fl.zero false)) = _
      rw [hw, hz]
  unfold Ebu.energyP gatingP
  rw [ieee_f64, arith_zero, arith_div, arith_ofInt]
  have hfold : ∀ (l : List (Channel × List F64)) (idx : Nat),
      l.foldl (addChan (Fl.arith Fmt.b64) 0 idx) (Fl.zero false) = Fl.zero false := by
    intro l idx
    induction l with
    | nil => rfl
    | cons x t ih => rw [List.foldl_cons, hc, ih]
  rw [hfold, show ((0 : Nat) : Int) = 0 from rfl, Fl.ofInt_zero (by decide), Fl.zero_div_zero]

/-- **C45**: a window shorter than one frame yields NaN (for every libm mapping NaN to NaN). -/
theorem C45_short_window (m : Libm F64) (hm : m.log10 .nan = .nan) (bs : BSearch) (t : Target)
    {e : Ebu F64 F32} (hr : Reachable (ieeeEnv m bs t) e) (w : UInt32) (hov : e.rate * w.toNat ≤ t.usizeMax)
    (hw : e.rate * w.toNat < 1000) : ask (ieeeEnv m bs t) e (.loudnessWindow w) = .done (.ok .nan) := by
  have h := hr.inv
  simp only [ask, Ebu.loudnessWindow_eq h, Nat.div_eq_of_lt hw, energyP_zero]
  rw [if_neg (by show ¬(t.usizeMax < _ ∨ _); omega)]
  simp only [windowLoudness, energyToLoudness]
  simp [hm]

/-- **C45**: otherwise the value is `-inf` for a non-positive energy and `10 log10(energy) - 0.691`
else, where the energy is the one of the last `rate * w / 1000` frames (its meaning is C15). -/
theorem C45_value {E : Env D S} {e : Ebu D S} (hr : Reachable E e) (w : UInt32)
    (hw : e.rate * w.toNat ≤ E.usizeMax ∧ e.rate * w.toNat / 1000 ≤ Spec.capacity e.rate e.window) :
    ∃ energy, e.energyInInterval E (e.rate * w.toNat / 1000) = .done (.ok energy) ∧
      ask E e (.loudnessWindow w) = .done (.ok (if E.f64.le energy E.f64.zero = true then E.f64.neg E.f64.inf
        else E.f64.sub (E.f64.mul (E.f64.lit 10 1) (E.libm.log10 energy)) (E.f64.lit 691 1000))) := by
  have h := hr.inv
  refine ⟨e.energyP E (e.rate * w.toNat / 1000), ?_, ?_⟩
  · rw [Ebu.energyInInterval_eq h, if_neg (by rw [h.ring_eq]; omega)]
  · simp only [ask, Ebu.loudnessWindow_eq h, h.ring_eq]
    rw [if_neg (by omega)]; rfl

example : ∃ e : Ebu F64 F32, Reachable Demo.env e ∧ Demo.libm.log10 .nan = .nan ∧
    e.rate * (0 : UInt32).toNat < 1000 ∧ e.rate * (2000 : UInt32).toNat / 1000 ≤ Spec.capacity e.rate e.window ∧
    Spec.capacity e.rate e.window < e.rate * (4000 : UInt32).toNat / 1000 := by
  obtain ⟨e, -, hr, -, h1, hm, hw⟩ := demo_new (channels := 2) (rate := 48000) (mode := Mode.LRA) (by omega)
    (by decide)
  exact ⟨e, hr, rfl, by rw [h1]; decide, by rw [h1, hw]; decide, by rw [h1, hw]; decide⟩

end Verif
