import Verif.Props.C10
import Verif.Proofs.Range
import Verif.Proofs.Percentile
/-!
# C09: no panic and no hang

`Run` has three outcomes: `done`, `panic` (failed assertion, index out of bounds, `unwrap`, overflow) and
`hang` (a loop that does not finish).  C09 says that only `done` occurs.
-/

namespace Verif
variable {D S T : Type} {Sm : Type → Type}

/-! ## Calls -/

namespace Spec

/-- The caller's side of the contract for one call: the buffer is large enough for the blocks the mode
measures, and planar input has one slice per channel. -/
def CallOk (channels rate window : Nat) (mode : Mode) : Op D S → Prop
  | .addFrames x => Adequate mode rate window ∧
    match x with
    | .pi16 l => l.length = channels
    | .pi32 l => l.length = channels
    | .pf32 l => l.length = channels
    | .pf64 l => l.length = channels
    | _ => True
  | .seedFrames x =>
    match x with
    | .pi16 l => l.length = channels
    | .pi32 l => l.length = channels
    | .pf32 l => l.length = channels
    | .pf64 l => l.length = channels
    | _ => True
  | _ => True

end Spec

theorem callOk_fits {e : Ebu D S} {op : Op D S} (h : Spec.CallOk e.channels e.rate e.window e.mode op) :
    op.Fits e := by
  cases op with
  | addFrames x => cases x <;> exact ⟨h.1, fun _ => by first | exact h.2 | rfl⟩
  | seedFrames x => cases x <;> exact fun _ => by first | exact h | rfl
  | _ => trivial

/-- **C09** for one call in any reachable state. -/
theorem C09_call {E : Env D S} (h64 : 2 ^ 64 - 1 ≤ E.usizeMax) {e : Ebu D S} (hr : Reachable E e)
    {op : Op D S} (hc : Spec.CallOk e.channels e.rate e.window e.mode op) :
    ∃ e' r, step E e op = .done (e', r) :=
  step_total h64 hr.inv2 (callOk_fits hc)

/-- **C09** for a call history: if every call respects the contract in the state it is made in, the whole
history runs to its end.  (Any environment: this does not depend on the values of the samples nor on the
arithmetic.) -/
theorem C09_history {E : Env D S} (h64 : 2 ^ 64 - 1 ≤ E.usizeMax) {channels rate : Nat} {mode : Mode}
    {e : Ebu D S} (hn : Ebu.new E channels rate mode = .done (.ok e)) (ops : List (Op D S))
    (hops : ∀ pre op post e1, ops = pre ++ op :: post → runOps E e pre = .done e1 →
      Spec.CallOk e1.channels e1.rate e1.window e1.mode op) :
    ∃ e', runOps E e ops = .done e' := by
  have h2 := Ebu.new_inv2 hn
  clear hn
  induction ops generalizing e with
  | nil => exact ⟨e, rfl⟩
  | cons op ops ih =>
    obtain ⟨e1, r, h1⟩ := step_total h64 h2 (callOk_fits (hops [] op ops e rfl rfl))
    have h3 : e1.Inv2 E := by
      rcases step_inv2 h2 op with h | ⟨e', r', h, hi, -⟩
      · rw [h1] at h; cases h
      · rw [h1] at h; cases h; exact hi
    obtain ⟨e', he'⟩ := ih (e := e1) (fun pre o post e2 hp hr => by
      refine hops (op :: pre) o post e2 (by rw [hp]; rfl) ?_
      simp only [runOps, Run.bind_eq, h1, Run.done_bind]; exact hr) h3
    exact ⟨e', by simp only [runOps, Run.bind_eq, h1, Run.done_bind]; exact he'⟩

namespace Spec

/-- A call that cannot violate the contract whatever the state, at rates of 146 Hz and more: interleaved
samples, and no change to a lower rate. -/
def Plain : Op D S → Prop
  | .addFrames x | .seedFrames x =>
    match x with
    | .pi16 _ | .pi32 _ | .pf32 _ | .pf64 _ => False
    | _ => True
  | .changeParameters _ r => 146 ≤ r.toNat
  | _ => True

end Spec

theorem step_rate {E : Env D S} {e e' : Ebu D S} {r : Except Error Unit} (h2 : e.Inv2 E) {op : Op D S}
    (hs : step E e op = .done (e', r)) :
    e'.rate = e.rate ∨ ∃ c r, op = .changeParameters c r ∧ e'.rate = r.toNat := by
  cases op with
  | setChannel n v =>
    left; simp only [step, Ebu.setChannel] at hs
    repeat' split at hs
    all_goals first | (cases hs; rfl) | cases hs
  | setChannelMap m =>
    left; simp only [step, Ebu.setChannelMap] at hs
    repeat' split at hs
    all_goals first | (cases hs; rfl) | cases hs
  | changeParameters c r =>
    simp only [step, Ebu.changeParameters_eq h2.inv] at hs
    split at hs
    · cases hs; exact .inl rfl
    · split at hs
      · cases hs; exact .inl rfl
      · obtain ⟨a, -, hs⟩ := Run.bind_done hs
        cases a with
        | error x => cases hs; exact .inl rfl
        | ok l => cases hs; exact .inr ⟨c, r, rfl, rfl⟩
  | setMaxWindow w =>
    left
    simp only [step, Ebu.setMaxWindow] at hs
    by_cases h1 : clampMs e.mode w.toNat = e.window
    · simp only [h1, if_true] at hs; cases hs; rfl
    · simp only [h1, if_false, Run.bind_eq] at hs
      obtain ⟨a, -, hs⟩ := Run.bind_done hs
      cases a <;> (cases hs; rfl)
  | setMaxHistory x =>
    left
    simp only [step, Ebu.setMaxHistory] at hs
    split at hs <;> (cases hs; rfl)
  | reset =>
    left
    simp only [step, Run.bind_eq, (Ebu.reset_eq h2.inv).1, Run.done_bind] at hs
    cases hs; rfl
  | addFrames x =>
    left
    rcases Ebu.addInput_cases h2.inv x with h1 | ⟨e1, r1, h1, -, h3⟩
    · simp only [step, h1] at hs; cases hs
    · simp only [step, h1] at hs; cases hs; exact h3.rate
  | seedFrames x =>
    left
    rcases Ebu.seedInput_cases h2.inv x with h1 | ⟨e1, r1, h1, -, h3⟩
    · simp only [step, h1] at hs; cases hs
    · simp only [step, h1] at hs; cases hs; exact h3.rate

/-- **C09** without reference to intermediate states: from 146 Hz on, every history of calls with interleaved
samples runs to its end. -/
theorem C09_plain {E : Env D S} (h64 : 2 ^ 64 - 1 ≤ E.usizeMax) {channels rate : Nat} {mode : Mode}
    {e : Ebu D S} (hn : Ebu.new E channels rate mode = .done (.ok e)) (hrate : 146 ≤ rate)
    (ops : List (Op D S)) (hops : ∀ op ∈ ops, Spec.Plain op) :
    ∃ e', runOps E e ops = .done e' := by
  have h2 := Ebu.new_inv2 hn
  have hr : 146 ≤ e.rate := by obtain ⟨rfl, -⟩ := Ebu.new_ok hn; exact hrate
  clear hn hrate
  induction ops generalizing e with
  | nil => exact ⟨e, rfl⟩
  | cons op ops ih =>
    have hp := hops op List.mem_cons_self
    have hc : Spec.CallOk e.channels e.rate e.window e.mode op := by
      have ha := h2.inv.adequate hr
      cases op with
      | addFrames x => cases x <;> first | exact ⟨ha, trivial⟩ | exact absurd hp id
      | seedFrames x => cases x <;> trivial
      | _ => trivial
    obtain ⟨e1, r, h1⟩ := step_total h64 h2 (callOk_fits hc)
    have h3 : e1.Inv2 E := by
      rcases step_inv2 h2 op with h | ⟨e', r', h, hi, -⟩
      · rw [h1] at h; cases h
      · rw [h1] at h; cases h; exact hi
    have h4 : 146 ≤ e1.rate := by
      rcases step_rate h2 h1 with h | ⟨c, r, rfl, h⟩
      · omega
      · rw [h]; exact hp
    obtain ⟨e', he'⟩ := ih (e := e1) (fun o ho => hops o (List.mem_cons_of_mem _ ho)) h3 h4
    exact ⟨e', by simp only [runOps, Run.bind_eq, h1, Run.done_bind]; exact he'⟩

/-! ## Queries -/

theorem pctOk_ieee (m : Libm F64) (bs : BSearch) (t : Target) {max : Nat} (h : max ≤ 2 ^ 64) :
    PctOk (ieeeEnv m bs t) max := fun n => percentile_le rfl h n

/-- **C09** for queries: with IEEE arithmetic and whatever `log10` and `powf` return, every query returns in
every reachable state. -/
theorem C09_query (m : Libm F64) (bs : BSearch) (t : Target) (ht : t.usizeMax < 2 ^ 64)
    {e : Ebu F64 F32} (hr : Reachable (ieeeEnv m bs t) e) (q : Query) :
    ∃ r, ask (ieeeEnv m bs t) e q = .done r := by
  have h := hr.inv
  cases q with
  | loudnessGlobal => exact ⟨_, Ebu.loudnessGlobal_eq h⟩
  | loudnessMomentary => exact ⟨_, Ebu.loudnessMomentary_eq h⟩
  | loudnessShortterm => exact ⟨_, Ebu.loudnessShortterm_eq h⟩
  | loudnessWindow w => exact ⟨_, Ebu.loudnessWindow_eq h _⟩
  | loudnessRange =>
    exact ⟨_, Ebu.loudnessRange_eq (pctOk_ieee m bs t (Nat.le_of_lt ht))
      (pctOk_ieee m bs t (Nat.sub_le _ _)) h⟩
  | samplePeak n => exact ⟨_, Ebu.getSamplePeak_eq h _⟩
  | prevSamplePeak n => exact ⟨_, Ebu.getPrevSamplePeak_eq h _⟩
  | truePeak n => exact ⟨_, Ebu.getTruePeak_eq h _⟩
  | prevTruePeak n => exact ⟨_, Ebu.getPrevTruePeak_eq h _⟩
  | relativeThreshold => exact ⟨_, rfl⟩

/-- **C09** for `gating_block_count_and_energy` and the multi-instance queries. -/
theorem C09_query_multiple (m : Libm F64) (bs : BSearch) (t : Target) (ht : t.usizeMax < 2 ^ 64)
    (es : List (Ebu F64 F32)) (hr : ∀ e ∈ es, Reachable (ieeeEnv m bs t) e) :
    (∀ e ∈ es, ∃ r, e.gatingBlockCountAndEnergy (ieeeEnv m bs t) = .done r) ∧
    (∃ r, loudnessGlobalMultiple (ieeeEnv m bs t) es = .done r) ∧
    (∃ r, ebuLoudnessRangeMultiple (ieeeEnv m bs t) es = .done r) :=
  ⟨fun e he => ⟨_, Ebu.gatingCount_eq (hr e he).inv⟩,
   ⟨_, loudnessGlobalMultiple_eq fun e he => (hr e he).inv⟩,
   ⟨_, ebuLoudnessRangeMultiple_eq (pctOk_ieee m bs t (Nat.le_of_lt ht))
      (pctOk_ieee m bs t (Nat.sub_le _ _)) fun e he => (hr e he).inv⟩⟩

/-! ## The excluded points fail -/

/-- If the block to be completed does not fit the buffer, the loop panics in its first round. -/
theorem addLoop_panic [Samples Sm] [LawfulSamples Sm] {E : Env D S} (ops : SampleOps D S T) {e : Ebu D S}
    (hi : e.Inv E) {src : Sm T} (hw : LawfulSamples.WF src) (h0 : Samples.frames src ≠ 0)
    (hneed : e.neededFrames ≤ Samples.frames src) (hring : e.ring < e.audioDataIndex + e.neededFrames)
    (fuel : Nat) : Ebu.addLoop E ops (fuel + 1) e src = .panic := by
  unfold Ebu.addLoop
  simp only [Run.bind_eq]
  rw [if_neg h0, if_pos hneed]
  rw [LawfulSamples.frames_eq hw] at hneed
  obtain ⟨a, b, hs, ha, hb, hca, hcb, hfa, hfb⟩ := LawfulSamples.split_eq hw e.neededFrames hneed
  simp only [hs, Run.done_bind, Ebu.blockStep, Run.bind_eq]
  rw [Ebu.processChunk_panic ops hi ha (fun _ => ?_)]
  · rfl
  · rw [hfa, List.length_take]; omega

/-- Whatever the samples, a new analyzer at 16 or 17 Hz without `S` panics as soon as it is given eight
frames at once: its buffer holds six frames, the first block needs eight. -/
theorem C09_low_rate {E : Env D S} {channels rate : Nat} {mode : Mode} {e : Ebu D S}
    (hn : Ebu.new E channels rate mode = .done (.ok e)) (hrate : rate = 16 ∨ rate = 17)
    (hm : mode.contains Mode.S = false) (l : List D) (n : Nat) (hn8 : 8 ≤ n) (hl : l.length = n * channels) :
    step E e (.addFrames (.f64 l)) = .panic := by
  have h2 := Ebu.new_inv2 hn
  have hrr := reachable_new hn
  obtain ⟨rfl, -⟩ := Ebu.new_ok hn
  have hc1 : 1 ≤ channels := h2.inv.ch1
  have hok : interOk channels l := ⟨by omega, by rw [hl]; exact Nat.mul_mod_left ..⟩
  simp only [step, Ebu.addInput, Ebu.addInterleaved]
  have hnew : Interleaved.new l channels = .ok ⟨l, channels⟩ := by
    unfold Interleaved.new; rw [if_neg (by omega), if_neg (by rw [hl, Nat.mul_mod_left]; simp)]
  rw [show (Ebu.init E channels rate mode).channels = channels from rfl, hnew]
  simp only
  have hw : LawfulSamples.WF (⟨l, channels⟩ : Interleaved D) := ⟨by show channels ≠ 0; omega, by show l.length % channels = 0; rw [hl, Nat.mul_mod_left]⟩
  have hfr : Samples.frames (⟨l, channels⟩ : Interleaved D) = n := by
    show l.length / channels = n
    rw [hl, Nat.mul_div_cancel _ (by omega)]
  unfold Ebu.addFrames
  rw [hfr, if_neg (by omega), if_neg (by show channels ≠ 0; omega)]
  have hi := Ebu.resetPeaks_inv h2.inv
  simp only [Run.bind_eq]
  rw [addLoop_panic (f64Ops E) hi hw (by rw [hfr]; omega) (by
    rw [hfr]; show (rate + 5) / 10 * 4 ≤ n; omega) (by
    have hwin : (Ebu.init E channels rate mode).window = 400 := by
      show (if mode.contains Mode.S then 3000 else 400) = 400
      rw [hm]; rfl
    show ringFrames rate (Ebu.init E channels rate mode).window < 0 + (rate + 5) / 10 * 4
    rw [hwin]
    rcases hrate with rfl | rfl <;> decide) _]
  rfl

/-- Whatever the state, planar samples with a wrong number of slices make `add_frames_planar_*` panic (unless
there is nothing to add) and `seed_frames_planar_*` always. -/
theorem C09_wrong_width {E : Env D S} {e : Ebu D S} (hr : Reachable E e) (l : List (List D)) (n : Nat)
    (hl : ∀ c ∈ l, c.length = n) (h0 : l ≠ []) (hn : 0 < n) (hw : l.length ≠ e.channels) :
    step E e (.addFrames (.pf64 l)) = .panic ∧ step E e (.seedFrames (.pf64 l)) = .panic := by
  have hok : planarOk l := by
    cases l with
    | nil => exact absurd rfl h0
    | cons a t =>
      refine ⟨by simp, fun d hd => ?_⟩
      rw [hl d hd]; exact (hl a List.mem_cons_self).symm
  refine ⟨?_, Ebu.seedInput_wrong hr.inv (x := .pf64 l) hok hw⟩
  simp only [step, Ebu.addInput, Ebu.addPlanar, (planar_new_eq _).1 hok]
  rw [Ebu.addFrames_wrong _ hr.inv (planarOk_wf hok) (by exact hw), if_neg]
  show (l.headD []).length - 0 ≠ 0
  cases l with
  | nil => exact absurd rfl h0
  | cons a t =>
    have := hl a List.mem_cons_self
    show a.length - 0 ≠ 0
    omega

/-! ## Examples -/

/-- A non-trivial history meeting the hypotheses of `C09_plain`. -/
example : ∃ e e' : Ebu F64 F32, Ebu.new Demo.env 2 48000 (Mode.I ||| Mode.LRA) = .done (.ok e) ∧
    runOps Demo.env e [.addFrames (.f64 (List.replicate 100000 .nan)), .setMaxWindow 5000, .reset,
      .changeParameters 6 44100, .addFrames (.i16 (List.replicate 60000 (-32768))),
      .seedFrames (.f32 [Fl.inf true])] = .done e' := by
  obtain ⟨e, he, -⟩ := demo_new (channels := 2) (rate := 48000) (mode := Mode.I ||| Mode.LRA) (by omega)
    (by decide)
  obtain ⟨e', h⟩ := C09_plain (Nat.le_refl _) he (by omega) [.addFrames (.f64 (List.replicate 100000 .nan)),
    .setMaxWindow 5000, .reset, .changeParameters 6 44100,
    .addFrames (.i16 (List.replicate 60000 (-32768))), .seedFrames (.f32 [Fl.inf true])] (by
      intro op hop
      simp only [List.mem_cons, List.not_mem_nil, or_false] at hop
      rcases hop with rfl | rfl | rfl | rfl | rfl | rfl
      all_goals first | trivial | exact (by decide : 146 ≤ 44100))
  exact ⟨e, e', he, h⟩

/-- The failing cases of `C09_low_rate` and `C09_wrong_width` exist. -/
example : (∃ e : Ebu F64 F32, Ebu.new Demo.env 1 16 Mode.I = .done (.ok e) ∧
      step Demo.env e (.addFrames (.f64 (List.replicate 8 (Fl.zero false)))) = .panic) ∧
    (∃ e : Ebu F64 F32, Reachable Demo.env e ∧
      step Demo.env e (.addFrames (.pf64 [[Fl.zero false]])) = .panic) := by
  constructor
  · obtain ⟨e, he, -⟩ := demo_new (channels := 1) (rate := 16) (mode := Mode.I) (by omega) (by decide)
    exact ⟨e, he, C09_low_rate he (.inl rfl) (by decide) _ 8 (by omega) (by simp)⟩
  · obtain ⟨e, -, hr, hc, -⟩ := demo_new (channels := 2) (rate := 48000) (mode := Mode.I) (by omega) (by decide)
    exact ⟨e, hr, (C09_wrong_width hr _ 1 (by simp) (by simp) (by omega) (by simp [hc])).1⟩

end Verif
