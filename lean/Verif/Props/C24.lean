import Verif.Props.C19_C21
import Verif.Props.C22_C23
/-! # C24: channels do not influence each other's peaks -/

set_option linter.unusedSimpArgs false

namespace Verif
open Fl Spec

variable {m : Libm F64} {bs : BSearch} {t : Target}

/-- The samples of channel `c` of one input, converted to `f32`. -/
def Spec.inputStream (E : Env F64 F32) (n c : Nat) (x : Input F64 F32) : List F32 :=
  (mapFrames n (i16Ops E).toF32 (i32Ops E).toF32 (f32Ops E).toF32 (f64Ops E).toF32 x).filterMap (·[c]?)

/-- Everything the interpolator of channel `c` was fed with by the successful calls of a log; `true` marks the samples
that are measured (`add_frames`), `false` those that only seed. -/
def Spec.heardBy (E : Env F64 F32) (n c : Nat) (log : List (Entry F64 F32)) : List (Bool × F32) :=
  log.flatMap fun
    | (.addFrames x, .ok _) => (inputStream E n c x).map fun v => (true, v)
    | (.seedFrames x, .ok _) => (inputStream E n c x).map fun v => (false, v)
    | _ => []

/-- Levels of the interpolated samples at the measured positions: after the samples `pre`, every new sample gives
`factor` interpolated ones, each the FIR sum over the samples so far. -/
def Spec.between (E : Env F64 F32) (taps factor : Nat) (pre : List F32) : List (Bool × F32) → List F64
  | [] => []
  | (b, x) :: rest =>
    (if b then (List.range factor).map fun p => levelF (phase E taps factor ((pre ++ [x]).map ([·])) p 0)
      else []) ++ between E taps factor (pre ++ [x]) rest

/-- The same for a rate: nothing is interpolated from 192 kHz on. -/
def Spec.oversampled (E : Env F64 F32) (rate : Nat) (pre : List F32) (s : List (Bool × F32)) : List F64 :=
  match oversampling rate with
  | none => []
  | some (taps, factor) => between E taps factor pre s

/-- No `reset` and no effective `change_parameters`. -/
def Spec.Steady {D S : Type} (n rate : Nat) : Op D S → Prop
  | .reset => False
  | .changeParameters c r => c.toNat = n ∧ r.toNat = rate
  | _ => True

/-- Well-formed input was accepted. (Only the low-rate `LRA` defect of C04 makes a call fail midway.) -/
def Spec.Accepted {D S : Type} (n : Nat) : Entry D S → Prop
  | (.addFrames x, r) => WellFormed n x → r = .ok ()
  | _ => True

/-! ## The interpolator -/

theorem between_append (E : Env F64 F32) (taps factor : Nat) (s1 : List (Bool × F32)) :
    ∀ (pre : List F32) (s2 : List (Bool × F32)), between E taps factor pre (s1 ++ s2) =
      between E taps factor pre s1 ++ between E taps factor (pre ++ s1.map Prod.snd) s2 := by
  induction s1 with
  | nil => intro pre s2; simp [between]
  | cons b s1 ih =>
    intro pre s2
    obtain ⟨b, x⟩ := b
    simp only [List.cons_append, between, ih, List.append_assoc, List.map_cons, List.cons_append,
      List.nil_append]

theorem oversampled_append (E : Env F64 F32) (rate : Nat) (s1 : List (Bool × F32))
    (pre : List F32) (s2 : List (Bool × F32)) : oversampled E rate pre (s1 ++ s2) =
      oversampled E rate pre s1 ++ oversampled E rate (pre ++ s1.map Prod.snd) s2 := by
  unfold oversampled
  split
  · rfl
  · exact between_append ..

theorem between_false (E : Env F64 F32) (taps factor : Nat) (xs : List F32) :
    ∀ pre, between E taps factor pre (xs.map fun v => (false, v)) = [] := by
  induction xs with
  | nil => intro _; rfl
  | cons x xs ih => intro pre; simp only [List.map_cons, between, ih, Bool.false_eq_true, if_false, List.append_nil]

theorem oversampled_false (E : Env F64 F32) (rate : Nat) (xs : List F32) (pre : List F32) :
    oversampled E rate pre (xs.map fun v => (false, v)) = [] := by
  unfold oversampled
  split
  · rfl
  · exact between_false ..

theorem between_pos (E : Env F64 F32) (taps factor : Nat) (s : List (Bool × F32)) :
    ∀ pre, ∀ v ∈ between E taps factor pre s, Pos v := by
  induction s with
  | nil => intro pre v hv; cases hv
  | cons b s ih =>
    intro pre v hv
    obtain ⟨b, x⟩ := b
    simp only [between] at hv
    rcases List.mem_append.1 hv with h | h
    · split at h
      · obtain ⟨p, -, rfl⟩ := List.mem_map.1 h
        exact pos_abs _
      · cases h
    · exact ih _ v h

theorem oversampled_pos (E : Env F64 F32) (rate : Nat) (pre : List F32) (s : List (Bool × F32)) :
    ∀ v ∈ oversampled E rate pre s, Pos v := by
  unfold oversampled
  split
  · intro v hv; cases hv
  · exact between_pos E _ _ s pre

theorem fed_eq (ip : Interp F32) (xs : List F32) :
    ip.fed m bs t xs = (xs.map ([·])).foldl (fun ip f => ip.adv (ieeeEnv m bs t) f) ip := by
  unfold Interp.fed
  rw [List.foldl_map]

theorem stepP_phase {taps factor : Nat} (h0 : 0 < taps) (h2 : taps * 2 ≤ 48) (pre : List F32) (x : F32) :
    outKey ((((Interp.init (ieeeEnv m bs t) taps factor 1).fed m bs t pre).stepP (ieeeEnv m bs t) [x]).2) =
      maxKey (fun p => mkey (phase (ieeeEnv m bs t) taps factor ((pre ++ [x]).map ([·])) p 0))
        (List.range factor) := by
  have E := ieeeEnv m bs t
  have hv' := foldl_pushP_view (zeroFrame (ieeeEnv m bs t) 1) h0 h2 ((pre ++ [x]).map ([·]))
  have hv := foldl_pushP_view (zeroFrame (ieeeEnv m bs t) 1) h0 h2 (pre.map ([·]))
  obtain ⟨p1, p2, p3, p4⟩ := foldl_adv_parts (ieeeEnv m bs t) (pre.map ([·]))
    (Interp.init (ieeeEnv m bs t) taps factor 1)
  have hout : (((Interp.init (ieeeEnv m bs t) taps factor 1).fed m bs t pre).stepP (ieeeEnv m bs t) [x]).2 =
      firAccum (ieeeEnv m bs t) factor 1 (interpFilter (ieeeEnv m bs t) taps factor)
        ((((pre ++ [x]).map ([·])).reverse ++
          List.replicate taps (zeroFrame (ieeeEnv m bs t) 1)).take taps) := by
    have h3 := hv'.2.2
    rw [List.map_append, List.foldl_append] at h3
    simp only [List.map_cons, List.map_nil, List.foldl_cons, List.foldl_nil] at h3
    rw [List.map_append, List.map_cons, List.map_nil, ← h3]
    show firAccum (ieeeEnv m bs t) _ _ _ _ = _
    rw [fed_eq, p1, p2, p3, p4]
    rfl
  rw [hout]
  obtain ⟨q1, q2, q3⟩ := firAccum_phase (ieeeEnv m bs t) (taps := taps) (factor := factor) (width := 1)
    ((pre ++ [x]).map ([·])) (by intro f hf; obtain ⟨y, -, rfl⟩ := List.mem_map.1 hf; rfl)
  generalize hL : firAccum (ieeeEnv m bs t) factor 1 (interpFilter (ieeeEnv m bs t) taps factor)
        ((((pre ++ [x]).map ([·])).reverse ++
          List.replicate taps (zeroFrame (ieeeEnv m bs t) 1)).take taps) = L at q1 q2 q3
  have hl : L = (List.range factor).map fun p =>
      [phase (ieeeEnv m bs t) taps factor ((pre ++ [x]).map ([·])) p 0] := by
    apply List.ext_getElem
    · simp [q1]
    · intro i h1 h2
      have hw := q2 _ (List.getElem_mem h1)
      have h3 := q3 i 0 (by omega) (by omega)
      rw [show L.getD i [] = L[i] by simp [h1]] at h3
      obtain ⟨y, hy⟩ := List.length_eq_one_iff.1 hw
      rw [hy] at h3 ⊢
      simp only [List.getElem_map, List.getElem_range]
      rw [← h3]; rfl
  rw [hl]
  unfold outKey
  rw [maxKey_map]
  apply maxKey_congr
  intro p _
  rw [maxKey_cons, maxKey_nil, Nat.max_zero]

theorem peakKey_between {taps factor : Nat} (h0 : 0 < taps) (h2 : taps * 2 ≤ 48) (xs : List F32) :
    ∀ pre, wkey (((Interp.init (ieeeEnv m bs t) taps factor 1).fed m bs t pre).peakKey m bs t xs) =
      maxKey mkey (between (ieeeEnv m bs t) taps factor pre (xs.map fun v => (true, v))) := by
  induction xs with
  | nil => intro pre; simp only [Interp.peakKey, wkey_zero]; rfl
  | cons x xs ih =>
    intro pre
    simp only [Interp.peakKey, List.map_cons, between, if_true, maxKey_append, wkey_max]
    congr 1
    · rw [stepP_phase h0 h2, maxKey_mono wkey_max wkey_zero, maxKey_map]
      apply maxKey_congr
      intro p _
      unfold levelF
      rw [mkey_abs, mkey_cast]
    · rw [← ih (pre ++ [x]), Interp.fed_append]
      rfl

/-! ## The scanner of a state -/

/-- The interpolator of channel `c` has seen exactly the samples `pre`. -/
def ScAt (m : Libm F64) (bs : BSearch) (t : Target) (e : Ebu F64 F32) (c : Nat) (pre : List F32) : Prop :=
  match oversampling e.rate with
  | none => True
  | some (taps, factor) => ∃ sc, e.filter.tp = some sc ∧
      sc.mono c = some ((Interp.init (ieeeEnv m bs t) taps factor 1).fed m bs t pre)

theorem oversampling_bounds {rate taps factor : Nat} (h : oversampling rate = some (taps, factor)) :
    0 < taps ∧ taps * 2 ≤ 48 := by
  unfold oversampling at h
  split at h
  · cases h; decide
  · split at h
    · cases h; decide
    · cases h

theorem initP_over (E : Env F64 F32) (rate channels : Nat) :
    Scanner.initP E rate channels = (oversampling rate).map fun x => Scanner.initP.mk E channels x.1 x.2 := by
  unfold Scanner.initP Spec.oversampling
  split
  · rfl
  · split <;> rfl

theorem scAt_init {e : Ebu F64 F32} {c : Nat} (hc : c < e.channels)
    (h : e.filter = Filter.init (ieeeEnv m bs t) e.rate e.channels (e.mode.contains Mode.SAMPLE_PEAK)
      (e.mode.contains Mode.TRUE_PEAK)) (hm : e.mode.contains Mode.TRUE_PEAK = true) : ScAt m bs t e c [] := by
  unfold ScAt
  have h1 : e.filter.tp = Scanner.initP (ieeeEnv m bs t) e.rate e.channels := by
    rw [h]; simp only [Filter.init, hm, if_true]
  rw [initP_over] at h1
  split
  · trivial
  · next taps factor ho =>
    rw [ho] at h1
    refine ⟨_, h1, ?_⟩
    simp only [Option.map_some, Scanner.initP.mk]
    split
    · show some ((Interp.init (ieeeEnv m bs t) taps factor e.channels).proj c) = _
      congr 1
      simp only [Interp.proj, Interp.init, List.map_replicate]
      congr 3
      simp only [pick, zeroFrame, List.getD_eq_getElem?_getD, List.getElem?_replicate, hc, if_true, Option.getD_some]
      rfl
    · show (List.replicate e.channels (Interp.init (ieeeEnv m bs t) taps factor 1))[c]? = _
      rw [List.getElem?_replicate, if_pos hc]; rfl

theorem Spec.PeakStart.filter {e : Ebu F64 F32} (h : PeakStart (ieeeEnv m bs t) e) :
    e.filter = Filter.init (ieeeEnv m bs t) e.rate e.channels (e.mode.contains Mode.SAMPLE_PEAK)
      (e.mode.contains Mode.TRUE_PEAK) := by
  rcases h with ⟨ch, r, md, h⟩ | ⟨e1, r, h1, h2⟩ | ⟨e1, ch, w, h1, h2, h3⟩
  · obtain ⟨rfl, -⟩ := Ebu.new_ok h; rfl
  · simp only [step, Run.bind_eq, (Ebu.reset_eq h1.inv).1, Run.done_bind] at h2
    cases h2
    exact h1.inv.fresh
  · simp only [step] at h2
    rw [Ebu.changeParameters_eq h1.inv] at h2
    split at h2
    · cases h2
    · split at h2
      · next hh => exact absurd hh.2 h3
      · obtain ⟨a, ha, h2⟩ := Run.bind_done h2
        cases a with
        | error x => cases h2
        | ok l => cases h2; rfl

theorem inputStream_eq {n : Nat} {x : Input F64 F32} (h : x.Ok n) (E : Env F64 F32) (c : Nat) :
    inputStream E n c x = (column c (x.decode E n).frames).map (x.decode E n).ops.toF32 := by
  cases x
  · rw [show inputStream E n c (.i16 _) = column c (groups n _) from rfl, inter_values h]; exact column_map ..
  · rw [show inputStream E n c (.i32 _) = column c (groups n _) from rfl, inter_values h]; exact column_map ..
  · rw [show inputStream E n c (.f32 _) = column c (groups n _) from rfl, inter_values h]; exact column_map ..
  · rw [show inputStream E n c (.f64 _) = column c (groups n _) from rfl, inter_values h]; exact column_map ..
  · rw [show inputStream E n c (.pi16 _) = column c (columns _) from rfl, planar_values]; exact column_map ..
  · rw [show inputStream E n c (.pi32 _) = column c (columns _) from rfl, planar_values]; exact column_map ..
  · rw [show inputStream E n c (.pf32 _) = column c (columns _) from rfl, planar_values]; exact column_map ..
  · rw [show inputStream E n c (.pf64 _) = column c (columns _) from rfl, planar_values]; exact column_map ..

theorem ScAt.feed {e e' : Ebu F64 F32} (hi : e.Inv (ieeeEnv m bs t)) {c : Nat} (hc : c < e.channels)
    {pre : List F32} (h : ScAt m bs t e c pre) {x : Input F64 F32} (hx : x.Ok e.channels)
    (hrect : RectF e.channels (x.decode (ieeeEnv m bs t) e.channels).frames) (hrate : e'.rate = e.rate)
    (htp : e'.filter.tp = e.filter.tp.map (Scanner.feed (ieeeEnv m bs t)
      (x.decode (ieeeEnv m bs t) e.channels).ops (x.decode (ieeeEnv m bs t) e.channels).frames)) :
    ScAt m bs t e' c (pre ++ inputStream (ieeeEnv m bs t) e.channels c x) ∧
    wkey (e.filter.tKey m bs t (x.decode (ieeeEnv m bs t) e.channels).ops
        (x.decode (ieeeEnv m bs t) e.channels).frames c) =
      if oversampling e.rate = none ∧ e.filter.tp ≠ none then wkey (e.filter.tKey m bs t
        (x.decode (ieeeEnv m bs t) e.channels).ops (x.decode (ieeeEnv m bs t) e.channels).frames c) else
      maxKey mkey (oversampled (ieeeEnv m bs t) e.rate pre
        ((inputStream (ieeeEnv m bs t) e.channels c x).map fun v => (true, v))) := by
  unfold ScAt at h ⊢
  unfold oversampled
  rw [hrate]
  cases ho : oversampling e.rate with
  | none =>
    simp only [true_and]
    by_cases hn : e.filter.tp = none
    · rw [if_neg (by simp [hn])]
      simp only [Filter.tKey, hn, wkey_zero]; rfl
    · rw [if_pos hn]
  | some p =>
    obtain ⟨taps, factor⟩ := p
    rw [ho] at h
    obtain ⟨sc, h1, h2⟩ := h
    have hb := oversampling_bounds ho
    have h3 := Scanner.mono_feed m bs t (x.decode (ieeeEnv m bs t) e.channels).ops (hi.filter.tp sc h1)
      (hi.rect sc h1) hc hrect
    refine ⟨⟨_, by rw [htp, h1]; rfl, ?_⟩, ?_⟩
    · rw [h3, h2, Option.map_some, ← Interp.fed_append, inputStream_eq hx]
    · rw [if_neg (by simp)]
      simp only [Filter.tKey, h1, Scanner.key, h2]
      rw [peakKey_between hb.1 hb.2, inputStream_eq hx]

/-! ## Histories -/

/-- One call. -/
theorem step_over {e e' : Ebu F64 F32} (hi : e.Inv (ieeeEnv m bs t)) {op : Op F64 F32} {r : Except Error Unit}
    (hs : step (ieeeEnv m bs t) e op = .done (e', r)) (hk : Steady e.channels e.rate op)
    (ha : Accepted e.channels (op, r)) {c : Nat} (hc : c < e.channels) {a q A Q : Nat} {pre : List F32}
    (hp : EPeak t e c a q A Q) (hsc : ScAt m bs t e c pre) :
    e'.channels = e.channels ∧ e'.rate = e.rate ∧
    ScAt m bs t e' c (pre ++ (heardBy (ieeeEnv m bs t) e.channels c [(op, r)]).map Prod.snd) ∧
    ∃ a' q' K, EPeak t e' c a' q'
      (max A (if e.mode.contains Mode.SAMPLE_PEAK then maxKey mkey (levels t e.channels c [(op, r)]) else 0))
      (max Q K) ∧
      wkey K = maxKey mkey (oversampled (ieeeEnv m bs t) e.rate pre
        (heardBy (ieeeEnv m bs t) e.channels c [(op, r)])) := by
  have hover : oversampled (ieeeEnv m bs t) e.rate pre [] = [] := by
    unfold oversampled; split <;> rfl
  rcases step_peaks hi hs with ⟨h1, h2, h3⟩ | ⟨x, rfl, hx, h1, h2, -⟩ | ⟨rfl, -⟩ | ⟨ch, w, rfl, -, -, h1⟩
  · obtain ⟨-, a', q', Q', h4, -⟩ := step_level hi hs (by
      cases op with
      | changeParameters c w => exact hk.1
      | reset => exact hk
      | _ => trivial) hc hp
    have hQ : pk Fmt.b64 (wkey Q') = pk _ (wkey Q) := by
      have h5 := h4.true
      rw [h1.true, hp.true] at h5
      exact (Option.some.inj h5).symm
    have h6 := hp.same h1
    have hA := h4.sample
    refine ⟨h1.channels, h1.rate, ?_, a, q, 0, ⟨h6.last, ?_, by rw [Nat.max_zero]; exact h6.true,
      by rw [Nat.max_zero]; exact h6.key⟩, ?_⟩
    · -- the interpolator
      by_cases hop : ∃ x, op = .seedFrames x
      · obtain ⟨x, rfl⟩ := hop
        rcases h2.1 x rfl with ⟨g1, g2, rfl, g3⟩ | ⟨g1, g2⟩
        · have hrect := Input.decode_rect (ieeeEnv m bs t) g1
          rw [g2] at hrect
          have := (hsc.feed hi hc g1 hrect h1.rate g3).1
          simp only [heardBy, List.flatMap_cons, List.flatMap_nil, List.append_nil, List.map_map]
          have hid : (Prod.snd ∘ fun v : F32 => (false, v)) = id := rfl
          rw [hid, List.map_id]; exact this
        · have : heardBy (ieeeEnv m bs t) e.channels c [(.seedFrames x, r)] = [] := by
            cases r with
            | ok u => exact absurd rfl g1
            | error _ => rfl
          rw [this, List.map_nil, List.append_nil]
          unfold ScAt at hsc ⊢
          rw [h1.rate, g2]; exact hsc
      · have g2 := h2.2 fun x hx => hop ⟨x, hx⟩
        have : heardBy (ieeeEnv m bs t) e.channels c [(op, r)] = [] := by
          simp only [heardBy, List.flatMap_cons, List.flatMap_nil, List.append_nil]
          split
          · next x u hx =>
            cases hx
            obtain ⟨-, -, h7⟩ := h3 x rfl
            obtain ⟨h8, h9⟩ := h7 rfl
            rw [inputStream_eq h8, h9]; rfl
          · next x u hx => cases hx; exact absurd ⟨x, rfl⟩ hop
          · rfl
        rw [this, List.map_nil, List.append_nil]
        unfold ScAt at hsc ⊢
        rw [h1.rate, g2]; exact hsc
    · exact hA
    · have : oversampled (ieeeEnv m bs t) e.rate pre (heardBy (ieeeEnv m bs t) e.channels c [(op, r)]) = [] := by
        simp only [heardBy, List.flatMap_cons, List.flatMap_nil, List.append_nil]
        split
        · next x u hx =>
          cases hx
          obtain ⟨-, -, h7⟩ := h3 x rfl
          obtain ⟨h8, h9⟩ := h7 rfl
          rw [inputStream_eq h8, h9]; exact hover
        · exact oversampled_false ..
        · exact hover
      rw [this, wkey_zero]; rfl
  · have hok := ha ((wellFormed_iff hi.ch1 x).1 hx.1)
    subst hok
    have hn : 0 < frameCount e.channels x := by
      rw [← frames_length (ieeeEnv m bs t) hx.1]
      exact List.length_pos_iff.2 hx.2.2
    obtain ⟨h3, h4, h5, h6, h7, d, k, h8, h9, h10⟩ := fed_step hi hs hn hc hp
    obtain ⟨h11, h12⟩ := hsc.feed hi hc hx.1 hx.rect h6 h7
    refine ⟨h4, h6, ?_, d, k, k, ?_, ?_⟩
    · simp only [heardBy, List.flatMap_cons, List.flatMap_nil, List.append_nil, List.map_map]
      have hid : (Prod.snd ∘ fun v : F32 => (true, v)) = id := rfl
      rw [hid, List.map_id]; exact h11
    · have hl : levels t e.channels c [(.addFrames x, .ok ())] = inputLevels t e.channels c x := by
        simp [levels]
      rw [hl, ← h9]; exact h8
    · rw [h10, h12, if_neg]
      · simp only [heardBy, List.flatMap_cons, List.flatMap_nil, List.append_nil]
      · rintro ⟨ho, hne⟩
        apply hne
        apply tp_none hi
        unfold oversampling at ho
        split at ho
        · cases ho
        · split at ho
          · cases ho
          · omega
  · exact hk.elim
  · exact absurd ⟨hk.2.symm, hk.1.symm⟩ h1

theorem heardBy_single (E : Env F64 F32) (n c : Nat) (op : Op F64 F32) (r : Except Error Unit)
    (log : List (Entry F64 F32)) : heardBy E n c ((op, r) :: log) = heardBy E n c [(op, r)] ++ heardBy E n c log := by
  simp [heardBy]

theorem Spec.Calls.over {e e' : Ebu F64 F32} {log : List (Entry F64 F32)}
    (h : Calls (ieeeEnv m bs t) e log e') :
    ∀ {a q A Q c : Nat} {pre : List F32}, e.Inv (ieeeEnv m bs t) →
    (∀ p ∈ log, Steady e.channels e.rate p.1) → (∀ p ∈ log, Accepted e.channels p) →
    c < e.channels → EPeak t e c a q A Q → ScAt m bs t e c pre →
    e'.channels = e.channels ∧ e'.rate = e.rate ∧ e'.mode = e.mode ∧
    ScAt m bs t e' c (pre ++ (heardBy (ieeeEnv m bs t) e.channels c log).map Prod.snd) ∧
    ∃ a' q' K, EPeak t e' c a' q'
      (max A (if e.mode.contains Mode.SAMPLE_PEAK then maxKey mkey (levels t e.channels c log) else 0))
      (max Q K) ∧ wkey K = maxKey mkey (oversampled (ieeeEnv m bs t) e.rate pre
        (heardBy (ieeeEnv m bs t) e.channels c log)) := by
  induction h with
  | nil e =>
    intro a q A Q c pre _ _ _ _ hp hsc
    refine ⟨rfl, rfl, rfl, by simpa [heardBy] using hsc, a, q, 0, ?_, ?_⟩
    · have : max A (if e.mode.contains Mode.SAMPLE_PEAK then maxKey mkey (levels t e.channels c []) else 0) = A := by
        simp only [levels, List.flatMap_nil, maxKey_nil]; split <;> omega
      rw [this, Nat.max_zero]; exact hp
    · rw [wkey_zero]
      have : oversampled (ieeeEnv m bs t) e.rate pre (heardBy (ieeeEnv m bs t) e.channels c []) = [] := by
        unfold oversampled; split <;> rfl
      rw [this]; rfl
  | @cons e e1 e2 op r log hs _ ih =>
    intro a q A Q c pre hi hk ha hc hp hsc
    obtain ⟨h1, h2, h3, a1, q1, K1, h4, h5⟩ := step_over hi hs (hk (op, r) (by simp)) (ha (op, r) (by simp)) hc hp hsc
    obtain ⟨h6, h7⟩ := step_mode hi hs
    obtain ⟨g1, g2, g3, g4, a2, q2, K2, g5, g6⟩ := ih h7
      (fun p hp => by rw [h1, h2]; exact hk p (by simp [hp]))
      (fun p hp => by rw [h1]; exact ha p (by simp [hp])) (by rw [h1]; exact hc) h4 h3
    rw [h1] at g1 g4 g5 g6
    rw [h6] at g5
    rw [h2] at g6
    refine ⟨g1, g2.trans h2, g3.trans h6, ?_, a2, q2, max K1 K2, ?_, ?_⟩
    · rw [heardBy_single, List.map_append, ← List.append_assoc]; exact g4
    · rw [levels_single, maxKey_append]
      have : max A (if e.mode.contains Mode.SAMPLE_PEAK then
          max (maxKey mkey (levels t e.channels c [(op, r)])) (maxKey mkey (levels t e.channels c log)) else 0) =
          max (max A (if e.mode.contains Mode.SAMPLE_PEAK then maxKey mkey (levels t e.channels c [(op, r)]) else 0))
          (if e.mode.contains Mode.SAMPLE_PEAK then maxKey mkey (levels t e.channels c log) else 0) := by
        split <;> omega
      rw [this, ← Nat.max_assoc]; exact g5
    · rw [wkey_max, h5, g6, heardBy_single (log := log), oversampled_append, maxKey_append]

/-! ## The property -/

/-- **C24**, closed form: from a start on, the true peak of channel `c` is the maximum of the levels of its samples and
of its interpolated samples; it is a function of the rate and of the samples of channel `c` alone. This covers every
channel count, hence the specialised and the generic scanners. -/
theorem C24_true_peak {e e' : Ebu F64 F32} (h0 : PeakStart (ieeeEnv m bs t) e) {log : List (Entry F64 F32)}
    (h : Calls (ieeeEnv m bs t) e log e') (hk : ∀ p ∈ log, Steady e.channels e.rate p.1)
    (ha : ∀ p ∈ log, Accepted e.channels p) (hm : e.mode.contains Mode.TRUE_PEAK = true) {c : UInt32}
    (hc : c.toNat < e.channels) :
    ∃ p, ask (ieeeEnv m bs t) e' (.truePeak c) = .done (.ok p) ∧
      IsPeak (levels t e.channels c.toNat log ++
        oversampled (ieeeEnv m bs t) e.rate [] (heardBy (ieeeEnv m bs t) e.channels c.toNat log)) p := by
  obtain ⟨h1, h2, h3, -, a, q, K, h4, h5⟩ := h.over h0.reachable.inv hk ha hc (h0.peak hc)
    (scAt_init hc h0.filter hm)
  refine ⟨_, ask_true (by rw [h3]; exact hm) (by rw [h1]; exact hc) h4.sample h4.true, ?_⟩
  rw [if_pos (true_sample hm), Nat.zero_max, Nat.zero_max, h5, ← maxKey_append]
  apply isPeak_maxKey
  intro v hv
  rcases List.mem_append.1 hv with hv | hv
  · exact levels_pos t _ _ _ v hv
  · exact oversampled_pos _ _ _ _ v hv

/-- **C24**, closed form of the per-call true peak: of the samples of the last non-empty call and of the interpolated
samples at its positions. -/
theorem C24_prev_true_peak {e e1 e2 e3 : Ebu F64 F32} (h0 : PeakStart (ieeeEnv m bs t) e)
    {log : List (Entry F64 F32)} (h : Calls (ieeeEnv m bs t) e log e1)
    (hk : ∀ p ∈ log, Steady e.channels e.rate p.1) (ha : ∀ p ∈ log, Accepted e.channels p)
    {x : Input F64 F32} (hs : step (ieeeEnv m bs t) e1 (.addFrames x) = .done (e2, .ok ()))
    (hn : 0 < frameCount e.channels x) {log' : List (Entry F64 F32)} (h' : Calls (ieeeEnv m bs t) e2 log' e3)
    (hq : ∀ p ∈ log', Quiet e.channels e.rate p.1)
    (hm : e.mode.contains Mode.TRUE_PEAK = true) {c : UInt32} (hc : c.toNat < e.channels) :
    ∃ p, ask (ieeeEnv m bs t) e3 (.prevTruePeak c) = .done (.ok p) ∧
      IsPeak (inputLevels t e.channels c.toNat x ++ oversampled (ieeeEnv m bs t) e.rate
        ((heardBy (ieeeEnv m bs t) e.channels c.toNat log).map Prod.snd)
        ((inputStream (ieeeEnv m bs t) e.channels c.toNat x).map fun v => (true, v))) p := by
  obtain ⟨h1, h2, h3, h4, a, q, K, h5, -⟩ := h.over h0.reachable.inv hk ha hc (h0.peak hc)
    (scAt_init hc h0.filter hm)
  have hr1 := h.reachable h0.reachable
  rw [← h1] at hn hc
  obtain ⟨g1, g2, g3, g4, g5, d, k, g6, g7, g8⟩ := fed_step hr1.inv hs hn hc h5
  have hrect : RectF e1.channels (x.decode (ieeeEnv m bs t) e1.channels).frames := by
    rcases step_peaks hr1.inv hs with ⟨-, -, u⟩ | ⟨y, hy, hx, -⟩ | ⟨hy, -⟩ | ⟨_, _, hy, -⟩
    · have := (u x rfl).2.2 rfl
      rw [this.2]; intro f hf; cases hf
    · cases hy; exact hx.rect
    · cases hy
    · cases hy
  obtain ⟨-, g9⟩ := h4.feed hr1.inv hc g1 hrect g4 g5
  obtain ⟨f1, f2⟩ := h'.quiet (hr1.step hs).inv (by rw [g2, g4, h1, h2]; exact hq)
  have hm1 : e1.mode.contains Mode.TRUE_PEAK = true := by rw [h3]; exact hm
  refine ⟨_, ask_prevTrue (by rw [f2, g3]; exact hm1) (by rw [f1.channels, g2]; exact hc)
    (by rw [f1.lastSample]; exact g6.last.sample) (by rw [f1.lastTrue]; exact g6.last.true), ?_⟩
  rw [g7, if_pos (true_sample hm1), g8, g9, if_neg, ← maxKey_append, h1, h2, List.nil_append]
  · apply isPeak_maxKey
    intro v hv
    rcases List.mem_append.1 hv with hv | hv
    · exact inputLevels_pos t _ _ _ v hv
    · exact oversampled_pos _ _ _ _ v hv
  · rintro ⟨ho, hne⟩
    apply hne
    apply tp_none hr1.inv
    unfold oversampling at ho
    split at ho
    · cases ho
    · split at ho
      · cases ho
      · omega

/-- The true peak of a channel is determined by the rate and by the channel's own samples: two analyzers of any channel
counts, whose channels `c1` and `c2` were fed the same samples, agree, whatever was in the other channels and whichever
scanner implementation the channel counts select. -/
theorem C24_channels {ea ea' eb eb' : Ebu F64 F32} {la lb : List (Entry F64 F32)}
    (hsa : PeakStart (ieeeEnv m bs t) ea) (hsb : PeakStart (ieeeEnv m bs t) eb)
    (ha : Calls (ieeeEnv m bs t) ea la ea') (hb : Calls (ieeeEnv m bs t) eb lb eb')
    (hka : ∀ p ∈ la, Steady ea.channels ea.rate p.1) (hkb : ∀ p ∈ lb, Steady eb.channels eb.rate p.1)
    (haa : ∀ p ∈ la, Accepted ea.channels p) (hab : ∀ p ∈ lb, Accepted eb.channels p)
    (hma : ea.mode.contains Mode.TRUE_PEAK = true) (hmb : eb.mode.contains Mode.TRUE_PEAK = true)
    (hrate : ea.rate = eb.rate) {c1 c2 : UInt32} (hc1 : c1.toNat < ea.channels) (hc2 : c2.toNat < eb.channels)
    (hl : levels t ea.channels c1.toNat la = levels t eb.channels c2.toNat lb)
    (hsig : heardBy (ieeeEnv m bs t) ea.channels c1.toNat la = heardBy (ieeeEnv m bs t) eb.channels c2.toNat lb) :
    ask (ieeeEnv m bs t) ea' (.truePeak c1) = ask (ieeeEnv m bs t) eb' (.truePeak c2) := by
  obtain ⟨p, hp, hp'⟩ := C24_true_peak hsa ha hka haa hma hc1
  obtain ⟨q, hq, hq'⟩ := C24_true_peak hsb hb hkb hab hmb hc2
  rw [← hl, ← hsig, ← hrate] at hq'
  rw [hp, hq, IsPeak.unique (fun v hv => ?_) hp' hq']
  rcases List.mem_append.1 hv with hv | hv
  · exact levels_pos t _ _ _ v hv
  · exact oversampled_pos _ _ _ _ v hv

/-! ## Compared with a mono analyzer -/

/-- The successful feeding calls of a log: `true` for `add_frames`, `false` for `seed_frames`. -/
def Spec.feeds {D S : Type} (log : List (Entry D S)) : List (Bool × Input D S) :=
  log.flatMap fun
    | (.addFrames x, .ok _) => [(true, x)]
    | (.seedFrames x, .ok _) => [(false, x)]
    | _ => []

/-- Channel `c` of an input alone, in the same sample type and layout. -/
def Spec.monoInput {D S : Type} (n c : Nat) : Input D S → Input D S
  | .i16 l => .i16 ((groups n l).filterMap (·[c]?))
  | .i32 l => .i32 ((groups n l).filterMap (·[c]?))
  | .f32 l => .f32 ((groups n l).filterMap (·[c]?))
  | .f64 l => .f64 ((groups n l).filterMap (·[c]?))
  | .pi16 l => .pi16 [l.getD c []]
  | .pi32 l => .pi32 [l.getD c []]
  | .pf32 l => .pf32 [l.getD c []]
  | .pf64 l => .pf64 [l.getD c []]

theorem groups_map {α β : Type} (n : Nat) (g : α → β) (l : List α) :
    groups n (l.map g) = (groups n l).map (·.map g) := by
  simp [groups]

theorem column_groups_one {α : Type} (l : List α) : column 0 (groups 1 l) = l := by
  have h := groups_flatten (n := 1) (by omega) (fs := l.map ([·]))
    (by intro f hf; obtain ⟨y, -, rfl⟩ := List.mem_map.1 hf; rfl)
  have h2 : (l.map ([·])).flatten = l := by induction l with
    | nil => rfl
    | cons a l ih => simp only [List.map_cons, List.flatten_cons, ih (by
        exact groups_flatten (n := 1) (by omega)
          (by intro f hf; obtain ⟨y, -, rfl⟩ := List.mem_map.1 hf; rfl))]; rfl
  rw [h2] at h
  rw [h]
  simp [column, List.filterMap_map, Function.comp_def]

theorem column_columns {α : Type} {l : List (List α)} (h : planarOk l) (c : Nat) :
    column c (columns l) = l.getD c [] := by
  have h1 : columns l = (List.range (l.headD []).length).map fun i => planarFrame l (0 + i) := by
    simp only [Nat.zero_add]; rfl
  rw [h1]
  by_cases hc : c < l.length
  · have h2 : l[c]? = some l[c] := List.getElem?_eq_getElem hc
    rw [column_planar (fun d hd => by rw [h.2 d hd]; omega) h2, List.drop_zero,
      ← h.2 l[c] (List.getElem_mem hc), List.take_length, List.getD_eq_getElem?_getD, h2, Option.getD_some]
  · rw [List.getD_eq_getElem?_getD, List.getElem?_eq_none (by omega), Option.getD_none]
    unfold column
    rw [List.filterMap_eq_nil_iff]
    intro f hf
    obtain ⟨i, hi, rfl⟩ := List.mem_map.1 hf
    apply List.getElem?_eq_none
    rw [planarFrame_length (fun ch hch => by rw [h.2 ch hch]; simpa using hi)]; omega

theorem mono_values {D S α : Type} {n : Nat} {x : Input D S} (h : x.Ok n) (c : Nat) (a : Int16 → α)
    (b : Int32 → α) (f : S → α) (d : D → α) :
    (mapFrames 1 a b f d (monoInput n c x)).filterMap (·[0]?) = (mapFrames n a b f d x).filterMap (·[c]?) := by
  have hi : ∀ {T : Type} (l : List T) (g : T → α),
      column 0 (groups 1 (((groups n l).filterMap (·[c]?)).map g)) = column c (groups n (l.map g)) := by
    intro T l g
    rw [column_groups_one, groups_map, column_map]; rfl
  have hp : ∀ {T : Type} {l : List (List T)} (_ : planarOk l) (g : T → α),
      column 0 (columns ([l.getD c []].map (·.map g))) = column c (columns (l.map (·.map g))) := by
    intro T l hl g
    have hl' : planarOk (l.map (·.map g)) := by
      refine ⟨by simpa using hl.1, fun v hv => ?_⟩
      obtain ⟨v', hv', rfl⟩ := List.mem_map.1 hv
      rw [List.length_map, hl.2 v' hv']
      cases l <;> simp
    rw [column_columns hl', column_columns ⟨by simp, by simp⟩]
    simp only [List.map_cons, List.map_nil, List.getD_eq_getElem?_getD, List.getElem?_map]
    cases l[c]? <;> simp
  cases x
  · exact hi _ _
  · exact hi _ _
  · exact hi _ _
  · exact hi _ _
  · exact hp h _
  · exact hp h _
  · exact hp h _
  · exact hp h _

theorem levels_feeds (n c : Nat) (log : List (Entry F64 F32)) :
    levels t n c log = (feeds log).flatMap fun p => if p.1 then inputLevels t n c p.2 else [] := by
  unfold levels feeds
  rw [List.flatMap_assoc]
  congr 1
  funext p
  rcases p with ⟨op, r⟩
  cases op <;> cases r <;> simp

theorem heardBy_feeds (E : Env F64 F32) (n c : Nat) (log : List (Entry F64 F32)) :
    heardBy E n c log = (feeds log).flatMap fun p => (inputStream E n c p.2).map fun v => (p.1, v) := by
  unfold heardBy feeds
  rw [List.flatMap_assoc]
  congr 1
  funext p
  rcases p with ⟨op, r⟩
  cases op <;> cases r <;> simp

theorem Spec.Calls.fed_ok {E : Env F64 F32} {e e' : Ebu F64 F32} {log : List (Entry F64 F32)} (h : Calls E e log e') :
    e.Inv E → (∀ p ∈ log, KeepsPeaks e.channels p.1) → ∀ p ∈ feeds log, p.2.Ok e.channels := by
  induction h with
  | nil e => intro _ _ p hp; cases hp
  | @cons e e1 e2 op r log hs _ ih =>
    intro hi hk p hp
    have hch : e1.channels = e.channels := by
      have hk0 : KeepsPeaks e.channels op := hk (op, r) (by simp)
      rcases step_peaks hi hs with ⟨h1, -⟩ | ⟨x, -, -, -, h2, -⟩ | ⟨rfl, -⟩ | ⟨ch, w, rfl, h1, -, -⟩
      · exact h1.channels
      · exact h2.channels
      · exact False.elim hk0
      · rw [h1]; exact hk0
    rw [feeds, List.flatMap_cons] at hp
    rcases List.mem_append.1 hp with hp' | hp
    · clear hp
      rename p ∈ _ => hp
      split at hp
      · next x u heq =>
        cases heq
        rw [List.mem_singleton] at hp
        subst hp
        rcases step_peaks hi hs with ⟨-, -, h3⟩ | ⟨y, hy, hx, -⟩ | ⟨hy, -⟩ | ⟨_, _, hy, -⟩
        · exact ((h3 x rfl).2.2 rfl).1
        · cases hy; exact hx.1
        · cases hy
        · cases hy
      · next x u heq =>
        cases heq
        rw [List.mem_singleton] at hp
        subst hp
        rcases step_peaks hi hs with ⟨-, h2, -⟩ | ⟨y, hy, -⟩ | ⟨hy, -⟩ | ⟨_, _, hy, -⟩
        · rcases h2.1 x rfl with ⟨g1, -⟩ | ⟨g1, -⟩
          · exact g1
          · exact absurd rfl g1
        · cases hy
        · cases hy
        · cases hy
      · cases hp
    · have := ih (step_mode hi hs).2 (fun p hp => by rw [hch]; exact hk p (by simp [hp])) p hp
      rw [hch] at this; exact this

theorem Spec.Steady.keeps {D S : Type} {n rate : Nat} {op : Op D S} (h : Steady n rate op) : KeepsPeaks n op := by
  cases op with
  | changeParameters c w => exact h.1
  | reset => exact h
  | _ => trivial

theorem flatMap_congr' {α β : Type} {l : List α} {f g : α → List β} (h : ∀ x ∈ l, f x = g x) :
    l.flatMap f = l.flatMap g := by
  rw [List.flatMap_def, List.flatMap_def, List.map_congr_left h]

/-- **C24**: the sample and true peaks of channel `c` of an analyzer are those of a mono analyzer of the same rate that is
fed with channel `c` alone. The other calls in the two histories need not match. -/
theorem C24_mono {ea ea' eb eb' : Ebu F64 F32} {la lb : List (Entry F64 F32)}
    (hsa : PeakStart (ieeeEnv m bs t) ea) (hsb : PeakStart (ieeeEnv m bs t) eb)
    (ha : Calls (ieeeEnv m bs t) ea la ea') (hb : Calls (ieeeEnv m bs t) eb lb eb')
    (hka : ∀ p ∈ la, Steady ea.channels ea.rate p.1) (hkb : ∀ p ∈ lb, Steady eb.channels eb.rate p.1)
    (haa : ∀ p ∈ la, Accepted ea.channels p) (hab : ∀ p ∈ lb, Accepted eb.channels p)
    (hma : ea.mode.contains Mode.TRUE_PEAK = true) (hmb : eb.mode.contains Mode.TRUE_PEAK = true)
    (hrate : ea.rate = eb.rate) (hb1 : eb.channels = 1) {c : UInt32} (hc : c.toNat < ea.channels)
    (hf : feeds lb = (feeds la).map fun p => (p.1, monoInput ea.channels c.toNat p.2)) :
    ask (ieeeEnv m bs t) ea' (.samplePeak c) = ask (ieeeEnv m bs t) eb' (.samplePeak 0) ∧
    ask (ieeeEnv m bs t) ea' (.truePeak c) = ask (ieeeEnv m bs t) eb' (.truePeak 0) := by
  have hok := ha.fed_ok hsa.reachable.inv fun p hp => (hka p hp).keeps
  have hl : levels t ea.channels c.toNat la = levels t eb.channels (0 : UInt32).toNat lb := by
    rw [levels_feeds, levels_feeds, hf, List.flatMap_map, hb1]
    apply flatMap_congr'
    intro p hp
    dsimp only
    congr 1
    exact (mono_values (hok p hp) _ _ _ _ _).symm
  have hsig : heardBy (ieeeEnv m bs t) ea.channels c.toNat la =
      heardBy (ieeeEnv m bs t) eb.channels (0 : UInt32).toNat lb := by
    rw [heardBy_feeds, heardBy_feeds, hf, List.flatMap_map, hb1]
    apply flatMap_congr'
    intro p hp
    dsimp only
    congr 1
    exact (mono_values (hok p hp) _ _ _ _ _).symm
  have hz : (0 : UInt32).toNat < eb.channels := by rw [hb1]; decide
  refine ⟨?_, C24_channels hsa hsb ha hb hka hkb haa hab hma hmb hrate hc hz hl hsig⟩
  obtain ⟨p, hp, hp'⟩ := C19_sample_peak hsa ha (fun p hp => (hka p hp).keeps) (true_sample hma) hc
  obtain ⟨q, hq, hq'⟩ := C19_sample_peak hsb hb (fun p hp => (hkb p hp).keeps) (true_sample hmb) hz
  rw [← hl] at hq'
  rw [hp, hq, C19_unique hp' hq']

/-! ## A concrete run -/

/-- Rate 20, three channels (the generic scanner). -/
def Demo.ops3 : List (Op F64 F32) :=
  [.addFrames (.i16 [1, 16384, 7, 2, 16384, -9, -3, 16384, 0]), .setMaxHistory 5000,
    .seedFrames (.i16 [0, 9000, 0]), .addFrames (.pi16 [[9], [-16384], [30000]])]

/-- The second channel of it alone (a specialised scanner). -/
def Demo.ops1 : List (Op F64 F32) :=
  [.addFrames (.i16 [16384, 16384, 16384]), .seedFrames (.i16 [9000]), .addFrames (.pi16 [[-16384]])]

/-- `C24_mono`, `C24_true_peak`: the hypotheses hold for the two runs, and the true peak of the channel is neither its
sample peak nor that of the other channels. -/
example : ∃ (ea ea' eb eb' : Ebu F64 F32) (la lb : List (Entry F64 F32)),
    PeakStart Demo.env ea ∧ PeakStart Demo.env eb ∧ Calls Demo.env ea la ea' ∧ Calls Demo.env eb lb eb' ∧
    (∀ p ∈ la, Steady ea.channels ea.rate p.1) ∧ (∀ p ∈ lb, Steady eb.channels eb.rate p.1) ∧
    (∀ p ∈ la, Accepted ea.channels p) ∧ (∀ p ∈ lb, Accepted eb.channels p) ∧
    feeds lb = (feeds la).map (fun p => (p.1, monoInput ea.channels 1 p.2)) ∧
    ask Demo.env ea' (.truePeak 1) ≠ ask Demo.env ea' (.samplePeak 1) ∧
    ask Demo.env ea' (.truePeak 1) ≠ ask Demo.env ea' (.truePeak 0) := by
  obtain ⟨ea, ha, -⟩ := demo_new (channels := 3) (rate := 20) (mode := Mode.TRUE_PEAK) (by omega) (by decide)
  obtain ⟨rfl, -⟩ := Ebu.new_ok ha
  obtain ⟨eb, hb, -⟩ := demo_new (channels := 1) (rate := 20) (mode := Mode.TRUE_PEAK) (by omega) (by decide)
  obtain ⟨rfl, -⟩ := Ebu.new_ok hb
  have ka : (match Demo.log Demo.env (Ebu.init Demo.env 3 20 Mode.TRUE_PEAK) Demo.ops3 with
    | .done (l, e') => l.all (fun p => p.2.isOk) &&
      (match e'.getSamplePeak 1, e'.getTruePeak Demo.env 1, e'.getTruePeak Demo.env 0 with
      | .done (.ok x), .done (.ok y), .done (.ok z) => decide (y ≠ x) && decide (y ≠ z)
      | _, _, _ => false)
    | _ => false) = true := by decide +kernel
  have kb : (match Demo.log Demo.env (Ebu.init Demo.env 1 20 Mode.TRUE_PEAK) Demo.ops1 with
    | .done (l, _) => l.all (fun p => p.2.isOk)
    | _ => false) = true := by decide +kernel
  have unpack : ∀ (l : List (Entry F64 F32)), l.all (fun p => p.2.isOk) = true →
      l = (l.map Prod.fst).map fun op => (op, .ok ()) := by
    intro l h
    induction l with
    | nil => rfl
    | cons p l ih =>
      obtain ⟨op, r⟩ := p
      simp only [List.all_cons, Bool.and_eq_true] at h
      simp only [List.map_cons]
      rw [← ih h.2]
      cases r with
      | ok u => rfl
      | error _ => cases h.1
  split at ka
  · next la ea' hla =>
    split at kb
    · next lb eb' hlb =>
      simp only [Bool.and_eq_true] at ka
      obtain ⟨ka1, ka2⟩ := ka
      obtain ⟨h1, h2⟩ := Demo.log_calls _ hla
      obtain ⟨h3, h4⟩ := Demo.log_calls _ hlb
      have ua := unpack la ka1
      have ub := unpack lb kb
      rw [h2] at ua
      rw [h4] at ub
      refine ⟨_, ea', _, eb', la, lb, .inl ⟨_, _, _, ha⟩, .inl ⟨_, _, _, hb⟩, h1, h3, ?_, ?_, ?_, ?_, ?_, ?_⟩
      · intro p hp
        rw [ua] at hp
        simp only [Demo.ops3, List.map_cons, List.map_nil, List.mem_cons, List.not_mem_nil, or_false] at hp
        rcases hp with h | h | h | h <;> rw [h] <;> trivial
      · intro p hp
        rw [ub] at hp
        simp only [Demo.ops1, List.map_cons, List.map_nil, List.mem_cons, List.not_mem_nil, or_false] at hp
        rcases hp with h | h | h <;> rw [h] <;> trivial
      · intro p hp
        rw [ua] at hp
        obtain ⟨op, -, rfl⟩ := List.mem_map.1 hp
        cases op <;> first | trivial | exact fun _ => rfl
      · intro p hp
        rw [ub] at hp
        obtain ⟨op, -, rfl⟩ := List.mem_map.1 hp
        cases op <;> first | trivial | exact fun _ => rfl
      · rw [ua, ub]; rfl
      · split at ka2
        · next x y z hx hy hz =>
          simp only [Bool.and_eq_true, decide_eq_true_eq] at ka2
          have e1 : ask Demo.env ea' (.truePeak 1) = .done (.ok y) := hy
          have e2 : ask Demo.env ea' (.samplePeak 1) = .done (.ok x) := hx
          have e3 : ask Demo.env ea' (.truePeak 0) = .done (.ok z) := hz
          rw [e1, e2, e3]
          exact ⟨fun h => ka2.1 (by cases h; rfl), fun h => ka2.2 (by cases h; rfl)⟩
        · cases ka2
    · cases kb
  · cases ka

end Verif
