import Verif.Proofs.Level
import Verif.Props.C04_C07
/-! # C19, C20, C21: peaks -/

set_option linter.unusedSimpArgs false

namespace Verif
open Fl Spec

variable {m : Libm F64} {bs : BSearch} {t : Target}

/-! ## Histories -/

theorem Spec.Calls.reachable {D S : Type} {E : Env D S} {e e' : Ebu D S} {log : List (Entry D S)}
    (h : Calls E e log e') (hr : Reachable E e) : Reachable E e' := by
  induction h with
  | nil e => exact hr
  | cons h _ ih => exact ih (hr.step h)

theorem Spec.Calls.append {D S : Type} {E : Env D S} {e e1 e2 : Ebu D S} {l1 l2 : List (Entry D S)}
    (h1 : Calls E e l1 e1) (h2 : Calls E e1 l2 e2) : Calls E e (l1 ++ l2) e2 := by
  induction h1 with
  | nil e => exact h2
  | cons h _ ih => exact .cons h (ih h2)

theorem Spec.PeakStart.reachable {D S : Type} {E : Env D S} {e : Ebu D S} (h : PeakStart E e) :
    Reachable E e := by
  rcases h with ⟨c, r, md, h⟩ | ⟨e1, r, h1, h2⟩ | ⟨e1, c, w, h1, h2, -⟩
  · exact reachable_new h
  · exact h1.step h2
  · exact h1.step h2

theorem Spec.PeakStart.peak {e : Ebu F64 F32} (h : PeakStart (ieeeEnv m bs t) e) {c : Nat}
    (hc : c < e.channels) : EPeak t e c 0 0 0 0 := by
  rcases h with ⟨ch, r, md, h⟩ | ⟨e1, r, h1, h2⟩ | ⟨e1, ch, w, h1, h2, h3⟩
  · exact new_peak m bs t h hc
  · simp only [step, Run.bind_eq, (Ebu.reset_eq h1.inv).1, Run.done_bind] at h2
    cases h2
    exact resetP_peak m bs t h1.inv hc
  · simp only [step] at h2
    rw [Ebu.changeParameters_eq h1.inv] at h2
    split at h2
    · cases h2
    · split at h2
      · next hh => exact absurd hh.2 h3
      · obtain ⟨a, ha, h2⟩ := Run.bind_done h2
        cases a with
        | error x => cases h2
        | ok l => cases h2; exact changeP_peak m bs t e1 hc h3

theorem calcPeak {E : Env F64 F32} {e : Ebu F64 F32} (hi : e.Inv E) :
    e.filter.calculateSamplePeak = e.mode.contains Mode.SAMPLE_PEAK :=
  congrArg Filter.calculateSamplePeak hi.fresh

theorem levels_single (n c : Nat) (op : Op F64 F32) (r : Except Error Unit) (log : List (Entry F64 F32)) :
    levels t n c ((op, r) :: log) = levels t n c [(op, r)] ++ levels t n c log := by
  simp [levels]

/-- One call. -/
theorem step_level {e e' : Ebu F64 F32} (hi : e.Inv (ieeeEnv m bs t)) {op : Op F64 F32}
    {r : Except Error Unit} (hs : step (ieeeEnv m bs t) e op = .done (e', r))
    (hk : KeepsPeaks e.channels op) {c : Nat} (hc : c < e.channels) {a q A Q : Nat} (hp : EPeak t e c a q A Q) :
    e'.channels = e.channels ∧ ∃ a' q' Q', EPeak t e' c a' q'
      (max A (if e.mode.contains Mode.SAMPLE_PEAK then maxKey mkey (levels t e.channels c [(op, r)]) else 0))
      Q' ∧ Q ≤ Q' ∧ (e.filter.tp = none → Q' = Q) := by
  have nolev : (∀ x, op = .addFrames x → r ≠ .ok ()) → levels t e.channels c [(op, r)] = [] := by
    intro h
    simp only [levels, List.flatMap_cons, List.flatMap_nil, List.append_nil]
    split
    · next h1 => cases h1; exact absurd rfl (h _ rfl)
    · rfl
  have zero : ∀ l : List F64, l = [] →
      max A (if e.mode.contains Mode.SAMPLE_PEAK then maxKey mkey l else 0) = A := by
    rintro l rfl
    rw [maxKey_nil]; split <;> omega
  rcases step_peaks hi hs with ⟨h1, -, h2⟩ | ⟨x, rfl, hx, h1, h2, -⟩ | ⟨rfl, rfl⟩ | ⟨ch, w, rfl, rfl, -, -⟩
  · refine ⟨h1.channels, a, q, Q, ?_⟩
    have : max A (if e.mode.contains Mode.SAMPLE_PEAK then maxKey mkey (levels t e.channels c [(op, r)]) else 0)
        = A := by
      by_cases hop : ∃ x, op = .addFrames x ∧ r = .ok ()
      · obtain ⟨x, rfl, rfl⟩ := hop
        obtain ⟨-, -, h3⟩ := h2 x rfl
        obtain ⟨h4, h5⟩ := h3 rfl
        have h6 : maxKey mkey (levels t e.channels c [(.addFrames x, .ok ())]) = 0 := by
          simp only [levels, List.flatMap_cons, List.flatMap_nil, List.append_nil]
          rw [← inputLevels_key m bs t h4, h5]; rfl
        rw [h6]; split <;> omega
      · exact zero _ (nolev fun x hx hr => hop ⟨x, hx, hr⟩)
    rw [this]; exact ⟨hp.same h1, Nat.le_refl _, fun _ => rfl⟩
  · refine ⟨h2.channels, ?_⟩
    obtain ⟨fed, rest, h3, h4, -, h6⟩ := h1.peak m bs t (decode_amp m bs t _ x) hi hx.rect
    have h7 := h6 c hc a q A Q hp
    cases r with
    | ok u =>
      have hrest := h4 rfl
      rw [hrest, List.append_nil] at h3
      subst h3
      have h8 : e.filter.sKey t (x.decode (ieeeEnv m bs t) e.channels).ops
          (x.decode (ieeeEnv m bs t) e.channels).frames c =
          if e.mode.contains Mode.SAMPLE_PEAK then
            maxKey mkey (levels t e.channels c [(.addFrames x, .ok u)]) else 0 := by
        unfold Filter.sKey
        rw [calcPeak hi, inputLevels_key m bs t hx.1]
        simp [levels]
      rw [← h8]
      refine ⟨_, _, _, h7, Nat.le_max_left .., fun hn => ?_⟩
      show max Q _ = Q
      simp only [Filter.tKey, hn, Nat.max_zero]
    | error u =>
      rw [zero _ (nolev fun y hy hr => by cases hr)]
      exact ⟨_, _, _, h7, Nat.le_refl _, fun _ => rfl⟩
  · exact hk.elim
  · have hch : e.channels = ch.toNat := hk.symm
    refine ⟨hch.symm, 0, 0, Q, ?_⟩
    rw [zero _ (nolev fun y hy hr => by cases hy), ← hch]
    exact ⟨changeP_peak_same m bs t hc hp, Nat.le_refl _, fun _ => rfl⟩

/-- Every call keeps the mode. -/
theorem step_mode {D S : Type} {E : Env D S} {e e' : Ebu D S} (hi : e.Inv E) {op : Op D S} {r : Except Error Unit}
    (hs : step E e op = .done (e', r)) : e'.mode = e.mode ∧ e'.Inv E := by
  rcases step_cases hi op with h | ⟨e1, r1, h1, h2, h3⟩
  · rw [h] at hs; cases hs
  · rw [h1] at hs; cases hs; exact ⟨h3, h2⟩

theorem Spec.Calls.level {e e' : Ebu F64 F32} {log : List (Entry F64 F32)}
    (h : Calls (ieeeEnv m bs t) e log e') :
    ∀ {a q A Q c : Nat}, e.Inv (ieeeEnv m bs t) → (∀ p ∈ log, KeepsPeaks e.channels p.1) →
    c < e.channels → EPeak t e c a q A Q →
    e'.channels = e.channels ∧ e'.mode = e.mode ∧ ∃ a' q' Q', EPeak t e' c a' q'
      (max A (if e.mode.contains Mode.SAMPLE_PEAK then maxKey mkey (levels t e.channels c log) else 0)) Q' := by
  induction h with
  | nil e =>
    intro a q A Q c _ _ _ hp
    refine ⟨rfl, rfl, a, q, Q, ?_⟩
    have : max A (if e.mode.contains Mode.SAMPLE_PEAK then maxKey mkey (levels t e.channels c []) else 0) = A := by
      simp only [levels, List.flatMap_nil, maxKey_nil]; split <;> omega
    rw [this]; exact hp
  | @cons e e1 e2 op r log hs _ ih =>
    intro a q A Q c hi hk hc hp
    obtain ⟨h1, a1, q1, Q1, h2, -⟩ := step_level hi hs (hk (op, r) (by simp)) hc hp
    obtain ⟨h3, h4⟩ := step_mode hi hs
    obtain ⟨h5, h6, a2, q2, Q2, h7⟩ := ih h4 (fun p hp => by rw [h1]; exact hk p (by simp [hp]))
      (by rw [h1]; exact hc) h2
    refine ⟨by rw [h5, h1], by rw [h6, h3], a2, q2, Q2, ?_⟩
    rw [levels_single, maxKey_append]
    rw [h1, h3] at h7
    have : max A (if e.mode.contains Mode.SAMPLE_PEAK then
        max (maxKey mkey (levels t e.channels c [(op, r)])) (maxKey mkey (levels t e.channels c log)) else 0) =
        max (max A (if e.mode.contains Mode.SAMPLE_PEAK then maxKey mkey (levels t e.channels c [(op, r)]) else 0))
        (if e.mode.contains Mode.SAMPLE_PEAK then maxKey mkey (levels t e.channels c log) else 0) := by
      split <;> omega
    rw [this]; exact h7

/-! ## Queries -/

theorem ask_sample {E : Env F64 F32} {e : Ebu F64 F32} (hm : e.mode.contains Mode.SAMPLE_PEAK = true) {c : UInt32}
    (hc : c.toNat < e.channels) {v : F64} (h : e.samplePeak[c.toNat]? = some v) :
    ask E e (.samplePeak c) = .done (.ok v) := by
  have h1 : Run.index e.samplePeak c.toNat = .done v := Run.index_some h
  simp only [ask, Ebu.getSamplePeak, hm, Bool.not_true, Bool.false_eq_true, if_false,
    if_neg (by omega : ¬ e.channels ≤ c.toNat), Run.bind_eq, h1, Run.done_bind]

theorem ask_prevSample {E : Env F64 F32} {e : Ebu F64 F32} (hm : e.mode.contains Mode.SAMPLE_PEAK = true)
    {c : UInt32} (hc : c.toNat < e.channels) {v : F64} (h : e.filter.samplePeak[c.toNat]? = some v) :
    ask E e (.prevSamplePeak c) = .done (.ok v) := by
  have h1 : Run.index e.filter.samplePeak c.toNat = .done v := Run.index_some h
  simp only [ask, Ebu.getPrevSamplePeak, hm, Bool.not_true, Bool.false_eq_true, if_false,
    if_neg (by omega : ¬ e.channels ≤ c.toNat), Run.bind_eq, h1, Run.done_bind]

theorem ask_true {e : Ebu F64 F32} (hm : e.mode.contains Mode.TRUE_PEAK = true) {c : UInt32}
    (hc : c.toNat < e.channels) {A Q : Nat} (h : e.samplePeak[c.toNat]? = some (pk _ A))
    (h' : e.truePeak[c.toNat]? = some (pk _ Q)) :
    ask (ieeeEnv m bs t) e (.truePeak c) = .done (.ok (pk _ (max A Q))) := by
  have h1 : Run.index e.samplePeak c.toNat = .done _ := Run.index_some h
  have h2 : Run.index e.truePeak c.toNat = .done _ := Run.index_some h'
  simp only [ask, Ebu.getTruePeak, hm, Bool.not_true, Bool.false_eq_true, if_false,
    if_neg (by omega : ¬ e.channels ≤ c.toNat), Run.bind_eq, h1, h2, Run.done_bind]
  have : (if (ieeeEnv m bs t).f64.lt (pk _ Q) (pk _ A) then pk _ A else pk _ Q) =
      maxBy Fl.lt (pk Fmt.b64 Q) (pk _ A) := by
    simp only [ieee_f64, arith_lt, maxBy]
    rfl
  rw [this, maxBy_pk, Nat.max_comm]

theorem ask_prevTrue {e : Ebu F64 F32} (hm : e.mode.contains Mode.TRUE_PEAK = true) {c : UInt32}
    (hc : c.toNat < e.channels) {A Q : Nat} (h : e.filter.samplePeak[c.toNat]? = some (pk _ A))
    (h' : e.filter.truePeak[c.toNat]? = some (pk _ Q)) :
    ask (ieeeEnv m bs t) e (.prevTruePeak c) = .done (.ok (pk _ (max A Q))) := by
  have h1 : Run.index e.filter.samplePeak c.toNat = .done _ := Run.index_some h
  have h2 : Run.index e.filter.truePeak c.toNat = .done _ := Run.index_some h'
  simp only [ask, Ebu.getPrevTruePeak, hm, Bool.not_true, Bool.false_eq_true, if_false,
    if_neg (by omega : ¬ e.channels ≤ c.toNat), Run.bind_eq, h1, h2, Run.done_bind]
  have : (if (ieeeEnv m bs t).f64.lt (pk _ Q) (pk _ A) then pk _ A else pk _ Q) =
      maxBy Fl.lt (pk Fmt.b64 Q) (pk _ A) := by
    simp only [ieee_f64, arith_lt, maxBy]
    rfl
  rw [this, maxBy_pk, Nat.max_comm]

/-! ## C19 -/

/-- **C19**: from construction, `reset` or a change of the channel count on, after any calls that keep the
channel count, `sample_peak(c)` is the largest level of channel `c` in the successful `add_frames` calls. -/
theorem C19_sample_peak {e e' : Ebu F64 F32} (h0 : PeakStart (ieeeEnv m bs t) e) {log : List (Entry F64 F32)}
    (h : Calls (ieeeEnv m bs t) e log e') (hk : ∀ p ∈ log, KeepsPeaks e.channels p.1)
    (hm : e.mode.contains Mode.SAMPLE_PEAK = true) {c : UInt32} (hc : c.toNat < e.channels) :
    ∃ p, ask (ieeeEnv m bs t) e' (.samplePeak c) = .done (.ok p) ∧
      IsPeak (levels t e.channels c.toNat log) p := by
  obtain ⟨h1, h2, a, q, Q, h3⟩ := h.level h0.reachable.inv hk hc (h0.peak hc)
  refine ⟨_, ask_sample (by rw [h2]; exact hm) (by rw [h1]; exact hc) h3.sample, ?_⟩
  rw [if_pos hm, Nat.zero_max]
  exact isPeak_maxKey (levels_pos t _ _ _)

/-- **C19**: the peak is determined by the levels, so `sample_peak` is *the* maximum. -/
theorem C19_unique {n c : Nat} {log : List (Entry F64 F32)} {p q : F64} (hp : IsPeak (levels t n c log) p)
    (hq : IsPeak (levels t n c log) q) : p = q :=
  hp.unique (levels_pos t n c log) hq

/-- **C19**, exactness: the level of an integer sample is exactly `|x| / 2^(b-1)` (`mag` counts units of
`2^-1074`), the level of a float sample is its magnitude, and only flush-to-zero of doubles loses anything. -/
theorem C19_exact_int :
    (∀ x : Int16, ∃ k h, level16 x = .num false k h ∧
      Fmt.b64.mag k * 32768 = x.toInt.natAbs * 2 ^ Fmt.b64.u) ∧
    (∀ x : Int32, ∃ k h, level32 x = .num false k h ∧
      Fmt.b64.mag k * 2147483648 = x.toInt.natAbs * 2 ^ Fmt.b64.u) := by
  have key : ∀ n s : Nat, n ≤ 2147483648 → s ≤ 31 →
      Fmt.b64.mag (Fmt.b64.rnd (n * 2 ^ Fmt.b64.u) (2 ^ s)) * 2 ^ s = n * 2 ^ Fmt.b64.u := by
    intro n s hn hs
    have hE : Fmt.b64.emax = 2046 := rfl
    have hM : Fmt.b64.mb = 52 := rfl
    obtain ⟨d, hu, hd, hd2⟩ : ∃ d, Fmt.b64.u = d + s ∧ Fmt.b64.mb ≤ d ∧ d + 2 ≤ Fmt.b64.emax :=
      ⟨1074 - s, by show 1074 = _; omega, by omega, by omega⟩
    have hmb := amp_mb
    obtain ⟨k, hk, hk2⟩ := exists_mag Fmt.b64 n d (by omega) hd hd2
    have h1 : n * 2 ^ Fmt.b64.u = Fmt.b64.mag k * 2 ^ s := by
      rw [hk2, hu, Nat.pow_add, Nat.mul_assoc]
    rw [h1, Fmt.rnd_mag _ Fmt.ok64.mb (Nat.le_of_lt hk) (Nat.two_pow_pos _)]
  constructor
  · intro x
    refine ⟨_, _, lit_pos _ _, ?_⟩
    have := natAbs16 x
    exact key x.toInt.natAbs 15 (by omega) (by omega)
  · intro x
    refine ⟨_, _, lit_pos _ _, ?_⟩
    exact key x.toInt.natAbs 31 (natAbs32 x) (by omega)

theorem C19_exact_float :
    (∀ s k h, k < Fmt.b32.infK → ∃ k' h', levelF (.num s k h) = .num false k' h' ∧
      Fmt.b64.mag k' * 2 ^ Fmt.b32.u = Fmt.b32.mag k * 2 ^ Fmt.b64.u) ∧
    (∀ s h, levelF (.num s Fmt.b32.infK h) = Fl.inf false) ∧
    (∀ s k h, (t.sse2 = false ∨ 2 ^ Fmt.b64.mb ≤ k) → levelD t (.num s k h) = .num false k h) := by
  refine ⟨?_, ?_, ?_⟩
  · intro s k h hk
    have h1 : levelF (.num s k h) = pk _ (wkey k) := by
      unfold levelF
      rw [abs_eq_pk (by simp only [Fl.cast]; split <;> (intro hh; cases hh)), mkey_cast]; rfl
    rw [h1]
    exact ⟨_, _, pk_eq (wkey_le k), (mag_wkey hk).2⟩
  · intro s h
    simp only [levelF, Fl.cast, if_true]
    rfl
  · intro s k h hk
    unfold levelD
    have : (if t.sse2 = true then ftz (.num s k h : F64) else .num s k h) = .num s k h := by
      split
      · simp only [ftz]; rw [if_neg]
        rcases hk with h1 | h1
        · simp_all
        · omega
      · rfl
    rw [this]; rfl

/-- **C19**: never negative, never NaN, and never smaller after more frames. -/
theorem C19_monotone {e e' : Ebu F64 F32} (hr : Reachable (ieeeEnv m bs t) e) {x : Input F64 F32}
    {r : Except Error Unit} (hs : step (ieeeEnv m bs t) e (.addFrames x) = .done (e', r))
    (hm : e.mode.contains Mode.SAMPLE_PEAK = true) {c : UInt32} (hc : c.toNat < e.channels) :
    ∃ p p', ask (ieeeEnv m bs t) e (.samplePeak c) = .done (.ok p) ∧
      ask (ieeeEnv m bs t) e' (.samplePeak c) = .done (.ok p') ∧
      Fl.le (Fl.zero false) p = true ∧ Fl.le p p' = true := by
  obtain ⟨a, q, A, Q, hp, -⟩ := hr.pk m bs t c.toNat hc
  obtain ⟨h1, a', q', Q', h2, -⟩ := step_level hr.inv hs trivial hc hp
  refine ⟨_, _, ask_sample hm hc hp.sample,
    ask_sample (by rw [(step_mode hr.inv hs).1]; exact hm) (by rw [h1]; exact hc) h2.sample, ?_,
    le_pk (Nat.le_max_left ..)⟩
  rw [zero_eq_pk]; exact le_pk (Nat.zero_le _)

/-! ## C20 -/

theorem Ebu.SamePeaks.trans {D S : Type} {e e1 e2 : Ebu D S} (h : e.SamePeaks e1) (h' : e1.SamePeaks e2) :
    e.SamePeaks e2 :=
  ⟨h'.sample.trans h.sample, h'.true.trans h.true, h'.lastSample.trans h.lastSample,
    h'.lastTrue.trans h.lastTrue, h'.channels.trans h.channels, h'.rate.trans h.rate⟩

theorem frames_length {D S : Type} (E : Env D S) {n : Nat} {x : Input D S} (h : x.Ok n) :
    (x.decode E n).frames.length = frameCount n x := by
  have hi : ∀ {T : Type} (l : List T), interOk n l → (interFrames n l).length = l.length / n := fun l hl =>
    (chunksExact_rect hl.1 l hl.2).2.2
  have hp : ∀ {T : Type} (l : List (List T)), (planarFrames l).length = (l.headD []).length := by
    intro T l; simp [planarFrames]
  cases x
  · exact hi _ h
  · exact hi _ h
  · exact hi _ h
  · exact hi _ h
  · exact hp _
  · exact hp _
  · exact hp _
  · exact hp _

theorem quiet_step {D S : Type} {E : Env D S} {e e' : Ebu D S} (hi : e.Inv E) {op : Op D S}
    {r : Except Error Unit} (hs : step E e op = .done (e', r)) (hq : Quiet e.channels e.rate op) :
    e.SamePeaks e' := by
  rcases step_peaks hi hs with ⟨h1, -, -⟩ | ⟨x, rfl, hx, -, -, -⟩ | ⟨rfl, -⟩ | ⟨c, w, rfl, -, -, h1⟩
  · exact h1
  · have h0 := hq ((wellFormed_iff hi.ch1 x).1 hx.1)
    rw [← frames_length E hx.1] at h0
    exact absurd (List.length_eq_zero_iff.1 h0) hx.2.2
  · exact hq.elim
  · exact absurd ⟨hq.2.symm, hq.1.symm⟩ h1

theorem Spec.Calls.quiet {D S : Type} {E : Env D S} {e e' : Ebu D S} {log : List (Entry D S)}
    (h : Calls E e log e') : e.Inv E → (∀ p ∈ log, Quiet e.channels e.rate p.1) →
      e.SamePeaks e' ∧ e'.mode = e.mode := by
  induction h with
  | nil e => exact fun _ _ => ⟨Ebu.SamePeaks.refl e, rfl⟩
  | @cons e e1 e2 op r log hs _ ih =>
    intro hi hq
    have h1 := quiet_step hi hs (hq (op, r) (by simp))
    have h2 := step_mode hi hs
    have h3 := ih h2.2 (fun p hp => by rw [h1.channels, h1.rate]; exact hq p (by simp [hp]))
    exact ⟨h1.trans h3.1, h3.2.trans h2.1⟩

/-- The call that fed frames, as seen by the peaks. -/
theorem fed_step {e e' : Ebu F64 F32} (hi : e.Inv (ieeeEnv m bs t)) {x : Input F64 F32}
    (hs : step (ieeeEnv m bs t) e (.addFrames x) = .done (e', .ok ())) (hn : 0 < frameCount e.channels x)
    {c : Nat} (hc : c < e.channels) {a q A Q : Nat} (hp : EPeak t e c a q A Q) :
    x.Ok e.channels ∧ e'.channels = e.channels ∧ e'.mode = e.mode ∧ e'.rate = e.rate ∧
    e'.filter.tp = e.filter.tp.map (Scanner.feed (ieeeEnv m bs t) (x.decode (ieeeEnv m bs t) e.channels).ops
      (x.decode (ieeeEnv m bs t) e.channels).frames) ∧
    ∃ d k, EPeak t e' c d k (max A d) (max Q k) ∧
      d = (if e.mode.contains Mode.SAMPLE_PEAK then maxKey mkey (inputLevels t e.channels c x) else 0) ∧
      k = e.filter.tKey m bs t (x.decode (ieeeEnv m bs t) e.channels).ops
        (x.decode (ieeeEnv m bs t) e.channels).frames c := by
  rcases step_peaks hi hs with ⟨-, -, h2⟩ | ⟨y, hy, hx, h1, h2, -⟩ | ⟨hy, -⟩ | ⟨_, _, hy, -⟩
  · obtain ⟨h4, h5⟩ := (h2 x rfl).2.2 rfl
    rw [← frames_length (ieeeEnv m bs t) h4, h5] at hn
    exact absurd hn (by simp)
  · cases hy
    obtain ⟨fed, rest, h3, h4, h5, h6⟩ := h1.peak m bs t (decode_amp m bs t _ x) hi hx.rect
    have hrest := h4 rfl
    rw [hrest, List.append_nil] at h3
    subst h3
    refine ⟨hx.1, h2.channels, h2.mode, h2.rate, h5, _, _, h6 c hc a q A Q hp, ?_, rfl⟩
    unfold Filter.sKey
    rw [calcPeak hi, inputLevels_key m bs t hx.1]
  · cases hy
  · cases hy

/-- **C20**: after a successful `add_frames` call with at least one frame and any number of calls adding
none, `prev_sample_peak(c)` is the largest level of channel `c` in that call, whatever happened before it. -/
theorem C20_prev_sample_peak {e e1 e2 : Ebu F64 F32} (hr : Reachable (ieeeEnv m bs t) e) {x : Input F64 F32}
    (hs : step (ieeeEnv m bs t) e (.addFrames x) = .done (e1, .ok ())) (hn : 0 < frameCount e.channels x)
    {log : List (Entry F64 F32)} (h : Calls (ieeeEnv m bs t) e1 log e2)
    (hq : ∀ p ∈ log, Quiet e.channels e.rate p.1)
    (hm : e.mode.contains Mode.SAMPLE_PEAK = true) {c : UInt32} (hc : c.toNat < e.channels) :
    ∃ p, ask (ieeeEnv m bs t) e2 (.prevSamplePeak c) = .done (.ok p) ∧
      IsPeak (inputLevels t e.channels c.toNat x) p := by
  obtain ⟨a, q, A, Q, hp, -⟩ := hr.pk m bs t c.toNat hc
  obtain ⟨-, h1, h2, h3, -, d, k, h4, h5, -⟩ := fed_step hr.inv hs hn hc hp
  obtain ⟨h6, h7⟩ := h.quiet (hr.step hs).inv (by rw [h1, h3]; exact hq)
  refine ⟨_, ask_prevSample (by rw [h7, h2]; exact hm) (by rw [h6.channels, h1]; exact hc)
    (by rw [h6.lastSample]; exact h4.last.sample), ?_⟩
  rw [h5, if_pos hm]
  exact isPeak_maxKey (inputLevels_pos t _ _ _)

/-! ## C21 -/

/-- `true` and `sample` peaks need the true-peak mode, which includes the sample-peak mode. -/
theorem true_sample {md : Mode} (h : md.contains Mode.TRUE_PEAK = true) : md.contains Mode.SAMPLE_PEAK = true := by
  have key : ∀ md : BitVec 8, Mode.contains md Mode.TRUE_PEAK = true → Mode.contains md Mode.SAMPLE_PEAK = true := by
    decide +kernel
  exact key md h

/-- **C21**, bounds in every reachable state: none of the four peaks is NaN, none is negative, and true peaks
are at least the sample peaks. (`Fl.le` is false on NaN.) -/
theorem C21_bounds {e : Ebu F64 F32} (hr : Reachable (ieeeEnv m bs t) e)
    (hm : e.mode.contains Mode.TRUE_PEAK = true) {c : UInt32} (hc : c.toNat < e.channels) :
    ∃ s p s' p', ask (ieeeEnv m bs t) e (.samplePeak c) = .done (.ok s) ∧
      ask (ieeeEnv m bs t) e (.truePeak c) = .done (.ok p) ∧
      ask (ieeeEnv m bs t) e (.prevSamplePeak c) = .done (.ok s') ∧
      ask (ieeeEnv m bs t) e (.prevTruePeak c) = .done (.ok p') ∧
      Fl.le (Fl.zero false) s = true ∧ Fl.le s p = true ∧
      Fl.le (Fl.zero false) s' = true ∧ Fl.le s' p' = true := by
  obtain ⟨a, q, A, Q, hp, -⟩ := hr.pk m bs t c.toNat hc
  have hz : ∀ k, Fl.le (Fl.zero false) (pk Fmt.b64 k) = true := fun k => by
    rw [zero_eq_pk]; exact le_pk (Nat.zero_le _)
  exact ⟨_, _, _, _, ask_sample (true_sample hm) hc hp.sample, ask_true hm hc hp.sample hp.true,
    ask_prevSample (true_sample hm) hc hp.last.sample, ask_prevTrue hm hc hp.last.sample hp.last.true,
    hz _, le_pk (Nat.le_max_left ..), hz _, le_pk (Nat.le_max_left ..)⟩

theorem isPeak_pair {A d : Nat} : IsPeak [pk _ A, pk _ d] (pk _ (max A d)) := by
  refine ⟨isNan_pk _, ?_, ?_⟩
  · intro x hx _
    simp only [List.mem_cons, List.not_mem_nil, or_false] at hx
    rcases hx with rfl | rfl
    · exact le_pk (Nat.le_max_left ..)
    · exact le_pk (Nat.le_max_right ..)
  · left
    rcases Nat.le_total A d with h | h
    · rw [Nat.max_eq_right h]; simp
    · rw [Nat.max_eq_left h]; simp

/-- **C21**, overall peaks are the maximum of the per-call peaks: a successful call with frames makes each
overall peak the larger of the old overall peak and the new per-call peak. -/
theorem C21_overall {e e' : Ebu F64 F32} (hr : Reachable (ieeeEnv m bs t) e) {x : Input F64 F32}
    (hs : step (ieeeEnv m bs t) e (.addFrames x) = .done (e', .ok ())) (hn : 0 < frameCount e.channels x)
    (hm : e.mode.contains Mode.TRUE_PEAK = true) {c : UInt32} (hc : c.toNat < e.channels) :
    (∃ s v s', ask (ieeeEnv m bs t) e (.samplePeak c) = .done (.ok s) ∧
      ask (ieeeEnv m bs t) e' (.prevSamplePeak c) = .done (.ok v) ∧
      ask (ieeeEnv m bs t) e' (.samplePeak c) = .done (.ok s') ∧ IsPeak [s, v] s') ∧
    (∃ p v p', ask (ieeeEnv m bs t) e (.truePeak c) = .done (.ok p) ∧
      ask (ieeeEnv m bs t) e' (.prevTruePeak c) = .done (.ok v) ∧
      ask (ieeeEnv m bs t) e' (.truePeak c) = .done (.ok p') ∧ IsPeak [p, v] p') := by
  obtain ⟨a, q, A, Q, hp, -⟩ := hr.pk m bs t c.toNat hc
  obtain ⟨-, h1, h2, h3, -, d, k, h4, -, -⟩ := fed_step hr.inv hs hn hc hp
  have hm' : e'.mode.contains Mode.TRUE_PEAK = true := by rw [h2]; exact hm
  have hc' : c.toNat < e'.channels := by rw [h1]; exact hc
  refine ⟨⟨_, _, _, ask_sample (true_sample hm) hc hp.sample,
    ask_prevSample (true_sample hm') hc' h4.last.sample, ask_sample (true_sample hm') hc' h4.sample, isPeak_pair⟩,
    _, _, _, ask_true hm hc hp.sample hp.true, ask_prevTrue hm' hc' h4.last.sample h4.last.true,
    ask_true hm' hc' h4.sample h4.true, ?_⟩
  have : max (max A d) (wkey (max Q k)) = max (max A (wkey Q)) (max d (wkey k)) := by
    rw [wkey_max]; omega
  rw [this]
  exact isPeak_pair

/-- **C21**, monotone: no `add_frames` call, successful or not, lowers an overall peak. -/
theorem C21_monotone {e e' : Ebu F64 F32} (hr : Reachable (ieeeEnv m bs t) e) {x : Input F64 F32}
    {r : Except Error Unit} (hs : step (ieeeEnv m bs t) e (.addFrames x) = .done (e', r))
    (hm : e.mode.contains Mode.TRUE_PEAK = true) {c : UInt32} (hc : c.toNat < e.channels) :
    ∃ p p', ask (ieeeEnv m bs t) e (.truePeak c) = .done (.ok p) ∧
      ask (ieeeEnv m bs t) e' (.truePeak c) = .done (.ok p') ∧ Fl.le p p' = true := by
  obtain ⟨a, q, A, Q, hp, -⟩ := hr.pk m bs t c.toNat hc
  obtain ⟨h1, a', q', Q', h2, h3, -⟩ := step_level hr.inv hs trivial hc hp
  refine ⟨_, _, ask_true hm hc hp.sample hp.true,
    ask_true (by rw [(step_mode hr.inv hs).1]; exact hm) (by rw [h1]; exact hc) h2.sample h2.true, le_pk ?_⟩
  have := wkey_mono h3
  omega

/-- Where the overall peaks start they are zero. -/
theorem C21_start {e : Ebu F64 F32} (h : PeakStart (ieeeEnv m bs t) e)
    (hm : e.mode.contains Mode.TRUE_PEAK = true) {c : UInt32} (hc : c.toNat < e.channels) :
    ask (ieeeEnv m bs t) e (.samplePeak c) = .done (.ok (Fl.zero false)) ∧
      ask (ieeeEnv m bs t) e (.truePeak c) = .done (.ok (Fl.zero false)) := by
  have hp := h.peak hc
  rw [zero_eq_pk]
  refine ⟨ask_sample (true_sample hm) hc hp.sample, ?_⟩
  have := ask_true (m := m) (bs := bs) (t := t) hm hc hp.sample hp.true
  rw [wkey_zero] at this
  exact this

theorem tp_none {e : Ebu F64 F32} (hi : e.Inv (ieeeEnv m bs t)) (h : 192000 ≤ e.rate) : e.filter.tp = none := by
  have h1 := congrArg Filter.tp hi.fresh
  simp only [Filter.resetP, Filter.init] at h1
  have h2 : Scanner.initP (ieeeEnv m bs t) e.rate e.channels = none := by
    unfold Scanner.initP
    rw [if_neg (by omega), if_neg (by omega)]
  rw [h2] at h1
  have h3 : e.filter.tp.map (Scanner.resetP (ieeeEnv m bs t)) = none := by rw [h1]; split <;> rfl
  exact Option.map_eq_none_iff.1 h3

/-- **C21**, rates of 192000 and more: `prev_true_peak` is `prev_sample_peak` in every reachable state. -/
theorem C21_high_rate_prev {e : Ebu F64 F32} (hr : Reachable (ieeeEnv m bs t) e) (hrate : 192000 ≤ e.rate)
    (hm : e.mode.contains Mode.TRUE_PEAK = true) {c : UInt32} (hc : c.toNat < e.channels) :
    ask (ieeeEnv m bs t) e (.prevTruePeak c) = ask (ieeeEnv m bs t) e (.prevSamplePeak c) := by
  obtain ⟨a, q, A, Q, hp, hq⟩ := hr.pk m bs t c.toNat hc
  have h0 := hq (tp_none hr.inv hrate)
  subst h0
  rw [ask_prevTrue hm hc hp.last.sample hp.last.true, ask_prevSample (true_sample hm) hc hp.last.sample,
    wkey_zero, Nat.max_zero]

/-- Calls that keep the channel count and a rate of at least 192000. -/
def Spec.KeepsHigh {D S : Type} (n : Nat) : Op D S → Prop
  | .reset => True
  | .changeParameters c r => c.toNat = n ∧ 192000 ≤ r.toNat
  | _ => True

/-- **C21**, rates of 192000 and more: from a start on, as long as the rate stays that high, `true_peak` is
`sample_peak`. -/
theorem C21_high_rate {e e' : Ebu F64 F32} (h0 : PeakStart (ieeeEnv m bs t) e) (hrate : 192000 ≤ e.rate)
    {log : List (Entry F64 F32)} (h : Calls (ieeeEnv m bs t) e log e') (hk : ∀ p ∈ log, KeepsHigh e.channels p.1)
    (hm : e.mode.contains Mode.TRUE_PEAK = true) {c : UInt32} (hc : c.toNat < e.channels) :
    ask (ieeeEnv m bs t) e' (.truePeak c) = ask (ieeeEnv m bs t) e' (.samplePeak c) := by
  have key : ∀ {e e' : Ebu F64 F32} {log : List (Entry F64 F32)}, Calls (ieeeEnv m bs t) e log e' →
      ∀ {a q A : Nat}, e.Inv (ieeeEnv m bs t) → (∀ p ∈ log, KeepsHigh e.channels p.1) → 192000 ≤ e.rate →
      c.toNat < e.channels → EPeak t e c.toNat a q A 0 →
      e'.channels = e.channels ∧ e'.mode = e.mode ∧ ∃ a' q' A', EPeak t e' c.toNat a' q' A' 0 := by
    intro e e' log h
    induction h with
    | nil e => exact fun _ _ _ _ hp => ⟨rfl, rfl, _, _, _, hp⟩
    | @cons e e1 e2 op r log hs _ ih =>
      intro a q A hi hk hrt hc hp
      obtain ⟨h1, h2⟩ := step_mode hi hs
      have hop := hk (op, r) (by simp)
      have hone : e1.channels = e.channels ∧ 192000 ≤ e1.rate ∧ ∃ a q A, EPeak t e1 c.toNat a q A 0 := by
        by_cases hreset : op = .reset
        · subst hreset
          simp only [step, Run.bind_eq, (Ebu.reset_eq hi).1, Run.done_bind] at hs
          cases hs
          exact ⟨rfl, hrt, _, _, _, resetP_peak m bs t hi hc⟩
        · have hkp : KeepsPeaks e.channels op := by
            cases op with
            | reset => exact absurd rfl hreset
            | changeParameters c w => exact hop.1
            | _ => trivial
          obtain ⟨h3, a', q', Q', h4, -, h5⟩ := step_level hi hs hkp hc hp
          rw [h5 (tp_none hi hrt)] at h4
          refine ⟨h3, ?_, _, _, _, h4⟩
          rcases step_peaks hi hs with ⟨g, -, -⟩ | ⟨x, -, -, -, g, -⟩ | ⟨-, rfl⟩ | ⟨c, w, rfl, rfl, -, -⟩
          · rw [g.rate]; exact hrt
          · rw [g.rate]; exact hrt
          · exact hrt
          · exact hop.2
      obtain ⟨h6, h7, a', q', A', h8⟩ := hone
      obtain ⟨h9, h10, h11⟩ := ih h2 (fun p hp => by rw [h6]; exact hk p (by simp [hp])) h7 (by rw [h6]; exact hc) h8
      exact ⟨h9.trans h6, h10.trans h1, h11⟩
  obtain ⟨h1, h2, a', q', A', h3⟩ := key h h0.reachable.inv hk hrate hc (h0.peak hc)
  have hm' : e'.mode.contains Mode.TRUE_PEAK = true := by rw [h2]; exact hm
  rw [ask_true hm' (by rw [h1]; exact hc) h3.sample h3.true,
    ask_sample (true_sample hm') (by rw [h1]; exact hc) h3.sample, wkey_zero, Nat.max_zero]

/-- A change of the rate alone keeps the overall peaks as they are, while the per-call peaks start again. So the
equality of `C21_high_rate` needs a history at high rates only (see the example below). -/
theorem C21_rate_change_keeps {D S : Type} {E : Env D S} {e e' : Ebu D S} (hr : Reachable E e) {c w : UInt32}
    {r : Except Error Unit} (hs : step E e (.changeParameters c w) = .done (e', r)) (hc : c.toNat = e.channels)
    (i : UInt32) :
    ask E e' (.samplePeak i) = ask E e (.samplePeak i) ∧ ask E e' (.truePeak i) = ask E e (.truePeak i) := by
  have hm := (step_mode hr.inv hs).1
  have key : e'.samplePeak = e.samplePeak ∧ e'.truePeak = e.truePeak ∧ e'.channels = e.channels := by
    rcases step_peaks hr.inv hs with ⟨h1, -⟩ | ⟨x, hx, -⟩ | ⟨hx, -⟩ | ⟨c', w', hx, h1, -⟩
    · exact ⟨h1.sample, h1.true, h1.channels⟩
    · cases hx
    · cases hx
    · cases hx
      rw [h1]
      simp only [Ebu.changeP, hc]
      simp
  obtain ⟨h1, h2, h3⟩ := key
  constructor
  · simp only [ask, Ebu.getSamplePeak, hm, h1, h3]
  · simp only [ask, Ebu.getTruePeak, hm, h1, h2, h3]

/-! ## Concrete runs -/

/-- The calls of a log, made by `runOps`, with their results. -/
def Demo.log {D S : Type} (E : Env D S) : Ebu D S → List (Op D S) → Run (List (Entry D S) × Ebu D S)
  | e, [] => .done ([], e)
  | e, op :: ops => Run.bind (step E e op) fun r => Run.bind (Demo.log E r.1 ops) fun l => .done ((op, r.2) :: l.1, l.2)

theorem Demo.log_calls {D S : Type} {E : Env D S} (ops : List (Op D S)) :
    ∀ {e e' : Ebu D S} {l : List (Entry D S)}, Demo.log E e ops = .done (l, e') →
      Calls E e l e' ∧ l.map Prod.fst = ops := by
  induction ops with
  | nil => intro e e' l h; cases h; exact ⟨.nil e, rfl⟩
  | cons op ops ih =>
    intro e e' l h
    simp only [Demo.log] at h
    obtain ⟨⟨e1, r⟩, h1, h⟩ := Run.bind_done h
    obtain ⟨⟨l1, e2⟩, h2, h⟩ := Run.bind_done h
    cases h
    obtain ⟨h3, h4⟩ := ih h2
    exact ⟨.cons h1 h3, by simp [h4]⟩

/-- Rate 20, two channels. -/
def Demo.ops : List (Op F64 F32) :=
  [.addFrames (.i16 [100, -24576, 5, 3]), .setMaxHistory 5000, .addFrames (.pf32 [[.nan], [Fl.lit _ (-1) 2]]),
    .addFrames (.i16 [])]

/-- `C19_sample_peak`, `C20_prev_sample_peak`: two calls, the second with a NaN; the overall sample peak of channel 1
is 0.75, the one of the last non-empty call is 0.5, and for channel 0 the NaN is ignored. -/
example : ∃ (e e' : Ebu F64 F32) (log : List (Entry F64 F32)), PeakStart Demo.env e ∧ Calls Demo.env e log e' ∧
    (∀ p ∈ log, KeepsPeaks e.channels p.1) ∧ e.mode.contains Mode.SAMPLE_PEAK = true ∧
    ask Demo.env e' (.samplePeak 1) = .done (.ok (Fl.lit _ 3 4)) ∧
    ask Demo.env e' (.prevSamplePeak 1) = .done (.ok (Fl.lit _ 1 2)) ∧
    ask Demo.env e' (.prevSamplePeak 0) = .done (.ok (Fl.zero false)) := by
  obtain ⟨e, he, -, h1, -, h2, -⟩ := demo_new (channels := 2) (rate := 20) (mode := Mode.SAMPLE_PEAK ||| Mode.I)
    (by omega) (by decide)
  obtain ⟨rfl, -⟩ := Ebu.new_ok he
  have key : (match Demo.log Demo.env (Ebu.init Demo.env 2 20 (Mode.SAMPLE_PEAK ||| Mode.I)) Demo.ops with
    | .done (_, e') =>
      (match e'.getSamplePeak 1, e'.getPrevSamplePeak 1, e'.getPrevSamplePeak 0 with
      | .done (.ok x), .done (.ok y), .done (.ok z) =>
        decide (x = Fl.lit _ 3 4) && decide (y = Fl.lit _ 1 2) && decide (z = Fl.zero false)
      | _, _, _ => false)
    | _ => false) = true := by decide +kernel
  split at key
  · next l e' hl =>
    obtain ⟨h3, h4⟩ := Demo.log_calls _ hl
    refine ⟨_, e', l, .inl ⟨_, _, _, he⟩, h3, ?_, by decide, ?_⟩
    · intro p hp
      have : p.1 ∈ Demo.ops := by rw [← h4]; exact List.mem_map_of_mem hp
      simp only [Demo.ops, List.mem_cons, List.not_mem_nil, or_false] at this
      rcases this with h | h | h | h <;> rw [h] <;> trivial
    · split at key
      · next x y z hx hy hz =>
        simp only [Bool.and_eq_true, decide_eq_true_eq] at key
        obtain ⟨⟨rfl, rfl⟩, rfl⟩ := key
        exact ⟨hx, hy, hz⟩
      · cases key
  · cases key

/-- `C21_rate_change_keeps`: after a change to 192 kHz the overall true peak may exceed the overall sample peak, so the
history condition of `C21_high_rate` cannot be dropped. -/
example : ∃ (e e' : Ebu F64 F32) (log : List (Entry F64 F32)), PeakStart Demo.env e ∧ Calls Demo.env e log e' ∧
    (∀ p ∈ log, KeepsPeaks e.channels p.1) ∧ 192000 ≤ e'.rate ∧
    ask Demo.env e' (.truePeak 0) ≠ ask Demo.env e' (.samplePeak 0) := by
  obtain ⟨e, he, -⟩ := demo_new (channels := 1) (rate := 20) (mode := Mode.TRUE_PEAK) (by omega) (by decide)
  obtain ⟨rfl, -⟩ := Ebu.new_ok he
  have key : (match Demo.log Demo.env (Ebu.init Demo.env 1 20 Mode.TRUE_PEAK)
      [.addFrames (.i16 (List.replicate 12 16384)), .changeParameters 1 192000] with
    | .done (_, e') => decide (192000 ≤ e'.rate) && (match e'.getSamplePeak 0, e'.getTruePeak Demo.env 0 with
      | .done (.ok x), .done (.ok y) => decide (y ≠ x)
      | _, _ => false)
    | _ => false) = true := by decide +kernel
  split at key
  · next l e' hl =>
    simp only [Bool.and_eq_true, decide_eq_true_eq] at key
    obtain ⟨h3, h4⟩ := Demo.log_calls _ hl
    refine ⟨_, e', l, .inl ⟨_, _, _, he⟩, h3, ?_, key.1, ?_⟩
    · intro p hp
      have : p.1 ∈ l.map Prod.fst := List.mem_map_of_mem hp
      rw [h4] at this
      simp only [List.mem_cons, List.not_mem_nil, or_false] at this
      rcases this with h | h <;> rw [h]
      · trivial
      · rfl
    · have key := key.2
      split at key
      · next x y hx hy =>
        have e1 : ask Demo.env e' (.truePeak 0) = .done (.ok y) := hy
        have e2 : ask Demo.env e' (.samplePeak 0) = .done (.ok x) := hx
        rw [e1, e2]
        intro h
        cases h
        simp at key
      · cases key
  · cases key

end Verif
