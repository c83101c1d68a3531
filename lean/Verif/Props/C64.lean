import Verif.Proofs.CRefTrack
/-!
# C64: the interpolators and the true peaks of the crate and of the C reference agree

The crate interpolates in `f32` with a 48 tap filter in fixed phases; the C reference in `double` with 49 taps, skipping
the tiny ones, over a circular delay line.  They do not agree exactly; the crate's own tests accept `4e-6` for signals
of full scale, on the samples they try.  Here: for all signals, rates, channel counts and sample formats, on targets
with and without flush-to-zero and fused multiply-add, for any `sin` and `cos` within `2^-30`.
-/

namespace Verif
open Fl Spec
variable {m : Libm F64} {bs : BSearch} {t : Target} {T : Type}

/-! ## Statement -/

/-- How far apart two interpolated samples, or two true peaks, may be for samples of absolute value at most `A`. -/
noncomputable def Spec.peakGap (A : ℝ) : ℝ := A * (33 / 10 ^ 7) + 1 / 2 ^ 110

/-- Every sample is a finite number of absolute value at most `A`, integers being scaled to full scale 1. -/
def Spec.Chunk.Within (A : ℝ) : Chunk → Prop
  | .short l => ∀ x ∈ l, |(x.toInt : ℝ) / 32768| ≤ A
  | .int l => ∀ x ∈ l, |(x.toInt : ℝ) / 2147483648| ≤ A
  | .float l => ∀ x ∈ l, x.Finite ∧ |x.value| ≤ A
  | .double l => ∀ x ∈ l, x.Finite ∧ |x.value| ≤ A

/-- A call on a true peak detector with an array of peaks: check a chunk of interleaved frames, or set the peaks to
zero, as `reset_peaks` of the filter does. -/
inductive Spec.PeakCall where
  | check (chunk : Chunk)
  | clear

/-- The call on the crate's detector. -/
def Spec.rustPeak (E : Env F64 F32) (n : Nat) (st : Scanner F32 × List F64) : PeakCall → Run (Scanner F32 × List F64)
  | .check (.short l) => st.1.checkTruePeak E (i16Ops E) (⟨l, n⟩ : Interleaved Int16) st.2
  | .check (.int l) => st.1.checkTruePeak E (i32Ops E) (⟨l, n⟩ : Interleaved Int32) st.2
  | .check (.float l) => st.1.checkTruePeak E (f32Ops E) (⟨l, n⟩ : Interleaved F32) st.2
  | .check (.double l) => st.1.checkTruePeak E (f64Ops E) (⟨l, n⟩ : Interleaved F64) st.2
  | .clear => .done (st.1, List.replicate n E.f64p.zero)

/-- The call on that of the C reference. -/
def Spec.cPeak (E : Env F64 F32) (n : Nat) (st : CRef.TruePeak F64 F32 × List F64) :
    PeakCall → Run (CRef.TruePeak F64 F32 × List F64)
  | .check (.short l) => st.1.check E (CRef.cShort E) (l.length / n) l st.2
  | .check (.int l) => st.1.check E (CRef.cInt E) (l.length / n) l st.2
  | .check (.float l) => st.1.check E (CRef.cFloat E) (l.length / n) l st.2
  | .check (.double l) => st.1.check E (CRef.cDouble E) (l.length / n) l st.2
  | .clear => .done (st.1, List.replicate n E.f64p.zero)

/-- Whole frames, at most as many as the buffer of the C reference holds (0.4 s), of samples up to `A`. -/
def Spec.PeakCall.Ok (n rate : Nat) (A : ℝ) : PeakCall → Prop
  | .check x => x.length % n = 0 ∧ x.length / n ≤ (rate + 5) / 10 * 4 ∧ x.Within A
  | .clear => True

/-! ## The interpolators -/

/-- Feeding frames to the C interpolator. -/
def Spec.cInterpRun (E : Env F64 F32) : CRef.Interp F64 F32 → List (List F32) → Run (CRef.Interp F64 F32)
  | ip, [] => .done ip
  | ip, f :: fs => Run.bind (ip.frame E f) fun r => Spec.cInterpRun E r.1 fs

theorem cInterpRun_fed {E : Env F64 F32} {factor n : Nat} (fs : List (List F32)) :
    ∀ {ip : CRef.Interp F64 F32} {past : Nat → List F32}, CFed E factor n ip past → (∀ f ∈ fs, f.length = n) →
      ∃ ip', cInterpRun E ip fs = .done ip' ∧
        CFed E factor n ip' fun c => (fs.map fun f => f.getD c E.f32p.zero).reverse ++ past c := by
  induction fs with
  | nil => intro ip past h _; exact ⟨ip, rfl, h⟩
  | cons f fs ih =>
    intro ip past h hf
    rw [List.forall_mem_cons] at hf
    obtain ⟨ip', h1, h2⟩ := ih (h.frame hf.1).1 hf.2
    refine ⟨ip', ?_, ?_⟩
    · rw [cInterpRun, CRef.Interp.frame_eq E h.inv hf.1, Run.done_bind, h1]
    · simpa [List.reverse_cons, List.append_assoc] using h2

/-- **C64, interpolators.** After any frames, the next frame gives `factor` output samples per channel, close to those of
the C reference. -/
theorem C64_interp (hm : TrigWithin m (1 / 2 ^ 30)) {factor n : Nat} (hf : factor = 2 ∨ factor = 4) {A : ℝ} (A0 : 0 ≤ A)
    (hA : A ≤ 2 ^ 100) (fs : List (List F32)) (f : List F32) (hl : ∀ g ∈ fs ++ [f], g.length = n)
    (hx : ∀ g ∈ fs ++ [f], ∀ x ∈ g, x.Finite ∧ |x.value| ≤ A) :
    ∃ ip0 ip ip' outs cp0 cp cp' couts,
      Interp.new (ieeeEnv m bs t) (48 / factor) factor n = .done ip0 ∧
      interpRun (ieeeEnv m bs t) ip0 fs = .done ip ∧ ip.interpolate (ieeeEnv m bs t) f = .done (ip', outs) ∧
      CRef.Interp.create (ieeeEnv m bs t) 49 factor n = .done cp0 ∧
      cInterpRun (ieeeEnv m bs t) cp0 fs = .done cp ∧ cp.frame (ieeeEnv m bs t) f = .done (cp', couts) ∧
      outs.length = factor ∧ couts.length = n ∧
      ∀ k < factor, ∀ c < n, ∃ o p x y, outs[k]? = some o ∧ o[c]? = some x ∧ couts[c]? = some p ∧ p[k]? = some y ∧
        x.Finite ∧ y.Finite ∧ |x.value - y.value| ≤ peakGap A := by
  have b1 : 48 / factor * factor = TAPS := by rcases hf with rfl | rfl <;> rfl
  have b2 : 48 / factor * 2 ≤ 48 := by rcases hf with rfl | rfl <;> decide
  have b3 : 0 < 48 / factor := by rcases hf with rfl | rfl <;> decide
  have hn := Interp.new_eq (ieeeEnv m bs t) (width := n) b1 b2
  obtain ⟨ip, ip', outs, r1, r2, r3, r4⟩ := C22_interpolator (ieeeEnv m bs t) b3 b2 hn fs f hl
  obtain ⟨cp, c1, c2⟩ := cInterpRun_fed fs (cStart_fed (ieeeEnv m bs t) hf n)
    (fun g hg => hl g (List.mem_append_left _ hg))
  have hfl := hl f (List.mem_append_right _ List.mem_cons_self)
  have c3 := CRef.Interp.frame_eq (ieeeEnv m bs t) c2.inv hfl
  obtain ⟨g1, g2⟩ := c2.frame hfl
  refine ⟨_, ip, ip', outs, _, cp, _, _, hn, r1, r2, create_eq _ hf n, c1, c3, r3,
    (CRef.Interp.frameP_inv _ c2.inv hfl).2, fun k hk c hc => ?_⟩
  obtain ⟨o, o1, o2⟩ := r4 k c hk hc
  have hcv : ∀ g ∈ fs ++ [f], Conv A (g.getD c (ieeeEnv m bs t).f32p.zero)
      (g.getD c (ieeeEnv m bs t).f32p.zero).value := by
    intro g hg
    have hcg : c < g.length := by rw [hl g hg]; exact hc
    rw [List.getD_eq_getElem?_getD, List.getElem?_eq_getElem hcg]
    obtain ⟨h1, h2⟩ := hx g hg _ (List.getElem_mem hcg)
    exact rust_float (m := m) (bs := bs) (t := t) A0 h1 h2
  -- the column, the newest first
  have hcol : ∀ gs : List (List F32), (∀ g ∈ gs, Conv A (g.getD c (ieeeEnv m bs t).f32p.zero)
      (g.getD c (ieeeEnv m bs t).f32p.zero).value) →
      List.Forall₂ (Conv A) (gs.map fun g => g.getD c (ieeeEnv m bs t).f32p.zero)
        (gs.map fun g => (g.getD c (ieeeEnv m bs t).f32p.zero).value) := by
    intro gs
    induction gs with
    | nil => intro _; exact .nil
    | cons g gs ih => intro h; rw [List.forall_mem_cons] at h; exact .cons h.1 (ih h.2)
  have hall := hcol (fs ++ [f]).reverse (fun g hg => hcv g (List.mem_reverse.1 hg))
  have e1 := rust_out (m := m) (bs := bs) (t := t) hm hf hk A0 hA hall
  have e2 := c_out (m := m) (bs := bs) (t := t) hm hf hk A0 hA hall
  have hph : phase (ieeeEnv m bs t) (48 / factor) factor (((fs ++ [f]).reverse.map fun g =>
      g.getD c (ieeeEnv m bs t).f32p.zero).reverse.map ([·])) k 0 =
      phase (ieeeEnv m bs t) (48 / factor) factor (fs ++ [f]) k c := by
    unfold phase
    simp only [tap_reverse]
    congr 1
    funext acc i
    congr 1
    unfold tap
    rw [List.getD_eq_getElem?_getD, List.getElem?_map]
    cases (fs ++ [f]).reverse[i]? <;> rfl
  rw [hph] at e1
  refine ⟨o, _, _, _, o1, o2, g2 c hc, by rw [List.getElem?_map, List.getElem?_range hk, Option.map_some], e1.1, ?_⟩
  have hco : cOut (ieeeEnv m bs t) factor (f.getD c (ieeeEnv m bs t).f32p.zero ::
      ((fs.map fun f => f.getD c (ieeeEnv m bs t).f32p.zero).reverse ++ [])) k =
      cOut (ieeeEnv m bs t) factor ((fs ++ [f]).reverse.map fun g => g.getD c (ieeeEnv m bs t).f32p.zero) k := by
    simp
  rw [hco]
  refine ⟨e2.1, ?_⟩
  have := abs_sub_le (phase (ieeeEnv m bs t) (48 / factor) factor (fs ++ [f]) k c).value (between0 factor
    ((fs ++ [f]).reverse.map fun g => (g.getD c (ieeeEnv m bs t).f32p.zero).value) k)
    (cOut (ieeeEnv m bs t) factor ((fs ++ [f]).reverse.map fun g => g.getD c (ieeeEnv m bs t).f32p.zero) k).value
  refine this.trans ((add_le_add e1.2 (_root_.le_trans (le_of_eq (abs_sub_comm _ _)) e2.2)).trans ?_)
  unfold peakGap
  norm_num
  linarith

/-! ## The detectors -/

/-- What the two detectors have in common: the exact samples of channel `c` so far, the newest first, and the exact
running peak. -/
structure PeakTracks (m : Libm F64) (bs : BSearch) (t : Target) (factor n frames : Nat) (A : ℝ) (sc : Scanner F32)
    (ps : List F64) (tp : CRef.TruePeak F64 F32) (qs : List F64) : Prop where
  inv : sc.Inv n
  rect : sc.Rect
  lengthR : ps.length = n
  lengthC : qs.length = n
  cinv : tp.Inv n
  room : tp.inputFrames = frames
  fed : ∃ cp, CFed (ieeeEnv m bs t) factor n tp.interp cp ∧ ∀ c < n, ∃ past P q K pre,
    sc.mono c = some ((Interp.init (ieeeEnv m bs t) (48 / factor) factor 1).fed m bs t pre) ∧
    List.Forall₂ (Conv A) pre.reverse past ∧ List.Forall₂ (Conv A) (cp c) past ∧
    ps[c]? = some (pk Fmt.b64 (wkey q)) ∧ TpKey t q ∧ qs[c]? = some (pk Fmt.b64 K) ∧
    App (pk Fmt.b64 (wkey q)) P (A * (261 / 10 ^ 8) + 1 / 2 ^ 112) ∧
    App (pk Fmt.b64 K) P (A * (68 / 10 ^ 8) + 1 / 2 ^ 112)

theorem forall₂_map {α β γ : Type} {R : β → γ → Prop} {f : α → β} {g : α → γ} {l : List α}
    (h : ∀ x ∈ l, R (f x) (g x)) : List.Forall₂ R (l.map f) (l.map g) := by
  induction l with
  | nil => exact .nil
  | cons x l ih => rw [List.forall_mem_cons] at h; exact .cons h.1 (ih h.2)

theorem PeakTracks.check (hm : TrigWithin m (1 / 2 ^ 30)) {factor n frames : Nat} (hf : factor = 2 ∨ factor = 4) {A : ℝ}
    (A0 : 0 ≤ A) (hA : A ≤ 2 ^ 100) {sc : Scanner F32} {ps qs : List F64} {tp : CRef.TruePeak F64 F32} (hn : 0 < n)
    (h : PeakTracks m bs t factor n frames A sc ps tp qs) (ops : SampleOps F64 F32 T) (cs : CRef.CSample F64 T)
    (amp : T → ℝ) {data : List T} (hd : data.length % n = 0) (hfr : data.length / n ≤ frames)
    (hr : ∀ x ∈ data, Conv A (ops.toF32 x) (amp x))
    (hc : ∀ x ∈ data, Conv A (cStored (ieeeEnv m bs t) cs x) (amp x)) :
    ∃ sc' ps' tp' qs', sc.checkTruePeak (ieeeEnv m bs t) ops (⟨data, n⟩ : Interleaved T) ps = .done (sc', ps') ∧
      tp.check (ieeeEnv m bs t) cs (data.length / n) data qs = .done (tp', qs') ∧
      PeakTracks m bs t factor n frames A sc' ps' tp' qs' := by
  have hn' : n ≠ 0 := by omega
  obtain ⟨k1, k2, k3⟩ := chunksExact_rect hn' data hd
  have hmem : ∀ f ∈ chunksExact n data, ∀ s ∈ f, s ∈ data := by
    intro f h1 s h2
    rw [← k2]
    exact List.mem_flatten.2 ⟨f, h1, h2⟩
  have hwf : LawfulSamples.WF (⟨data, n⟩ : Interleaved T) := ⟨hn', hd⟩
  have e1 := Scanner.checkTruePeak_eq (ieeeEnv m bs t) ops h.inv hwf rfl h.lengthR
  rw [show LawfulSamples.toFrames (⟨data, n⟩ : Interleaved T) = chunksExact n data from rfl] at e1
  have e2 := CRef.TruePeak.check_eq (ieeeEnv m bs t) cs hn h.cinv hd (by rw [h.room]; exact hfr) h.lengthC
  obtain ⟨cp, g1, g2⟩ := h.fed
  obtain ⟨cp', g3, g4, g5⟩ := c_peaks (m := m) (bs := bs) (t := t) hm hf A0 hA cs amp (chunksExact n data) k1
    (fun f h1 s h2 => hc s (hmem f h1 s h2)) (st := (tp.interp, qs)) g1 h.lengthC
  have b2 : 48 / factor * 2 ≤ 48 := by rcases hf with rfl | rfl <;> decide
  have b3 : 0 < 48 / factor := by rcases hf with rfl | rfl <;> decide
  have ef := Scanner.checkP_fst (ieeeEnv m bs t) ops h.inv (chunksExact n data) h.lengthR
  refine ⟨(sc.checkP (ieeeEnv m bs t) ops (chunksExact n data) ps).1,
    (sc.checkP (ieeeEnv m bs t) ops (chunksExact n data) ps).2, _, _, e1, e2, ⟨?_, ?_, ?_, g4, ⟨h.cinv.channels, g3.inv⟩, h.room, cp', g3, fun c hc' => ?_⟩⟩
  · rw [ef]; exact Scanner.feed_inv _ ops h.inv _
  · rw [ef]; exact Scanner.feed_rect _ ops h.inv h.rect k1
  · refine Scanner.checkP_snd_length _ ops h.inv h.lengthR ?_ k1
    rintro ch ip rfl
    exact h.rect
  · obtain ⟨past, P, q, K, pre, p1, p2, p3, p4, p5, p6, p7, p8⟩ := g2 c hc'
    obtain ⟨a1, K', a2, a3⟩ := g5 c hc' p3 p6 p8
    have hcm : ∀ x ∈ column c (chunksExact n data), x ∈ data := by
      intro x hx
      obtain ⟨f, h1, h2⟩ := List.mem_filterMap.1 hx
      exact hmem f h1 x (List.mem_of_getElem? h2)
    have hcol : List.Forall₂ (Conv A) ((column c (chunksExact n data)).map ops.toF32)
        ((column c (chunksExact n data)).map amp) := forall₂_map fun x hx => hr x (hcm x hx)
    have hk := rust_peak (m := m) (bs := bs) (t := t) hm hf A0 hA hcol p2 p7
    rw [List.reverse_reverse, ← peakKey_between b3 b2, ← wkey_max] at hk
    have hkey : sc.key m bs t ops (chunksExact n data) c =
        ((Interp.init (ieeeEnv m bs t) (48 / factor) factor 1).fed m bs t pre).peakKey m bs t
          ((column c (chunksExact n data)).map ops.toF32) := by
      unfold Scanner.key
      rw [p1]
    refine ⟨((column c (chunksExact n data)).map amp).reverse ++ past,
      peak0 factor past P ((column c (chunksExact n data)).map amp),
      max q (sc.key m bs t ops (chunksExact n data) c), K', pre ++ (column c (chunksExact n data)).map ops.toF32, ?_, ?_,
      a1, Scanner.checkP_peak m bs t ops h.inv h.rect hc' k1 h.lengthR p5 p4,
      p5.max (Scanner.key_tp m bs t ops sc _ c), a2, ?_, a3⟩
    · rw [ef, Scanner.mono_feed m bs t ops h.inv h.rect hc' k1, p1, Option.map_some, ← Interp.fed_append]
    · rw [List.reverse_append]
      exact List.rel_append (List.rel_reverse hcol) p2
    · rw [hkey]; exact hk

theorem mono_initP {taps factor n c : Nat} (hc : c < n) : (Scanner.initP.mk (ieeeEnv m bs t) n taps factor).mono c =
    some ((Interp.init (ieeeEnv m bs t) taps factor 1).fed m bs t []) := by
  simp only [Scanner.initP.mk]
  split
  · show some ((Interp.init (ieeeEnv m bs t) taps factor n).proj c) = _
    congr 1
    simp only [Interp.proj, Interp.init, List.map_replicate]
    congr 3
    simp only [pick, zeroFrame, List.getD_eq_getElem?_getD, List.getElem?_replicate, hc, if_true, Option.getD_some]
    rfl
  · show (List.replicate n (Interp.init (ieeeEnv m bs t) taps factor 1))[c]? = _
    rw [List.getElem?_replicate, if_pos hc]; rfl

theorem PeakTracks.init {rate taps factor n : Nat} (ho : oversampling rate = some (taps, factor)) (A : ℝ) (A0 : 0 ≤ A) :
    ∃ sc tp, Scanner.new (ieeeEnv m bs t) rate n = .done (some sc) ∧
      CRef.TruePeak.create (ieeeEnv m bs t) rate n = .done (some tp) ∧ (factor = 2 ∨ factor = 4) ∧
      PeakTracks m bs t factor n ((rate + 5) / 10 * 4) A sc (List.replicate n (ieeeEnv m bs t).f64p.zero) tp
        (List.replicate n (ieeeEnv m bs t).f64p.zero) := by
  have hz : (ieeeEnv m bs t).f64p.zero = pk Fmt.b64 0 := by
    rw [← zero_eq_pk]
    rcases t with ⟨_ | _, _, _⟩ <;> rfl
  have hfac : (factor = 2 ∨ factor = 4) ∧ taps = 48 / factor ∧
      CRef.TruePeak.create (ieeeEnv m bs t) rate n =
        .done (some ⟨cStart (ieeeEnv m bs t) factor n, n, (rate + 5) / 10 * 4⟩) := by
    unfold oversampling at ho
    unfold CRef.TruePeak.create
    split at ho
    · cases ho
      rename_i hlt
      rw [if_pos hlt, create_eq _ (Or.inr rfl)]
      exact ⟨Or.inr rfl, rfl, rfl⟩
    · split at ho
      · cases ho
        rename_i h1 h2
        rw [if_neg h1, if_pos h2, create_eq _ (Or.inl rfl)]
        exact ⟨Or.inl rfl, rfl, rfl⟩
      · cases ho
  obtain ⟨hf, rfl, hc⟩ := hfac
  have hs : Scanner.initP (ieeeEnv m bs t) rate n = some (Scanner.initP.mk (ieeeEnv m bs t) n (48 / factor) factor) := by
    rw [initP_over, ho]; rfl
  obtain ⟨i1, i2⟩ := Scanner.initP_inv _ hs
  have hst := cStart_fed (ieeeEnv m bs t) hf n
  have happ : ∀ e : ℝ, 0 ≤ e → App (pk Fmt.b64 0) 0 e := by
    intro e he
    rw [← zero_eq_pk]
    exact ⟨⟨false, 0, _, rfl, by decide⟩, by rw [value_zero, sub_zero, abs_zero]; exact he⟩
  refine ⟨_, _, by rw [Scanner.new_eq, hs], hc, hf, ⟨i1, i2, by simp, by simp, ⟨rfl, hst.inv⟩, rfl, _, hst, fun c hc' => ?_⟩⟩
  have hw : wkey 0 = 0 := wkey_zero
  refine ⟨[], 0, 0, 0, [], ?_, .nil, .nil, ?_, ⟨Nat.zero_le _, fkey_zero t⟩, ?_, ?_, ?_⟩
  · exact mono_initP hc'
  · rw [hw, List.getElem?_replicate, if_pos hc', hz]
  · rw [List.getElem?_replicate, if_pos hc', hz]
  · rw [hw]; exact happ _ (by positivity)
  · exact happ _ (by positivity)

theorem PeakTracks.clear {factor n frames : Nat} {A : ℝ} (A0 : 0 ≤ A) {sc : Scanner F32} {ps qs : List F64}
    {tp : CRef.TruePeak F64 F32} (h : PeakTracks m bs t factor n frames A sc ps tp qs) :
    PeakTracks m bs t factor n frames A sc (List.replicate n (ieeeEnv m bs t).f64p.zero) tp
      (List.replicate n (ieeeEnv m bs t).f64p.zero) := by
  have hz : (ieeeEnv m bs t).f64p.zero = pk Fmt.b64 0 := by
    rw [← zero_eq_pk]
    rcases t with ⟨_ | _, _, _⟩ <;> rfl
  have happ : ∀ e : ℝ, 0 ≤ e → App (pk Fmt.b64 0) 0 e := by
    intro e he
    rw [← zero_eq_pk]
    exact ⟨⟨false, 0, _, rfl, by decide⟩, by rw [value_zero, sub_zero, abs_zero]; exact he⟩
  have hw : wkey 0 = 0 := wkey_zero
  obtain ⟨cp, g1, g2⟩ := h.fed
  refine ⟨h.inv, h.rect, by simp, by simp, h.cinv, h.room, cp, g1, fun c hc => ?_⟩
  obtain ⟨past, P, q, K, pre, p1, p2, p3, -⟩ := g2 c hc
  refine ⟨past, 0, 0, 0, pre, p1, p2, p3, ?_, ⟨Nat.zero_le _, fkey_zero t⟩, ?_, ?_, ?_⟩
  · rw [hw, List.getElem?_replicate, if_pos hc, hz]
  · rw [List.getElem?_replicate, if_pos hc, hz]
  · rw [hw]; exact happ _ (by positivity)
  · exact happ _ (by positivity)

theorem PeakTracks.step (hm : TrigWithin m (1 / 2 ^ 30)) {factor n rate : Nat} (hf : factor = 2 ∨ factor = 4) {A : ℝ}
    (A0 : 0 ≤ A) (hA : A ≤ 2 ^ 100) (hn : 0 < n) {sc : Scanner F32} {ps qs : List F64} {tp : CRef.TruePeak F64 F32}
    (h : PeakTracks m bs t factor n ((rate + 5) / 10 * 4) A sc ps tp qs) {call : PeakCall} (ok : call.Ok n rate A) :
    ∃ sc' ps' tp' qs', rustPeak (ieeeEnv m bs t) n (sc, ps) call = .done (sc', ps') ∧
      cPeak (ieeeEnv m bs t) n (tp, qs) call = .done (tp', qs') ∧
      PeakTracks m bs t factor n ((rate + 5) / 10 * 4) A sc' ps' tp' qs' := by
  cases call with
  | clear => exact ⟨_, _, _, _, rfl, rfl, h.clear A0⟩
  | check x =>
    obtain ⟨o1, o2, o3⟩ := ok
    cases x with
    | short l =>
      exact h.check hm hf A0 hA hn (i16Ops (ieeeEnv m bs t)) (CRef.cShort (ieeeEnv m bs t)) (fun x => (x.toInt : ℝ) / 32768)
        o1 o2 (fun x hx => rust_short (o3 x hx)) (fun x hx => c_short A0 hA (o3 x hx))
    | int l =>
      exact h.check hm hf A0 hA hn (i32Ops (ieeeEnv m bs t)) (CRef.cInt (ieeeEnv m bs t))
        (fun x => (x.toInt : ℝ) / 2147483648) o1 o2 (fun x hx => rust_int (o3 x hx)) (fun x hx => c_int A0 hA (o3 x hx))
    | float l =>
      exact h.check hm hf A0 hA hn (f32Ops (ieeeEnv m bs t)) (CRef.cFloat (ieeeEnv m bs t)) (fun x => x.value) o1 o2
        (fun x hx => rust_float A0 (o3 x hx).1 (o3 x hx).2) (fun x hx => c_float A0 hA (o3 x hx).1 (o3 x hx).2)
    | double l =>
      exact h.check hm hf A0 hA hn (f64Ops (ieeeEnv m bs t)) (CRef.cDouble (ieeeEnv m bs t)) (fun x => x.value) o1 o2
        (fun x hx => rust_double A0 hA (o3 x hx).1 (o3 x hx).2) (fun x hx => c_double A0 hA (o3 x hx).1 (o3 x hx).2)

theorem PeakTracks.gap {factor n frames : Nat} {A : ℝ} (A0 : 0 ≤ A) {sc : Scanner F32} {ps qs : List F64}
    {tp : CRef.TruePeak F64 F32} (h : PeakTracks m bs t factor n frames A sc ps tp qs) {c : Nat} (hc : c < n) :
    ∃ p q, ps[c]? = some p ∧ qs[c]? = some q ∧ p.Finite ∧ q.Finite ∧ |p.value - q.value| ≤ peakGap A := by
  obtain ⟨cp, -, g2⟩ := h.fed
  obtain ⟨past, P, q, K, pre, -, -, -, p4, -, p6, p7, p8⟩ := g2 c hc
  refine ⟨_, _, p4, p6, p7.1, p8.1, (abs_sub_le _ P _).trans
    ((add_le_add p7.2 (_root_.le_trans (le_of_eq (abs_sub_comm _ _)) p8.2)).trans ?_)⟩
  unfold peakGap
  norm_num
  linarith

/-- **C64, true peaks.** Below 192 kHz, for any calls on new detectors with peaks that start at zero. -/
theorem C64_peaks (hm : TrigWithin m (1 / 2 ^ 30)) {rate n : Nat} (hr : rate < 192000) (hn : 0 < n) {A : ℝ} (A0 : 0 ≤ A)
    (hA : A ≤ 2 ^ 100) (calls : List PeakCall) (ok : ∀ call ∈ calls, call.Ok n rate A) :
    ∃ sc tp sc' ps tp' qs, Scanner.new (ieeeEnv m bs t) rate n = .done (some sc) ∧
      CRef.TruePeak.create (ieeeEnv m bs t) rate n = .done (some tp) ∧
      Run.foldL (rustPeak (ieeeEnv m bs t) n) (sc, List.replicate n (ieeeEnv m bs t).f64p.zero) calls = .done (sc', ps) ∧
      Run.foldL (cPeak (ieeeEnv m bs t) n) (tp, List.replicate n (ieeeEnv m bs t).f64p.zero) calls = .done (tp', qs) ∧
      ps.length = n ∧ qs.length = n ∧
      ∀ c < n, ∃ p q, ps[c]? = some p ∧ qs[c]? = some q ∧ p.Finite ∧ q.Finite ∧ |p.value - q.value| ≤ peakGap A := by
  obtain ⟨taps, factor, ho⟩ : ∃ taps factor, oversampling rate = some (taps, factor) := by
    unfold oversampling
    split
    · exact ⟨_, _, rfl⟩
    · exact ⟨_, _, rfl⟩
  obtain ⟨sc, tp, h1, h2, hf, h3⟩ := PeakTracks.init (m := m) (bs := bs) (t := t) (n := n) ho A A0
  have main : ∀ (calls : List PeakCall), (∀ call ∈ calls, call.Ok n rate A) → ∀ {sc ps tp qs},
      PeakTracks m bs t factor n ((rate + 5) / 10 * 4) A sc ps tp qs → ∃ sc' ps' tp' qs',
      Run.foldL (rustPeak (ieeeEnv m bs t) n) (sc, ps) calls = .done (sc', ps') ∧
      Run.foldL (cPeak (ieeeEnv m bs t) n) (tp, qs) calls = .done (tp', qs') ∧
      PeakTracks m bs t factor n ((rate + 5) / 10 * 4) A sc' ps' tp' qs' := by
    intro calls
    induction calls with
    | nil => intro _ sc ps tp qs h; exact ⟨_, _, _, _, rfl, rfl, h⟩
    | cons call calls ih =>
      intro ok sc ps tp qs h
      rw [List.forall_mem_cons] at ok
      obtain ⟨sc1, ps1, tp1, qs1, s1, s2, s3⟩ := h.step hm hf A0 hA hn ok.1
      obtain ⟨sc2, ps2, tp2, qs2, r1, r2, r3⟩ := ih ok.2 s3
      exact ⟨_, _, _, _, by rw [Run.foldL, s1, Run.done_bind, r1], by rw [Run.foldL, s2, Run.done_bind, r2], r3⟩
  obtain ⟨sc', ps, tp', qs, r1, r2, r3⟩ := main calls ok h3
  exact ⟨sc, tp, sc', ps, tp', qs, h1, h2, r1, r2, r3.lengthR, r3.lengthC, fun c hc => r3.gap A0 hc⟩

/-- **C64, high rates.** From 192 kHz on neither side makes a detector. -/
theorem C64_none {rate n : Nat} (hr : 192000 ≤ rate) :
    Scanner.new (ieeeEnv m bs t) rate n = .done none ∧ CRef.TruePeak.create (ieeeEnv m bs t) rate n = .done none := by
  constructor
  · unfold Scanner.new
    rw [if_neg (by omega), if_neg (by omega)]
  · unfold CRef.TruePeak.create
    rw [if_neg (by omega), if_neg (by omega)]

/-! ## The filters -/

/-- Filter calls that both sides take: whole frames that fit into the buffer and into the C true peak buffer, of samples
up to `A`. -/
def Spec.FilterCall.Fits (n L rate : Nat) (A : ℝ) : FilterCall → Prop
  | .process x i cm => x.length % n = 0 ∧ i + x.length / n ≤ L ∧ cm.length = n ∧
      x.length / n ≤ (rate + 5) / 10 * 4 ∧ x.Within A
  | .resetPeaks => True

/-- A call on the C filter with well-formed arguments does not fault, and what it does to the detector. -/
theorem c_process {n L idx : Nat} {g : CRef.Filter F64 F32} (cs : CRef.CSample F64 T) (hn : 0 < n) (hch : g.channels = n)
    (hv : g.v.length = n) (hsp : g.samplePeak.length = n) {data : List T} (hdata : data.length % n = 0)
    (hidx : idx + data.length / n ≤ L) {cm : List Channel} (hcm : cm.length = n) {inter : List F64}
    (hil : inter.length = n * L) {tp' : Option (CRef.TruePeak F64 F32)} {tpk : List F64}
    (htp : (match g.tp with
      | some tp => Run.bind (tp.check (ieeeEnv m bs t) cs (data.length / n) data g.truePeak) fun r =>
        Run.done (some r.1, r.2)
      | none => Run.done (none, g.truePeak)) = .done (tp', tpk)) :
    ∃ g' inter', cProcess (ieeeEnv m bs t) n cs (g, inter) data idx cm = .done (g', inter') ∧ g'.channels = n ∧
      g'.v.length = n ∧ g'.samplePeak.length = n ∧ inter'.length = n * L ∧ g'.tp = tp' ∧ g'.truePeak = tpk := by
  have h0 : Fl.lt (ieeeEnv m bs t).f64p.zero (Fl.zero false) = false := by
    rcases t with ⟨_ | _, _, _⟩ <;> rfl
  have hdl : data.length ≤ (inter.drop (idx * n)).length := by
    rw [List.length_drop, hil]
    have : (idx + data.length / n) * n ≤ L * n := Nat.mul_le_mul_right _ hidx
    rw [Nat.add_mul, Nat.div_mul_cancel (Nat.dvd_of_mod_eq_zero hdata), Nat.mul_comm L n] at this
    omega
  let ops : SampleOps F64 F32 T := ⟨cs.scale, cs.toDouble,
    fun x => (ieeeEnv m bs t).f64p.div (cs.toDouble x) cs.scale, fun x => cStored (ieeeEnv m bs t) cs x⟩
  obtain ⟨vs, audio, k1, k2, k3, -⟩ := CRef.filterChannels (E := ieeeEnv m bs t) (ops := ops) (cs := cs) (g := g) hn hch
    hv hdata (fun _ _ => rfl) hcm (CRef.forall₂_code cm) hdl
  obtain ⟨spk, k4, k5⟩ : ∃ spk, (if g.calculateSamplePeak then CRef.loop 0 g.channels g.samplePeak
      (CRef.samplePeakChannel (ieeeEnv m bs t) cs g.channels (data.length / n) data) else Run.done g.samplePeak) =
      .done spk ∧ spk.length = n := by
    rw [hch]
    split
    · refine ⟨_, CRef.samplePeaks (ops := ops) hn hdata (ok := fun x => Fl.lt x (Fl.zero false) = false) h0
        (fun M x hM => CRef.keepMax_p M x hM) (fun _ => rfl) rfl hsp, by simp [hsp]⟩
    · exact ⟨_, rfl, hsp⟩
  have e2 : g.process (ieeeEnv m bs t) cs (data.length / n) data (inter.drop (idx * n)) (cm.map codeOf) =
      .done ({ g with v := vs, samplePeak := spk, tp := tp', truePeak := tpk }, audio) := by
    unfold CRef.Filter.process
    simp only [Run.bind_eq]
    rw [hch] at k4 ⊢
    cases hg : g.tp with
    | none =>
      rw [hg] at htp
      obtain ⟨rfl, rfl⟩ : none = tp' ∧ g.truePeak = tpk := by simpa using htp
      cases hc : g.calculateSamplePeak <;> simp only [hc, if_true, if_false, Bool.false_eq_true] at k4 ⊢
      · obtain rfl : g.samplePeak = spk := by simpa using k4
        simp only [k1, Run.done_bind]
      · rw [k4]; simp only [k1, Run.done_bind]
    | some tp =>
      rw [hg] at htp
      cases hk : tp.check (ieeeEnv m bs t) cs (data.length / n) data g.truePeak with
      | done r =>
        simp only [hk, Run.done_bind] at htp ⊢
        obtain ⟨rfl, rfl⟩ : some r.1 = tp' ∧ r.2 = tpk := by simpa using htp
        cases hc : g.calculateSamplePeak <;> simp only [hc, if_true, if_false, Bool.false_eq_true] at k4 ⊢
        · obtain rfl : g.samplePeak = spk := by simpa using k4
          simp only [k1, Run.done_bind]
        · rw [k4]; simp only [k1, Run.done_bind]
      | panic => simp [hk, Run.bind] at htp
      | hang => simp [hk, Run.bind] at htp
  refine ⟨{ g with v := vs, samplePeak := spk, tp := tp', truePeak := tpk }, inter.take (idx * n) ++ audio, ?_, hch, k2, k5,
    ?_, rfl, rfl⟩
  · simp only [cProcess, e2, Run.bind_eq, Run.done_bind]
  rw [List.length_append, k3, List.length_take, List.length_drop]
  have : idx * n ≤ inter.length := by
    rw [hil, Nat.mul_comm n L]
    exact Nat.mul_le_mul_right _ (Nat.le_trans (Nat.le_add_right _ _) hidx)
  omega

/-- The two filters with their detectors and peaks. -/
structure FilterTracks (m : Libm F64) (bs : BSearch) (t : Target) (rate n L : Nat) (A : ℝ)
    (st : Filter F64 F32 × List F64) (st' : CRef.Filter F64 F32 × List F64) : Prop where
  inv : st.1.Inv n
  rect : st.1.RectTp
  planar : st.2.length = n * L
  channels : st'.1.channels = n
  v : st'.1.v.length = n
  samplePeak : st'.1.samplePeak.length = n
  inter : st'.2.length = n * L
  peaks : (∃ factor sc tp, (factor = 2 ∨ factor = 4) ∧ st.1.tp = some sc ∧ st'.1.tp = some tp ∧
      PeakTracks m bs t factor n ((rate + 5) / 10 * 4) A sc st.1.truePeak tp st'.1.truePeak) ∨
    (st.1.tp = none ∧ st'.1.tp = none ∧ st.1.truePeak = List.replicate n (Fl.zero false) ∧
      st'.1.truePeak = List.replicate n (Fl.zero false))

theorem FilterTracks.process (hm : TrigWithin m (1 / 2 ^ 30)) {rate n L : Nat} {A : ℝ} (A0 : 0 ≤ A) (hA : A ≤ 2 ^ 100)
    (hn : 0 < n) (hL : 0 < L) {st : Filter F64 F32 × List F64} {st' : CRef.Filter F64 F32 × List F64}
    (h : FilterTracks m bs t rate n L A st st') (ops : SampleOps F64 F32 T) (cs : CRef.CSample F64 T) (amp : T → ℝ)
    {data : List T} {idx : Nat} {cm : List Channel} (hd : data.length % n = 0) (hidx : idx + data.length / n ≤ L)
    (hcm : cm.length = n) (hfr : data.length / n ≤ (rate + 5) / 10 * 4)
    (hr : ∀ x ∈ data, Conv A (ops.toF32 x) (amp x))
    (hc : ∀ x ∈ data, Conv A (cStored (ieeeEnv m bs t) cs x) (amp x)) :
    ∃ s s', st.1.process (ieeeEnv m bs t) ops (⟨data, n⟩ : Interleaved T) st.2 idx cm = .done s ∧
      cProcess (ieeeEnv m bs t) n cs st' data idx cm = .done s' ∧ FilterTracks m bs t rate n L A s s' := by
  obtain ⟨f, planar⟩ := st
  obtain ⟨g, inter⟩ := st'
  have hn' : n ≠ 0 := by omega
  obtain ⟨k1, k2, k3⟩ := chunksExact_rect hn' data hd
  obtain ⟨rows, hrows, r1, r2⟩ := CRef.exists_rows hL h.planar
  dsimp only at hrows
  subst hrows
  have hwf : LawfulSamples.WF (⟨data, n⟩ : Interleaved T) := ⟨hn', hd⟩
  have htf : LawfulSamples.toFrames (⟨data, n⟩ : Interleaved T) = chunksExact n data := rfl
  have e1 := Filter.process_eq (ieeeEnv m bs t) ops h.inv hwf rfl r1 r2 (by omega) hcm (idx := idx)
    (by rw [htf, k3]; exact hidx)
  rw [htf] at e1
  obtain ⟨j1, j2⟩ := Filter.processP_inv (ieeeEnv m bs t) ops h.inv h.rect k1 hcm
  have hpl : (rowsP (ieeeEnv m bs t) ops f (chunksExact n data) rows idx cm).flatten.length = n * L := by
    rw [length_flatten_of (rowsP_rows _ ops k1 hcm r2 (by rw [k3]; exact hidx)), rowsP_length _ ops h.inv.state _ hcm r1]
  rcases h.peaks with ⟨factor, sc, tp, hf, p1, p2, p3⟩ | ⟨p1, p2, p3, p4⟩
  · dsimp only at p1 p2 p3
    obtain ⟨sc', ps', tp', qs', q1, q2, q3⟩ := p3.check hm hf A0 hA hn ops cs amp hd hfr hr hc
    obtain ⟨g', inter', c1, c2, c3, c4, c5, c6, c7⟩ := c_process (m := m) (bs := bs) (t := t) cs hn h.channels h.v
      h.samplePeak hd hidx hcm h.inter (tp' := some tp') (tpk := qs') (by
        dsimp only
        rw [p2]
        dsimp only
        rw [q2, Run.done_bind])
    have hcp := Scanner.checkTruePeak_eq (ieeeEnv m bs t) ops p3.inv hwf rfl p3.lengthR
    rw [htf, q1] at hcp
    have hcp := Run.done.inj hcp
    refine ⟨_, _, e1, c1, ⟨j1, j2, hpl, c2, c3, c4, c5, Or.inl ⟨factor, sc', tp', hf, ?_, c6, ?_⟩⟩⟩
    · simp only [Filter.processP, p1, Option.map_some, ← hcp]
    · simp only [Filter.processP, p1, ← hcp, c7]
      exact q3
  · dsimp only at p1 p2 p3 p4
    obtain ⟨g', inter', c1, c2, c3, c4, c5, c6, c7⟩ := c_process (m := m) (bs := bs) (t := t) cs hn h.channels h.v
      h.samplePeak hd hidx hcm h.inter (tp' := none) (tpk := g.truePeak) (by
        dsimp only
        rw [p2])
    refine ⟨_, _, e1, c1, ⟨j1, j2, hpl, c2, c3, c4, c5, Or.inr ⟨?_, c6, ?_, c7.trans p4⟩⟩⟩
    · simp only [Filter.processP, p1, Option.map_none]
    · simp only [Filter.processP, p1]
      exact p3

theorem zero_p : (ieeeEnv m bs t).f64p.zero = Fl.zero false := by
  rcases t with ⟨_ | _, _, _⟩ <;> rfl

theorem FilterTracks.step (hm : TrigWithin m (1 / 2 ^ 30)) {rate n L : Nat} {A : ℝ} (A0 : 0 ≤ A) (hA : A ≤ 2 ^ 100)
    (hn : 0 < n) (hL : 0 < L) {st : Filter F64 F32 × List F64} {st' : CRef.Filter F64 F32 × List F64}
    (h : FilterTracks m bs t rate n L A st st') {call : FilterCall} (ok : call.Fits n L rate A) :
    ∃ s s', rustCall (ieeeEnv m bs t) n st call = .done s ∧ cCall (ieeeEnv m bs t) n st' call = .done s' ∧
      FilterTracks m bs t rate n L A s s' := by
  cases call with
  | resetPeaks =>
    refine ⟨_, _, rfl, rfl, ?_⟩
    obtain ⟨i1, i2⟩ := Filter.resetPeaks_inv (ieeeEnv m bs t) h.inv h.rect
    have hz : (ieeeEnv m bs t).f64.zero = Fl.zero false := rfl
    have e1 : (st.1.resetPeaks (ieeeEnv m bs t)).truePeak = List.replicate n (Fl.zero false) := by
      simp only [Filter.resetPeaks, List.map_const', h.inv.truePeak, hz]
    have e2 : (st'.1.resetPeaks (ieeeEnv m bs t)).truePeak = List.replicate n (Fl.zero false) := by
      simp only [CRef.Filter.resetPeaks, h.channels, hz]
    refine ⟨i1, i2, h.planar, h.channels, h.v, by simp [CRef.Filter.resetPeaks, h.channels], h.inter, ?_⟩
    rcases h.peaks with ⟨factor, sc, tp, hf, p1, p2, p3⟩ | ⟨p1, p2, -, -⟩
    · refine Or.inl ⟨factor, sc, tp, hf, p1, p2, ?_⟩
      dsimp only
      rw [e1, e2]
      have := p3.clear A0
      rwa [zero_p] at this
    · exact Or.inr ⟨p1, p2, e1, e2⟩
  | process x i cm =>
    obtain ⟨o1, o2, o3, o4, o5⟩ := ok
    cases x with
    | short l =>
      exact h.process hm A0 hA hn hL (i16Ops (ieeeEnv m bs t)) (CRef.cShort (ieeeEnv m bs t))
        (fun x => (x.toInt : ℝ) / 32768) o1 o2 o3 o4 (fun x hx => rust_short (o5 x hx)) (fun x hx => c_short A0 hA (o5 x hx))
    | int l =>
      exact h.process hm A0 hA hn hL (i32Ops (ieeeEnv m bs t)) (CRef.cInt (ieeeEnv m bs t))
        (fun x => (x.toInt : ℝ) / 2147483648) o1 o2 o3 o4 (fun x hx => rust_int (o5 x hx))
        (fun x hx => c_int A0 hA (o5 x hx))
    | float l =>
      exact h.process hm A0 hA hn hL (f32Ops (ieeeEnv m bs t)) (CRef.cFloat (ieeeEnv m bs t)) (fun x => x.value)
        o1 o2 o3 o4 (fun x hx => rust_float A0 (o5 x hx).1 (o5 x hx).2) (fun x hx => c_float A0 hA (o5 x hx).1 (o5 x hx).2)
    | double l =>
      exact h.process hm A0 hA hn hL (f64Ops (ieeeEnv m bs t)) (CRef.cDouble (ieeeEnv m bs t)) (fun x => x.value)
        o1 o2 o3 o4 (fun x hx => rust_double A0 hA (o5 x hx).1 (o5 x hx).2)
        (fun x hx => c_double A0 hA (o5 x hx).1 (o5 x hx).2)

theorem FilterTracks.init {rate n L : Nat} (hr : 0 < rate) (hn : 0 < n) {A : ℝ} (A0 : 0 ≤ A) (sp tp : Bool) :
    ∃ f g, Filter.new (ieeeEnv m bs t) rate n sp tp = .done f ∧ CRef.Filter.create (ieeeEnv m bs t) rate n sp tp = .done g ∧
      FilterTracks m bs t rate n L A (f, List.replicate (n * L) (ieeeEnv m bs t).f64.zero)
        (g, List.replicate (n * L) (ieeeEnv m bs t).f64.zero) := by
  obtain ⟨i1, i2⟩ := Filter.init_inv (ieeeEnv m bs t) rate hn sp tp
  have hz : (ieeeEnv m bs t).f64.zero = Fl.zero false := rfl
  obtain ⟨o, ho, hp⟩ : ∃ o, (if tp then CRef.TruePeak.create (ieeeEnv m bs t) rate n else Run.done none) = .done o ∧
      ((∃ factor sc tp', (factor = 2 ∨ factor = 4) ∧ (Filter.init (ieeeEnv m bs t) rate n sp tp).tp = some sc ∧
        o = some tp' ∧ PeakTracks m bs t factor n ((rate + 5) / 10 * 4) A sc (List.replicate n (Fl.zero false)) tp'
          (List.replicate n (Fl.zero false))) ∨ ((Filter.init (ieeeEnv m bs t) rate n sp tp).tp = none ∧ o = none)) := by
    cases tp with
    | false => exact ⟨none, rfl, Or.inr ⟨rfl, rfl⟩⟩
    | true =>
      simp only [if_true, Filter.init]
      cases ho : oversampling rate with
      | none =>
        have h192 : 192000 ≤ rate := by
          unfold oversampling at ho
          split at ho
          · cases ho
          · split at ho
            · cases ho
            · omega
        obtain ⟨h1, h2⟩ := C64_none (m := m) (bs := bs) (t := t) (n := n) h192
        rw [Scanner.new_eq] at h1
        exact ⟨none, h2, Or.inr ⟨Run.done.inj h1, rfl⟩⟩
      | some p =>
        obtain ⟨taps, factor⟩ := p
        obtain ⟨sc, tp', h1, h2, hf, h3⟩ := PeakTracks.init (m := m) (bs := bs) (t := t) (n := n) ho A A0
        rw [Scanner.new_eq] at h1
        rw [zero_p] at h3
        exact ⟨some tp', h2, Or.inl ⟨factor, sc, tp', hf, Run.done.inj h1, rfl, h3⟩⟩
  refine ⟨_, ⟨n, (CRef.coefficients (ieeeEnv m bs t) rate).1, (CRef.coefficients (ieeeEnv m bs t) rate).2,
    List.replicate n (zeroV5 (ieeeEnv m bs t)), sp, List.replicate n (ieeeEnv m bs t).f64.zero, o,
    List.replicate n (ieeeEnv m bs t).f64.zero⟩, Filter.new_eq _ hr hn sp tp, ?_,
    ⟨i1, i2, by simp, rfl, by simp, by simp, by simp, ?_⟩⟩
  · unfold CRef.Filter.create
    simp only [Run.bind_eq]
    cases tp with
    | false =>
      obtain rfl : none = o := by simpa using ho
      rfl
    | true =>
      have ho : CRef.TruePeak.create (ieeeEnv m bs t) rate n = .done o := by simpa using ho
      simp only [if_true, ho, Run.done_bind]
      rfl
  · rcases hp with ⟨factor, sc, tp', hf, h1, h2, h3⟩ | ⟨h1, h2⟩
    · exact Or.inl ⟨factor, sc, tp', hf, h1, h2, h3⟩
    · exact Or.inr ⟨h1, h2, rfl, rfl⟩

/-- **C64, filters.** The true peaks that the two filters keep, after any calls, at any rate and with any settings. -/
theorem C64_filter (hm : TrigWithin m (1 / 2 ^ 30)) {rate n L : Nat} (hr : 0 < rate) (hn : 0 < n) (hL : 0 < L) {A : ℝ}
    (A0 : 0 ≤ A) (hA : A ≤ 2 ^ 100) (sp tp : Bool) (calls : List FilterCall) (ok : ∀ call ∈ calls, call.Fits n L rate A) :
    ∃ f planar g inter, rustFilter (ieeeEnv m bs t) rate n L sp tp calls = .done (f, planar) ∧
      cFilter (ieeeEnv m bs t) rate n L sp tp calls = .done (g, inter) ∧
      f.truePeak.length = n ∧ g.truePeak.length = n ∧
      ∀ c < n, ∃ p q, f.truePeak[c]? = some p ∧ g.truePeak[c]? = some q ∧ p.Finite ∧ q.Finite ∧
        |p.value - q.value| ≤ peakGap A := by
  obtain ⟨f0, g0, h1, h2, h3⟩ := FilterTracks.init (m := m) (bs := bs) (t := t) (L := L) hr hn A0 sp tp
  have main : ∀ (calls : List FilterCall), (∀ call ∈ calls, call.Fits n L rate A) → ∀ {st st'},
      FilterTracks m bs t rate n L A st st' → ∃ s s', Run.foldL (rustCall (ieeeEnv m bs t) n) st calls = .done s ∧
      Run.foldL (cCall (ieeeEnv m bs t) n) st' calls = .done s' ∧ FilterTracks m bs t rate n L A s s' := by
    intro calls
    induction calls with
    | nil => intro _ st st' h; exact ⟨_, _, rfl, rfl, h⟩
    | cons call calls ih =>
      intro ok st st' h
      rw [List.forall_mem_cons] at ok
      obtain ⟨s1, s1', a1, a2, a3⟩ := h.step hm A0 hA hn hL ok.1
      obtain ⟨s2, s2', b1, b2, b3⟩ := ih ok.2 a3
      exact ⟨_, _, by rw [Run.foldL, a1, Run.done_bind, b1], by rw [Run.foldL, a2, Run.done_bind, b2], b3⟩
  obtain ⟨⟨f, planar⟩, ⟨g, inter⟩, r1, r2, r3⟩ := main calls ok h3
  refine ⟨f, planar, g, inter, ?_, ?_, ?_⟩
  · simp only [rustFilter, Run.bind_eq, h1, Run.done_bind, r1]
  · simp only [cFilter, Run.bind_eq, h2, Run.done_bind, r2]
  · rcases r3.peaks with ⟨factor, sc, tp, -, -, -, p⟩ | ⟨-, -, p1, p2⟩
    · exact ⟨p.lengthR, p.lengthC, fun c hc => p.gap A0 hc⟩
    · dsimp only at p1 p2
      rw [p1, p2]
      refine ⟨by simp, by simp, fun c hc => ⟨Fl.zero false, Fl.zero false, by simp [hc], by simp [hc], ?_, ?_, ?_⟩⟩
      · exact ⟨false, 0, _, rfl, by decide⟩
      · exact ⟨false, 0, _, rfl, by decide⟩
      · rw [sub_self, abs_zero]
        unfold peakGap
        positivity

/-- For samples up to full scale the difference is below the `4e-6` that the crate's tests accept. -/
theorem C64_gap : peakGap 1 < 4 / 10 ^ 6 := by
  unfold peakGap
  norm_num

/-! ## Examples -/

/-- One channel at 48 kHz: the full scale of all four formats, in both directions. -/
def Demo.calls64 : List FilterCall :=
  [.process (.short [0, 32767, -32768]) 0 [.center], .resetPeaks,
   .process (.int [2147483647, -2147483648]) 0 [.center],
   .process (.float [Fl.lit Fmt.b32 1 1, Fl.lit Fmt.b32 (-1) 1]) 1 [.center]]

example : ∀ call ∈ Demo.calls64, call.Fits 1 3 48000 1 := by
  intro call h
  simp only [Demo.calls64, List.mem_cons, List.not_mem_nil, or_false] at h
  rcases h with rfl | rfl | rfl | rfl
  · refine ⟨rfl, by decide, rfl, by decide, ?_⟩
    intro x hx
    simp only [List.mem_cons, List.not_mem_nil, or_false] at hx
    have h1 : (0 : Int16).toInt = 0 ∧ (32767 : Int16).toInt = 32767 ∧ (-32768 : Int16).toInt = -32768 := by decide
    rcases hx with rfl | rfl | rfl
    · rw [h1.1]; norm_num
    · rw [h1.2.1]; norm_num [abs_le]
    · rw [h1.2.2]; norm_num
  · trivial
  · refine ⟨rfl, by decide, rfl, by decide, ?_⟩
    intro x hx
    simp only [List.mem_cons, List.not_mem_nil, or_false] at hx
    have h1 : (2147483647 : Int32).toInt = 2147483647 ∧ (-2147483648 : Int32).toInt = -2147483648 := by decide
    rcases hx with rfl | rfl
    · rw [h1.1]; norm_num [abs_le]
    · rw [h1.2]; norm_num
  · refine ⟨rfl, by decide, rfl, by decide, ?_⟩
    intro x hx
    simp only [List.mem_cons, List.not_mem_nil, or_false] at hx
    have k1 : Fl.lit Fmt.b32 1 1 = .num false (127 * 2 ^ 23) (by decide) := by decide +kernel
    have k2 : Fl.lit Fmt.b32 (-1) 1 = .num true (127 * 2 ^ 23) (by decide) := by decide +kernel
    rcases hx with rfl | rfl
    · rw [k1]
      refine ⟨⟨_, _, _, rfl, by decide⟩, ?_⟩
      have : Fmt.b32.mag 1065353216 = 2 ^ Fmt.b32.u := by decide +kernel
      simp [Fl.value, this]
    · rw [k2]
      refine ⟨⟨_, _, _, rfl, by decide⟩, ?_⟩
      have : Fmt.b32.mag 1065353216 = 2 ^ Fmt.b32.u := by decide +kernel
      simp [Fl.value, this]

/-- The peak of one channel after the given samples. -/
def Demo.rustPeak (E : Env F64 F32) (l : List Int16) : F64 :=
  match Scanner.new E 48000 1 with
  | .done (some sc) => match Spec.rustPeak E 1 (sc, [Fl.zero false]) (.check (.short l)) with
    | .done (_, [p]) => p
    | _ => .nan
  | _ => .nan

def Demo.cPeak (E : Env F64 F32) (l : List Int16) : F64 :=
  match CRef.TruePeak.create E 48000 1 with
  | .done (some tp) => match Spec.cPeak E 1 (tp, [Fl.zero false]) (.check (.short l)) with
    | .done (_, [p]) => p
    | _ => .nan
  | _ => .nan

/-- The two peaks are near 0.0163; that of the crate is larger by one unit in the last place of an `f32`. -/
example : Demo.rustPeak (Demo.envReal false) [32767, -32768] = .num false 4578066173538598912 (by decide) := by
  decide +kernel

example : Demo.cPeak (Demo.envReal false) [32767, -32768] = .num false 4578066173001728000 (by decide) := by
  decide +kernel

example : 4578066173538598912 = 4578066173001728000 + 2 ^ (52 - 23) := by norm_num

end Verif
