import Verif.Proofs.PeakScan
import Verif.Proofs.Pieces
import Verif.Proofs.Safe
/-!
# Peaks across calls
-/

namespace Verif
variable {T : Type}
open Fl

variable (m : Libm F64) (bs : BSearch) (t : Target)

/-- Pattern of the sample peak of channel `c` over some frames. -/
def Filter.sKey (t : Target) (ops : SampleOps F64 F32 T) (f : Filter F64 F32) (fs : List (List T)) (c : Nat) : Nat :=
  if f.calculateSamplePeak then maxKey (sampleKey t ops) (column c fs) else 0

/-- Pattern (in `f32`) of the true peak of channel `c` over some frames. -/
def Filter.tKey (ops : SampleOps F64 F32 T) (f : Filter F64 F32) (fs : List (List T)) (c : Nat) : Nat :=
  match f.tp with
  | some sc => sc.key m bs t ops fs c
  | none => 0

/-- The per-call peaks of channel `c`, as patterns. -/
structure FPeak (t : Target) (f : Filter F64 F32) (c a q : Nat) : Prop where
  sample : f.samplePeak[c]? = some (pk _ a)
  true : f.truePeak[c]? = some (pk _ (wkey q))
  key : TpKey t q

theorem Filter.processP_peak {ops : SampleOps F64 F32 T} (ho : ops.AmpOk) {f : Filter F64 F32} {n : Nat}
    (h : f.Inv n) (hr : f.RectTp) {fs : List (List T)} (hf : RectF n fs) {cm : List Channel}
    {c : Nat} (hc : c < n) {a q : Nat} (hp : FPeak t f c a q) :
    FPeak t (f.processP (ieeeEnv m bs t) ops fs cm) c (max a (f.sKey t ops fs c)) (max q (f.tKey m bs t ops fs c)) where
  sample := by
    simp only [Filter.processP, samplePeaksP, Filter.sKey]
    split
    · rw [List.getElem?_map, List.getElem?_zipIdx, hp.sample]
      simp only [Option.map_some, Nat.zero_add]
      rw [samplePeak_step m bs t ho]
    · rw [hp.sample]; congr 2; omega
  true := by
    simp only [Filter.processP, Filter.tKey]
    cases htp : f.tp with
    | none => simp only; rw [hp.true, Nat.max_zero]
    | some sc =>
      exact Scanner.checkP_peak m bs t ops (h.tp sc htp) (hr sc htp) hc hf h.truePeak hp.key hp.true
  key := by
    refine hp.key.max ?_
    unfold Filter.tKey
    split
    · exact Scanner.key_tp m bs t ops _ fs c
    · exact TpKey.zero t

theorem Filter.processP_tp (ops : SampleOps F64 F32 T) {f : Filter F64 F32} {n : Nat} (h : f.Inv n)
    (fs : List (List T)) (cm : List Channel) :
    (f.processP (ieeeEnv m bs t) ops fs cm).tp = f.tp.map (Scanner.feed (ieeeEnv m bs t) ops fs) := by
  simp only [Filter.processP]
  cases htp : f.tp with
  | none => rfl
  | some sc =>
    simp only [Option.map_some]
    rw [Scanner.checkP_fst _ ops (h.tp sc htp) fs h.truePeak]

theorem Filter.pieces_peak {ops : SampleOps F64 F32 T} (ho : ops.AmpOk) {n : Nat} {cm : List Channel}
    (hcm : cm.length = n) {c : Nat} (hc : c < n) (ps : List (List (List T))) :
    ∀ {f : Filter F64 F32} {a q : Nat}, f.Inv n → f.RectTp → RectF n ps.flatten → FPeak t f c a q →
      FPeak t (f.pieces (ieeeEnv m bs t) ops cm ps) c (max a (f.sKey t ops ps.flatten c))
        (max q (f.tKey m bs t ops ps.flatten c)) ∧
      (f.pieces (ieeeEnv m bs t) ops cm ps).tp = f.tp.map (Scanner.feed (ieeeEnv m bs t) ops ps.flatten) ∧
      (f.pieces (ieeeEnv m bs t) ops cm ps).calculateSamplePeak = f.calculateSamplePeak := by
  induction ps with
  | nil =>
    intro f a q _ _ _ hp
    refine ⟨?_, ?_, rfl⟩
    · have h1 : f.sKey t ops [] c = 0 := by simp [Filter.sKey, column, maxKey_nil]
      have h2 : f.tKey m bs t ops [] c = 0 := by
        unfold Filter.tKey Scanner.key
        split
        · split
          · simp [column, Interp.peakKey]
          · rfl
        · rfl
      rw [List.flatten_nil, h1, h2]
      rw [Nat.max_zero, Nat.max_zero]; exact hp
    · simp only [Filter.pieces, List.foldl_nil, List.flatten_nil]
      cases f.tp with
      | none => rfl
      | some sc => simp [Scanner.feed_nil]
  | cons p ps ih =>
    intro f a q hi hr hf hp
    rw [List.flatten_cons] at hf
    have hf1 : RectF n p := fun g hg => hf g (by simp [hg])
    have hf2 : RectF n ps.flatten := fun g hg => hf g (by simp only [List.mem_append, hg, or_true])
    obtain ⟨hi', hr'⟩ := Filter.processP_inv (ieeeEnv m bs t) ops hi hr hf1 hcm
    have hp' := Filter.processP_peak m bs t ho hi hr hf1 (cm := cm) hc hp
    obtain ⟨g1, g2, g3⟩ := ih hi' hr' hf2 hp'
    have htp := Filter.processP_tp m bs t ops hi p cm
    have hs : f.sKey t ops (p :: ps).flatten c =
        max (f.sKey t ops p c) ((f.processP (ieeeEnv m bs t) ops p cm).sKey t ops ps.flatten c) := by
      unfold Filter.sKey
      rw [List.flatten_cons, column_append, maxKey_append]
      show (if f.calculateSamplePeak then _ else _) = max _ (if f.calculateSamplePeak then _ else _)
      split <;> simp
    have ht : f.tKey m bs t ops (p :: ps).flatten c =
        max (f.tKey m bs t ops p c) ((f.processP (ieeeEnv m bs t) ops p cm).tKey m bs t ops ps.flatten c) := by
      unfold Filter.tKey
      rw [htp]
      cases h1 : f.tp with
      | none => rfl
      | some sc =>
        simp only [Option.map_some, List.flatten_cons]
        exact Scanner.key_append m bs t ops (hi.tp sc h1) (hr sc h1) hc hf1 _
    refine ⟨?_, ?_, g3⟩
    · rw [hs, ht, ← Nat.max_assoc, ← Nat.max_assoc]; exact g1
    · show ((f.processP (ieeeEnv m bs t) ops p cm).pieces (ieeeEnv m bs t) ops cm ps).tp = _
      rw [g2, htp, Option.map_map, List.flatten_cons]
      congr 1
      funext sc
      simp only [Function.comp, Scanner.feed_append]

/-! ## Whole analyzer -/

/-- All peaks of channel `c` as patterns: `a`, `q` of the last call, `A`, `Q` overall. -/
structure EPeak (t : Target) (e : Ebu F64 F32) (c a q A Q : Nat) : Prop where
  last : FPeak t e.filter c a q
  sample : e.samplePeak[c]? = some (pk _ A)
  true : e.truePeak[c]? = some (pk _ (wkey Q))
  key : TpKey t Q

theorem resetPeaks_peak {f : Filter F64 F32} {n : Nat} (h : f.Inv n) {c : Nat} (hc : c < n) :
    FPeak t (f.resetPeaks (ieeeEnv m bs t)) c 0 0 where
  sample := by
    simp only [Filter.resetPeaks, List.getElem?_map, ieee_f64, arith_zero, zero_eq_pk,
      List.getElem?_eq_getElem (show c < f.samplePeak.length by rw [h.samplePeak]; exact hc), Option.map_some]
  true := by
    rw [wkey_zero]
    simp only [Filter.resetPeaks, List.getElem?_map, ieee_f64, arith_zero, zero_eq_pk,
      List.getElem?_eq_getElem (show c < f.truePeak.length by rw [h.truePeak]; exact hc), Option.map_some]
  key := TpKey.zero t

theorem updatePeak_get {l p : List F64} {c A B : Nat} (h1 : l[c]? = some (pk _ A)) (h2 : p[c]? = some (pk _ B)) :
    (Ebu.updatePeaks.updatePeak (ieeeEnv m bs t) l p)[c]? = some (pk _ (max A B)) := by
  unfold Ebu.updatePeaks.updatePeak
  have hl1 := (List.getElem?_eq_some_iff.1 h1).1
  have hl2 := (List.getElem?_eq_some_iff.1 h2).1
  rw [List.getElem?_append_left (by rw [List.length_zipWith]; omega), List.getElem?_zipWith, h1, h2]
  simp only [ieee_f64, arith_lt, maxBy_pk]

/-- Peaks after a feeding call with at least one frame. -/
theorem Ebu.FedBy.peak {ops : SampleOps F64 F32 T} (ho : ops.AmpOk) {e e' : Ebu F64 F32}
    (hi : e.Inv (ieeeEnv m bs t)) {r : Except Error Unit} {fs : List (List T)} (hf : RectF e.channels fs)
    (h : Ebu.FedBy (ieeeEnv m bs t) ops e e' r fs) :
    ∃ fed rest, fs = fed ++ rest ∧ (r = .ok () → rest = []) ∧
      e'.filter.tp = e.filter.tp.map (Scanner.feed (ieeeEnv m bs t) ops fed) ∧
      ∀ c, c < e.channels → ∀ a q A Q, EPeak t e c a q A Q →
        EPeak t e' c (e.filter.sKey t ops fed c) (e.filter.tKey m bs t ops fed c)
          (if r.isOk then max A (e.filter.sKey t ops fed c) else A)
          (if r.isOk then max Q (e.filter.tKey m bs t ops fed c) else Q) := by
  obtain ⟨ps, rest, h1, h2, h3, h4⟩ := h
  have hrect : RectF e.channels ps.flatten := fun g hg => hf g (by rw [h1]; simp only [List.mem_append, hg, true_or])
  obtain ⟨ri, rr⟩ := Filter.resetPeaks_inv (ieeeEnv m bs t) hi.filter hi.rect
  have key : ∀ c, c < e.channels → FPeak t e'.filter c (e.filter.sKey t ops ps.flatten c)
      (e.filter.tKey m bs t ops ps.flatten c) := by
    intro c hc
    have := (Filter.pieces_peak m bs t ho hi.map hc ps ri rr hrect (resetPeaks_peak m bs t hi.filter hc)).1
    rw [← h3, Nat.zero_max, Nat.zero_max] at this
    exact this
  refine ⟨ps.flatten, rest, h1, h2, ?_, ?_⟩
  · have := (Filter.pieces_peak m bs t ho hi.map (c := 0) (by have := hi.ch1; omega) ps ri rr hrect
      (resetPeaks_peak m bs t hi.filter (by have := hi.ch1; omega))).2.1
    rw [← h3] at this
    exact this
  · intro c hc a q A Q hp
    have hk := key c hc
    cases r with
    | error x =>
      refine ⟨hk, ?_, ?_, ?_⟩
      · rw [h4.1]; exact hp.sample
      · rw [h4.2]; exact hp.true
      · exact hp.key
    | ok u =>
      refine ⟨hk, ?_, ?_, hp.key.max hk.key⟩
      · rw [h4.1]; exact updatePeak_get m bs t hp.sample hk.sample
      · rw [h4.2]
        simp only [Except.isOk, Except.toBool, if_true]
        rw [wkey_max]
        exact updatePeak_get m bs t hp.true hk.true

/-! ## The amplitude side condition -/

theorem lit_amp (n : Nat) (h0 : 0 < n) (hn : n ≤ 2 * 2 ^ Fmt.b64.mb) :
    Fmt.b64.mag (mkey (Fl.lit Fmt.b64 (n : Int) 1)) = n * 2 ^ Fmt.b64.u ∧
    0 < mkey (Fl.lit Fmt.b64 (n : Int) 1) ∧ mkey (Fl.lit Fmt.b64 (n : Int) 1) < Fmt.b64.infK ∧
      Fl.lit Fmt.b64 (n : Int) 1 = pk _ (mkey (Fl.lit Fmt.b64 (n : Int) 1)) := by
  obtain ⟨h1, h2⟩ := mag_rnd_int Fmt.ok64 hn
  rw [lit_pos]
  refine ⟨h1, ?_, h2, (pk_eq _).symm⟩
  show 0 < Fmt.b64.rnd _ 1
  rw [← mag_pos_iff (φ := Fmt.b64), h1]
  exact Nat.mul_pos h0 (Nat.two_pow_pos _)

theorem amp_mb : 2147483648 ≤ 2 * 2 ^ Fmt.b64.mb := by rw [Fmt.mb64]; omega

theorem f32Ops_amp : (f32Ops (ieeeEnv m bs t)).AmpOk := by
  have h := lit_amp 1 (by omega) (by have := amp_mb; omega)
  have e : (f32Ops (ieeeEnv m bs t)).maxAmp = Fl.lit Fmt.b64 ((1 : Nat) : Int) 1 := by simp [f32Ops]
  exact ⟨by rw [e]; exact h.2.1, by rw [e]; exact h.2.2.1, by rw [e]; exact h.2.2.2⟩

theorem f64Ops_amp : (f64Ops (ieeeEnv m bs t)).AmpOk := by
  have h := lit_amp 1 (by omega) (by have := amp_mb; omega)
  have e : (f64Ops (ieeeEnv m bs t)).maxAmp = Fl.lit Fmt.b64 ((1 : Nat) : Int) 1 := by simp [f64Ops]
  exact ⟨by rw [e]; exact h.2.1, by rw [e]; exact h.2.2.1, by rw [e]; exact h.2.2.2⟩

theorem i16Ops_amp : (i16Ops (ieeeEnv m bs t)).AmpOk := by
  have h := lit_amp 32768 (by omega) (by have := amp_mb; omega)
  have e : (i16Ops (ieeeEnv m bs t)).maxAmp = Fl.lit Fmt.b64 ((32768 : Nat) : Int) 1 := by simp [i16Ops]
  exact ⟨by rw [e]; exact h.2.1, by rw [e]; exact h.2.2.1, by rw [e]; exact h.2.2.2⟩

theorem i32Ops_amp : (i32Ops (ieeeEnv m bs t)).AmpOk := by
  have h := lit_amp 2147483648 (by omega) amp_mb
  have e : (i32Ops (ieeeEnv m bs t)).maxAmp = Fl.lit Fmt.b64 ((2147483648 : Nat) : Int) 1 := by simp [i32Ops]
  exact ⟨by rw [e]; exact h.2.1, by rw [e]; exact h.2.2.1, by rw [e]; exact h.2.2.2⟩

theorem decode_amp (n : Nat) (x : Input F64 F32) : (x.decode (ieeeEnv m bs t) n).ops.AmpOk := by
  cases x
  · exact i16Ops_amp m bs t
  · exact i32Ops_amp m bs t
  · exact f32Ops_amp m bs t
  · exact f64Ops_amp m bs t
  · exact i16Ops_amp m bs t
  · exact i32Ops_amp m bs t
  · exact f32Ops_amp m bs t
  · exact f64Ops_amp m bs t

/-! ## Calls -/

/-- All four peak lists, the channel count and the rate are as before. -/
structure Ebu.SamePeaks {D S : Type} (e e' : Ebu D S) : Prop where
  sample : e'.samplePeak = e.samplePeak
  true : e'.truePeak = e.truePeak
  lastSample : e'.filter.samplePeak = e.filter.samplePeak
  lastTrue : e'.filter.truePeak = e.filter.truePeak
  channels : e'.channels = e.channels
  rate : e'.rate = e.rate

theorem Ebu.SamePeaks.refl {D S : Type} (e : Ebu D S) : e.SamePeaks e := ⟨rfl, rfl, rfl, rfl, rfl, rfl⟩

/-- An input of the right layout with at least one frame. -/
def Input.Fits {D S : Type} (E : Env D S) (n : Nat) (x : Input D S) : Prop :=
  x.Ok n ∧ x.width n = n ∧ (x.decode E n).frames ≠ []

/-- What a call other than `add_frames`, `reset` and an effective `change_parameters` does to the interpolators:
nothing, except that seeding feeds them. -/
def TpStep {D S : Type} (E : Env D S) (e e' : Ebu D S) (op : Op D S) (r : Except Error Unit) : Prop :=
  (∀ x, op = .seedFrames x →
    (x.Ok e.channels ∧ x.width e.channels = e.channels ∧ r = .ok () ∧ e'.filter.tp = e.filter.tp.map
      (Scanner.feed E (x.decode E e.channels).ops (x.decode E e.channels).frames)) ∨
    (r ≠ .ok () ∧ e'.filter.tp = e.filter.tp)) ∧
  ((∀ x, op ≠ .seedFrames x) → e'.filter.tp = e.filter.tp)

theorem TpStep.same {D S : Type} {E : Env D S} {e e' : Ebu D S} {op : Op D S} {r : Except Error Unit}
    (hop : ∀ x, op ≠ .seedFrames x) (h : e'.filter.tp = e.filter.tp) : TpStep E e e' op r :=
  ⟨fun x hx => absurd hx (hop x), fun _ => h⟩

/-- What a call does to the peaks. -/
theorem step_peaks {D S : Type} {E : Env D S} {e e' : Ebu D S} (hi : e.Inv E) {op : Op D S}
    {r : Except Error Unit} (hs : step E e op = .done (e', r)) :
    (e.SamePeaks e' ∧ TpStep E e e' op r ∧ ∀ x, op = .addFrames x → ¬ x.Fits E e.channels ∧ e' = e ∧
      (r = .ok () → x.Ok e.channels ∧ (x.decode E e.channels).frames = [])) ∨
    (∃ x, op = .addFrames x ∧ x.Fits E e.channels ∧
      Ebu.FedBy E (x.decode E e.channels).ops e e' r (x.decode E e.channels).frames ∧ e.SameCfg e' ∧
      e'.Inv E) ∨
    (op = .reset ∧ e' = e.resetP E) ∨
    (∃ c w, op = .changeParameters c w ∧ e' = e.changeP E c.toNat w.toNat ∧ r = .ok () ∧
      ¬ (e.rate = w.toNat ∧ e.channels = c.toNat)) := by
  cases op with
  | addFrames x =>
    have hs' : e.addInput E x = .done (e', r) := hs
    by_cases hx : x.Ok e.channels
    · by_cases hw : x.width e.channels = e.channels
      · by_cases h0 : (x.decode E e.channels).frames = []
        · left
          have : e' = e := by
            have inter : ∀ {T : Type} (ops : SampleOps D S T) (l : List T), interOk e.channels l →
                interFrames e.channels l = [] → e.addInterleaved E ops l = .done (e', r) → e' = e := by
              intro T ops l hl h0 hs
              simp only [Ebu.addInterleaved, (interleaved_new_eq _ _).1 hl] at hs
              unfold Ebu.addFrames at hs
              rw [LawfulSamples.frames_eq (interOk_wf hl), if_pos (by
                show (interFrames e.channels l).length = 0
                rw [h0]; rfl)] at hs
              cases hs; rfl
            have plan : ∀ {T : Type} (ops : SampleOps D S T) (l : List (List T)), planarOk l →
                planarFrames l = [] → e.addPlanar E ops l = .done (e', r) → e' = e := by
              intro T ops l hl h0 hs
              simp only [Ebu.addPlanar, (planar_new_eq _).1 hl] at hs
              unfold Ebu.addFrames at hs
              rw [LawfulSamples.frames_eq (planarOk_wf hl), if_pos (by
                rw [planar_toFrames, h0]; rfl)] at hs
              cases hs; rfl
            cases x
            · exact inter _ _ hx h0 hs'
            · exact inter _ _ hx h0 hs'
            · exact inter _ _ hx h0 hs'
            · exact inter _ _ hx h0 hs'
            · exact plan _ _ hx h0 hs'
            · exact plan _ _ hx h0 hs'
            · exact plan _ _ hx h0 hs'
            · exact plan _ _ hx h0 hs'
          subst this
          exact ⟨Ebu.SamePeaks.refl _, TpStep.same nofun rfl, fun y hy => by cases hy; exact ⟨fun hf => hf.2.2 h0, rfl, fun _ => ⟨hx, h0⟩⟩⟩
        · right; left
          refine ⟨x, rfl, ⟨hx, hw, h0⟩, Ebu.addInput_pieces hi hx hw h0 hs', ?_⟩
          rcases Ebu.addInput_cases hi x with hp | ⟨e1, r1, h1, h2, h3⟩
          · rw [hp] at hs'; cases hs'
          · rw [h1] at hs'; cases hs'; exact ⟨h3, h2⟩
      · left
        have h1 := Ebu.addInput_wrong hi hx hw hs
        have := h1.1
        subst this
        have h2 : (x.decode E e'.channels).frames = [] := by
          have plan : ∀ {T : Type} (ops : SampleOps D S T) (l : List (List T)), planarOk l →
              l.length ≠ e'.channels → e'.addPlanar E ops l = .done (e', r) → planarFrames l = [] := by
            intro T ops l hl hc hs
            simp only [Ebu.addPlanar, (planar_new_eq _).1 hl] at hs
            rw [Ebu.addFrames_wrong ops hi (planarOk_wf hl) (by exact hc)] at hs
            split at hs
            · next h0 => rw [LawfulSamples.frames_eq (planarOk_wf hl), planar_toFrames] at h0; exact List.length_eq_zero_iff.1 h0
            · cases hs
          cases x
          · exact absurd rfl hw
          · exact absurd rfl hw
          · exact absurd rfl hw
          · exact absurd rfl hw
          · exact plan _ _ hx hw hs'
          · exact plan _ _ hx hw hs'
          · exact plan _ _ hx hw hs'
          · exact plan _ _ hx hw hs'
        exact ⟨Ebu.SamePeaks.refl _, TpStep.same nofun rfl, fun y hy => by
          cases hy; exact ⟨fun hf => hw hf.2.1, rfl, fun _ => ⟨hx, h2⟩⟩⟩
    · left
      rw [(Ebu.addInput_err hx).1] at hs'
      cases hs'
      exact ⟨Ebu.SamePeaks.refl _, TpStep.same nofun rfl, fun y hy => by cases hy; exact ⟨fun hf => hx hf.1, rfl, nofun⟩⟩
  | seedFrames x =>
    left
    have hs' : e.seedInput E x = .done (e', r) := hs
    by_cases hx : x.Ok e.channels
    · by_cases hw : x.width e.channels = e.channels
      · rw [Ebu.seedInput_eq hi hx hw] at hs'
        cases hs'
        refine ⟨⟨rfl, rfl, rfl, rfl, rfl, rfl⟩, ⟨?_, fun h => absurd rfl (h x)⟩, nofun⟩
        intro y hy; cases hy; exact .inl ⟨hx, hw, rfl, rfl⟩
      · rw [Ebu.seedInput_wrong hi hx hw] at hs'; cases hs'
    · rw [(Ebu.addInput_err hx).2] at hs'
      cases hs'
      exact ⟨Ebu.SamePeaks.refl _, ⟨fun y hy => .inr ⟨nofun, rfl⟩, fun _ => rfl⟩, nofun⟩
  | setChannel n v =>
    left
    refine (fun (h : e.SamePeaks e' ∧ e'.filter.tp = e.filter.tp) => ⟨h.1, TpStep.same nofun h.2, nofun⟩) ?_
    simp only [step, Ebu.setChannel] at hs
    split at hs
    · cases hs; exact ⟨Ebu.SamePeaks.refl _, rfl⟩
    · split at hs
      · cases hs; exact ⟨Ebu.SamePeaks.refl _, rfl⟩
      · split at hs
        · cases hs; exact ⟨⟨rfl, rfl, rfl, rfl, rfl, rfl⟩, rfl⟩
        · cases hs
  | setChannelMap mp =>
    left
    refine (fun (h : e.SamePeaks e' ∧ e'.filter.tp = e.filter.tp) => ⟨h.1, TpStep.same nofun h.2, nofun⟩) ?_
    simp only [step, Ebu.setChannelMap] at hs
    split at hs
    · cases hs; exact ⟨Ebu.SamePeaks.refl _, rfl⟩
    · split at hs
      · cases hs; exact ⟨Ebu.SamePeaks.refl _, rfl⟩
      · split at hs
        · cases hs; exact ⟨⟨rfl, rfl, rfl, rfl, rfl, rfl⟩, rfl⟩
        · cases hs
  | changeParameters c w =>
    simp only [step] at hs
    rw [Ebu.changeParameters_eq hi] at hs
    split at hs
    · left; cases hs; exact ⟨Ebu.SamePeaks.refl _, TpStep.same nofun rfl, fun y hy => by cases hy⟩
    · split at hs
      · left; cases hs; exact ⟨Ebu.SamePeaks.refl _, TpStep.same nofun rfl, fun y hy => by cases hy⟩
      · next hne =>
        obtain ⟨a, ha, hs⟩ := Run.bind_done hs
        cases a with
        | error x => left; cases hs; exact ⟨Ebu.SamePeaks.refl _, TpStep.same nofun rfl, fun y hy => by cases hy⟩
        | ok l => right; right; right; cases hs; exact ⟨c, w, rfl, rfl, rfl, hne⟩
  | setMaxWindow w =>
    left
    refine (fun (h : e.SamePeaks e' ∧ e'.filter.tp = e.filter.tp) => ⟨h.1, TpStep.same nofun h.2, nofun⟩) ?_
    simp only [step, Ebu.setMaxWindow] at hs
    split at hs
    · cases hs; exact ⟨Ebu.SamePeaks.refl _, rfl⟩
    · simp only [Run.bind_eq] at hs
      obtain ⟨a, ha, hs⟩ := Run.bind_done hs
      cases a with
      | error x => cases hs; exact ⟨Ebu.SamePeaks.refl _, rfl⟩
      | ok l => cases hs; exact ⟨⟨rfl, rfl, rfl, rfl, rfl, rfl⟩, rfl⟩
  | setMaxHistory x =>
    left
    refine (fun (h : e.SamePeaks e' ∧ e'.filter.tp = e.filter.tp) => ⟨h.1, TpStep.same nofun h.2, nofun⟩) ?_
    simp only [step, Ebu.setMaxHistory] at hs
    split at hs
    · cases hs; exact ⟨Ebu.SamePeaks.refl _, rfl⟩
    · cases hs; exact ⟨⟨rfl, rfl, rfl, rfl, rfl, rfl⟩, rfl⟩
  | reset =>
    right; right; left
    simp only [step, Run.bind_eq, (Ebu.reset_eq hi).1, Run.done_bind] at hs
    cases hs
    exact ⟨rfl, rfl⟩

/-- All peaks of every channel are patterns, and without interpolator the per-call true peak stays zero. -/
def PkInv (t : Target) (e : Ebu F64 F32) : Prop :=
  ∀ c, c < e.channels → ∃ a q A Q, EPeak t e c a q A Q ∧ (e.filter.tp = none → q = 0)

theorem TpStep.none {D S : Type} {E : Env D S} {e e' : Ebu D S} {op : Op D S} {r : Except Error Unit}
    (h : TpStep E e e' op r) : e'.filter.tp = none ↔ e.filter.tp = none := by
  by_cases hop : ∃ x, op = .seedFrames x
  · obtain ⟨x, hx⟩ := hop
    rcases h.1 x hx with ⟨-, -, -, h1⟩ | ⟨-, h1⟩
    · rw [h1, Option.map_eq_none_iff]
    · rw [h1]
  · rw [h.2 fun x hx => hop ⟨x, hx⟩]

theorem zeros_get {n c : Nat} (hc : c < n) :
    (List.replicate n ((ieeeEnv m bs t).f64.zero))[c]? = some (pk _ 0) := by
  rw [List.getElem?_replicate, if_pos hc]
  simp only [ieee_f64, arith_zero, zero_eq_pk]

theorem init_peak {c rate channels : Nat} (hc : c < channels) (sp tp : Bool) :
    FPeak t (Filter.init (ieeeEnv m bs t) rate channels sp tp) c 0 0 :=
  ⟨zeros_get m bs t hc, by rw [wkey_zero]; exact zeros_get m bs t hc, TpKey.zero t⟩

theorem EPeak.same {t : Target} {e e' : Ebu F64 F32} {c a q A Q : Nat} (h : EPeak t e c a q A Q)
    (hs : e.SamePeaks e') : EPeak t e' c a q A Q :=
  ⟨⟨by rw [hs.lastSample]; exact h.last.sample, by rw [hs.lastTrue]; exact h.last.true, h.last.key⟩,
    by rw [hs.sample]; exact h.sample, by rw [hs.true]; exact h.true, h.key⟩

theorem resetP_peak {e : Ebu F64 F32} (hi : e.Inv (ieeeEnv m bs t)) {c : Nat} (hc : c < e.channels) :
    EPeak t (e.resetP (ieeeEnv m bs t)) c 0 0 0 0 where
  last := by
    show FPeak t (e.filter.resetP (ieeeEnv m bs t)) c 0 0
    rw [hi.fresh]; exact init_peak m bs t hc _ _
  sample := by
    simp only [Ebu.resetP, map_const_eq, hi.samplePeak]; exact zeros_get m bs t hc
  true := by
    rw [wkey_zero]
    simp only [Ebu.resetP, map_const_eq, hi.truePeak]; exact zeros_get m bs t hc
  key := TpKey.zero t

theorem changeP_peak (e : Ebu F64 F32) {channels rate c : Nat} (hc : c < channels) (hne : e.channels ≠ channels) :
    EPeak t (e.changeP (ieeeEnv m bs t) channels rate) c 0 0 0 0 where
  last := init_peak m bs t hc _ _
  sample := by simp only [Ebu.changeP, if_pos hne]; exact zeros_get m bs t hc
  true := by rw [wkey_zero]; simp only [Ebu.changeP, if_pos hne]; exact zeros_get m bs t hc
  key := TpKey.zero t

theorem changeP_peak_same {e : Ebu F64 F32} {rate c a q A Q : Nat} (hc : c < e.channels)
    (h : EPeak t e c a q A Q) : EPeak t (e.changeP (ieeeEnv m bs t) e.channels rate) c 0 0 A Q where
  last := init_peak m bs t hc _ _
  sample := by simp only [Ebu.changeP]; rw [if_neg (fun hn => hn rfl)]; exact h.sample
  true := by simp only [Ebu.changeP]; rw [if_neg (fun hn => hn rfl)]; exact h.true
  key := h.key

theorem Input.Fits.rect {D S : Type} {E : Env D S} {n : Nat} {x : Input D S} (h : x.Fits E n) :
    RectF n (x.decode E n).frames := by
  have := Input.decode_rect E h.1
  rw [h.2.1] at this
  exact this

theorem PkInv.step {e e' : Ebu F64 F32} (hi : e.Inv (ieeeEnv m bs t)) (h : PkInv t e) {op : Op F64 F32}
    {r : Except Error Unit} (hs : Verif.step (ieeeEnv m bs t) e op = .done (e', r)) : PkInv t e' := by
  intro c hc
  rcases step_peaks hi hs with ⟨h1, h2, -⟩ | ⟨x, rfl, hx, h1, h2, -⟩ | ⟨rfl, rfl⟩ | ⟨ch, w, rfl, rfl, -, -⟩
  · rw [h1.channels] at hc
    obtain ⟨a, q, A, Q, hp, hq⟩ := h c hc
    exact ⟨a, q, A, Q, hp.same h1, fun h => hq (h2.none.1 h)⟩
  · rw [h2.channels] at hc
    obtain ⟨a, q, A, Q, hp, -⟩ := h c hc
    obtain ⟨fed, rest, -, -, h5, h6⟩ := h1.peak m bs t (decode_amp m bs t _ x) hi hx.rect
    refine ⟨_, _, _, _, h6 c hc a q A Q hp, fun hn => ?_⟩
    rw [h5, Option.map_eq_none_iff] at hn
    simp only [Filter.tKey, hn]
  · exact ⟨_, _, _, _, resetP_peak m bs t hi hc, fun _ => rfl⟩
  · by_cases hch : e.channels = ch.toNat
    · have hc' : c < ch.toNat := hc
      rw [← hch] at hc' ⊢
      obtain ⟨a, q, A, Q, hp, -⟩ := h c hc'
      exact ⟨_, _, _, _, changeP_peak_same m bs t hc' hp, fun _ => rfl⟩
    · exact ⟨_, _, _, _, changeP_peak m bs t e hc hch, fun _ => rfl⟩

theorem new_peak {channels rate : Nat} {mode : Mode} {e : Ebu F64 F32}
    (h : Ebu.new (ieeeEnv m bs t) channels rate mode = .done (.ok e)) {c : Nat} (hc : c < e.channels) :
    EPeak t e c 0 0 0 0 := by
  obtain ⟨rfl, -⟩ := Ebu.new_ok h
  exact ⟨init_peak m bs t hc _ _, zeros_get m bs t hc, by rw [wkey_zero]; exact zeros_get m bs t hc, TpKey.zero t⟩

theorem Reachable.pk {e : Ebu F64 F32} (h : Reachable (ieeeEnv m bs t) e) : PkInv t e := by
  obtain ⟨ch, rate, mode, e0, ops, h1, h2⟩ := h
  have key : ∀ (ops : List (Op F64 F32)) (e0 : Ebu F64 F32), e0.Inv (ieeeEnv m bs t) → PkInv t e0 →
      runOps (ieeeEnv m bs t) e0 ops = .done e → PkInv t e := by
    intro ops
    induction ops with
    | nil => intro e0 _ hp hr; cases hr; exact hp
    | cons op ops ih =>
      intro e0 hi hp hr
      simp only [runOps, Run.bind_eq] at hr
      obtain ⟨⟨e1, r⟩, g1, g2⟩ := Run.bind_done hr
      rcases step_cases hi op with hx | ⟨e2, r2, hx, hi2, -⟩
      · rw [hx] at g1; cases g1
      · rw [hx] at g1; cases g1
        exact ih e1 hi2 (PkInv.step m bs t hi hp hx) g2
  exact key ops e0 (Ebu.new_inv h1) (fun c hc => ⟨_, _, _, _, new_peak m bs t h1 hc, fun _ => rfl⟩) h2

end Verif
