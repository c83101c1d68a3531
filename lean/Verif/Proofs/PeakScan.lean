import Verif.Proofs.PeakFloat
import Verif.Proofs.FilterCore
/-!
# Peaks measured in one pass over some frames, channel by channel
-/

namespace Verif
variable {T : Type}
open Fl

/-- Largest value of `f` over a list, 0 for the empty list. -/
def maxKey {α : Type} (f : α → Nat) (xs : List α) : Nat := xs.foldl (fun m x => max m (f x)) 0

theorem foldl_maxKey {α : Type} (f : α → Nat) (xs : List α) (a : Nat) :
    xs.foldl (fun m x => max m (f x)) a = max a (maxKey f xs) := by
  unfold maxKey
  induction xs generalizing a with
  | nil => simp
  | cons x xs ih => simp only [List.foldl_cons]; rw [ih, ih (max 0 (f x))]; omega

theorem maxKey_nil {α : Type} (f : α → Nat) : maxKey f [] = 0 := rfl
theorem maxKey_cons {α : Type} (f : α → Nat) (x : α) (xs : List α) :
    maxKey f (x :: xs) = max (f x) (maxKey f xs) := by
  show (x :: xs).foldl _ _ = _
  rw [List.foldl_cons, foldl_maxKey]; omega
theorem maxKey_append {α : Type} (f : α → Nat) (xs ys : List α) :
    maxKey f (xs ++ ys) = max (maxKey f xs) (maxKey f ys) := by
  show (xs ++ ys).foldl _ _ = _
  rw [List.foldl_append, foldl_maxKey, foldl_maxKey]; omega
theorem le_maxKey {α : Type} (f : α → Nat) {x : α} {xs : List α} (h : x ∈ xs) : f x ≤ maxKey f xs := by
  induction xs with
  | nil => cases h
  | cons y ys ih =>
    rw [maxKey_cons]
    rcases List.mem_cons.1 h with h | h
    · subst h; omega
    · have := ih h; omega
theorem maxKey_le {α : Type} (f : α → Nat) {xs : List α} {b : Nat} (h : ∀ x ∈ xs, f x ≤ b) :
    maxKey f xs ≤ b := by
  induction xs with
  | nil => exact Nat.zero_le _
  | cons y ys ih =>
    rw [maxKey_cons]
    have h1 := h y (by simp)
    have h2 := ih fun x hx => h x (by simp [hx])
    omega
theorem maxKey_attained {α : Type} (f : α → Nat) (xs : List α) :
    maxKey f xs = 0 ∨ ∃ x ∈ xs, f x = maxKey f xs := by
  induction xs with
  | nil => exact Or.inl rfl
  | cons y ys ih =>
    rw [maxKey_cons]
    rcases Nat.le_total (f y) (maxKey f ys) with h | h
    · rw [Nat.max_eq_right h]
      rcases ih with ih | ⟨x, hx, he⟩
      · exact Or.inl ih
      · exact Or.inr ⟨x, by simp [hx], he⟩
    · rw [Nat.max_eq_left h]; exact Or.inr ⟨y, by simp, rfl⟩
theorem maxKey_map {α β : Type} (g : α → β) (f : β → Nat) (xs : List α) :
    maxKey f (xs.map g) = maxKey (fun x => f (g x)) xs := by
  unfold maxKey; rw [List.foldl_map]
theorem maxKey_congr {α : Type} {f g : α → Nat} {xs : List α} (h : ∀ x ∈ xs, f x = g x) :
    maxKey f xs = maxKey g xs := by
  induction xs with
  | nil => rfl
  | cons y ys ih =>
    rw [maxKey_cons, maxKey_cons, h y (by simp), ih fun x hx => h x (by simp [hx])]
/-- A monotone map commutes with the maximum. -/
theorem maxKey_mono {α : Type} {w : Nat → Nat} (hw : ∀ a b, w (max a b) = max (w a) (w b)) (h0 : w 0 = 0)
    (f : α → Nat) (xs : List α) : w (maxKey f xs) = maxKey (fun x => w (f x)) xs := by
  induction xs with
  | nil => exact h0
  | cons y ys ih => rw [maxKey_cons, maxKey_cons, hw, ih]

/-- The full-scale amplitude is a positive finite number. -/
structure SampleOps.AmpOk (ops : SampleOps F64 F32 T) : Prop where
  pos : 0 < mkey ops.maxAmp
  fin : mkey ops.maxAmp < Fmt.b64.infK
  eq : ops.maxAmp = pk _ (mkey ops.maxAmp)

/-- Pattern of the sample peak contribution of one sample: `|raw x| / MAX_AMPLITUDE`. -/
def sampleKey (t : Target) (ops : SampleOps F64 F32 T) (x : T) : Nat :=
  divKey t (mkey ops.maxAmp) (mkey (ops.raw x))

variable (m : Libm F64) (bs : BSearch) (t : Target)

theorem chanMax_eq (ops : SampleOps F64 F32 T) (xs : List T) :
    chanMax (ieeeEnv m bs t) ops xs = pk _ (maxKey (fun x => mkey (ops.raw x)) xs) := by
  unfold chanMax
  simp only [ieee_p_lt, ieee_p_abs, ieee_p_zero, zero_eq_pk]
  have : ∀ a, xs.foldl (fun m s => maxBy Fl.lt m (Fl.abs (ops.raw s))) (pk _ a) =
      pk _ (max a (maxKey (fun x => mkey (ops.raw x)) xs)) := by
    induction xs with
    | nil => intro a; simp [maxKey_nil]
    | cons x xs ih =>
      intro a
      rw [List.foldl_cons, maxBy_abs, ih, maxKey_cons]
      congr 1; omega
  rw [this, Nat.zero_max]

theorem samplePeak_step {ops : SampleOps F64 F32 T} (ho : ops.AmpOk) (a : Nat) (xs : List T) :
    maxBy (ieeeEnv m bs t).f64p.lt (pk _ a) ((ieeeEnv m bs t).f64p.div (chanMax (ieeeEnv m bs t) ops xs) ops.maxAmp) =
      pk _ (max a (maxKey (sampleKey t ops) xs)) := by
  rw [chanMax_eq, ho.eq, div_pk m bs t ho.pos ho.fin, ieee_p_lt, maxBy_pk]
  · congr 2
    rw [maxKey_mono (divKey_max t ho.pos) (divKey_zero t ho.pos)]
    rw [ho.eq, mkey_pk, Nat.min_eq_left (Nat.le_of_lt ho.fin)]; rfl
  · exact maxKey_le _ fun x _ => mkey_le _

/-! ## The interpolator seen from one channel -/

/-- Channel `c` of a frame, as a mono frame. -/
def pick (c : Nat) (f : List F32) : List F32 := [f.getD c (Fl.zero false)]

/-- Channel `c` of an interpolator, as a mono interpolator. -/
def Interp.proj (c : Nat) (ip : Interp F32) : Interp F32 :=
  ⟨ip.factor, 1, ip.filter, ⟨ip.buffer.n, ip.buffer.buf.map (pick c), ip.buffer.position⟩⟩

theorem pick_zipWith (f : F32 → F32 → F32) {c : Nat} {a b : List F32} (ha : c < a.length) (hb : c < b.length) :
    pick c (List.zipWith f a b) = List.zipWith f (pick c a) (pick c b) := by
  have h : c < (List.zipWith f a b).length := by simp; omega
  unfold pick
  simp only [List.zipWith_cons_cons, List.zipWith_nil_left, List.getD_eq_getElem?_getD,
    List.getElem?_eq_getElem h, List.getElem?_eq_getElem ha, List.getElem?_eq_getElem hb,
    Option.getD_some, List.getElem_zipWith]

theorem pick_map (f : F32 → F32) {c : Nat} {a : List F32} (ha : c < a.length) :
    pick c (a.map f) = (pick c a).map f := by
  have h : c < (a.map f).length := by simpa using ha
  unfold pick
  simp only [List.map_cons, List.map_nil, List.getD_eq_getElem?_getD, List.getElem?_eq_getElem h,
    List.getElem?_eq_getElem ha, Option.getD_some, List.getElem_map]

theorem frameScaleAdd_zip {D S : Type} (E : Env D S) (o x : List S) (coeff : S) :
    frameScaleAdd E o x coeff = List.zipWith (fun a b => E.scaleAdd a b coeff) o x := rfl

theorem firAccum_proj {factor width c : Nat} (hc : c < width) {filter view : List (List F32)}
    (hv : ∀ f ∈ view, f.length = width) :
    (firAccum (ieeeEnv m bs t) factor width filter view).map (pick c) =
      firAccum (ieeeEnv m bs t) factor 1 filter (view.map (pick c)) := by
  unfold firAccum
  have hz : (List.replicate factor (zeroFrame (ieeeEnv m bs t) width)).map (pick c) =
      List.replicate factor (zeroFrame (ieeeEnv m bs t) 1) := by
    rw [List.map_replicate]
    congr 1
    simp [zeroFrame, pick, List.getD_eq_getElem?_getD, hc]
  have main : ∀ (filter view : List (List F32)) (out : List (List F32)), (∀ f ∈ view, f.length = width) →
      (∀ o ∈ out, o.length = width) →
      ((List.zip filter view).foldl (fun out x =>
        List.zipWith (fun o coeff => frameScaleAdd (ieeeEnv m bs t) o x.2 coeff) out x.1) out).map (pick c) =
      (List.zip filter (view.map (pick c))).foldl (fun out x =>
        List.zipWith (fun o coeff => frameScaleAdd (ieeeEnv m bs t) o x.2 coeff) out x.1) (out.map (pick c)) := by
    intro filter
    induction filter with
    | nil => intro view out _ _; simp
    | cons co filter ih =>
      intro view out hv ho
      cases view with
      | nil => simp
      | cons v view =>
        simp only [List.zip_cons_cons, List.foldl_cons, List.map_cons]
        rw [ih _ _ (fun f hf => hv f (by simp [hf]))]
        · congr 1
          have hvl := hv v (by simp)
          clear ih hz
          induction out generalizing co with
          | nil => simp
          | cons o out iho =>
            cases co with
            | nil => simp
            | cons k co =>
              simp only [List.zipWith_cons_cons, List.map_cons]
              rw [iho co (fun o ho' => ho o (by simp [ho']))]
              congr 1
              rw [frameScaleAdd_zip, frameScaleAdd_zip]
              exact pick_zipWith _ (by rw [ho o (by simp)]; exact hc) (by rw [hvl]; exact hc)
        · intro o ho'
          obtain ⟨i, hi, rfl⟩ := List.mem_iff_getElem.1 ho'
          simp only [List.getElem_zipWith, frameScaleAdd_zip, List.length_zipWith]
          rw [ho _ (List.getElem_mem _), hv v (by simp)]; omega
  rw [main filter view _ hv, hz]
  intro o ho
  rw [List.eq_of_mem_replicate ho]; simp [zeroFrame]

theorem pushP_proj (c : Nat) (b : RollingBuffer (List F32)) (f : List F32) :
    (⟨b.n, b.buf.map (pick c), b.position⟩ : RollingBuffer (List F32)).pushP (pick c f) =
      ⟨(b.pushP f).n, (b.pushP f).buf.map (pick c), (b.pushP f).position⟩ := by
  simp only [RollingBuffer.pushP, List.map_set]

theorem Interp.proj_step {ip : Interp F32} (hr : ip.Rect) {c : Nat} (hc : c < ip.width) {f : List F32}
    (hf : f.length = ip.width) :
    (ip.proj c).stepP (ieeeEnv m bs t) (pick c f) =
      (((ip.stepP (ieeeEnv m bs t) f).1).proj c, (ip.stepP (ieeeEnv m bs t) f).2.map (pick c)) := by
  have hrect : ∀ g ∈ (ip.buffer.pushP f).viewP, g.length = ip.width := by
    intro g hg
    exact ((Interp.stepP_rect (ieeeEnv m bs t) hr hf).1) g (RollingBuffer.mem_viewP hg)
  simp only [Interp.stepP, Interp.proj]
  rw [firAccum_proj m bs t hc hrect]
  simp only [pushP_proj]
  simp only [RollingBuffer.viewP, List.map_take, List.map_drop]

theorem Interp.proj_adv {ip : Interp F32} (hr : ip.Rect) {c : Nat} (hc : c < ip.width) {f : List F32}
    (hf : f.length = ip.width) :
    (ip.proj c).adv (ieeeEnv m bs t) (pick c f) = (ip.adv (ieeeEnv m bs t) f).proj c := by
  unfold Interp.adv; rw [Interp.proj_step m bs t hr hc hf]

/-- Largest pattern among a list of output frames. -/
def outKey (outs : List (List F32)) : Nat := maxKey (fun o => maxKey mkey o) outs

/-- Largest pattern output by a mono interpolator while consuming samples. -/
def Interp.peakKey (ip : Interp F32) : List F32 → Nat
  | [] => 0
  | x :: xs => max (outKey (ip.stepP (ieeeEnv m bs t) [x]).2)
      (Interp.peakKey (ip.adv (ieeeEnv m bs t) [x]) xs)

/-- A mono interpolator after consuming samples. -/
def Interp.fed (ip : Interp F32) (xs : List F32) : Interp F32 :=
  xs.foldl (fun ip x => ip.adv (ieeeEnv m bs t) [x]) ip

theorem Interp.fed_append (ip : Interp F32) (xs ys : List F32) :
    ip.fed m bs t (xs ++ ys) = (ip.fed m bs t xs).fed m bs t ys := by
  unfold Interp.fed; rw [List.foldl_append]

theorem Interp.peakKey_append (ip : Interp F32) (xs ys : List F32) :
    ip.peakKey m bs t (xs ++ ys) = max (ip.peakKey m bs t xs) ((ip.fed m bs t xs).peakKey m bs t ys) := by
  induction xs generalizing ip with
  | nil => simp [Interp.peakKey, Interp.fed]
  | cons x xs ih =>
    simp only [List.cons_append, Interp.peakKey, ih]
    rw [show (ip.fed m bs t (x :: xs)) = (ip.adv (ieeeEnv m bs t) [x]).fed m bs t xs from rfl]
    omega

/-- On a flushing target every interpolator output is zero or normal. -/
theorem firAccum_flushed (factor width : Nat) (filter view : List (List F32)) :
    ∀ o ∈ firAccum (ieeeEnv m bs t) factor width filter view, ∀ v ∈ o, fkey t Fmt.b32 (mkey v) = mkey v := by
  unfold firAccum
  have main : ∀ (l : List (List F32 × List F32)) (out : List (List F32)),
      (∀ o ∈ out, ∀ v ∈ o, fkey t Fmt.b32 (mkey v) = mkey v) →
      ∀ o ∈ l.foldl (fun out x =>
        List.zipWith (fun o coeff => frameScaleAdd (ieeeEnv m bs t) o x.2 coeff) out x.1) out,
        ∀ v ∈ o, fkey t Fmt.b32 (mkey v) = mkey v := by
    intro l
    induction l with
    | nil => intro out h; exact h
    | cons x l ih =>
      intro out _
      rw [List.foldl_cons]
      apply ih
      intro o ho v hv
      obtain ⟨i, hi, rfl⟩ := List.mem_iff_getElem.1 ho
      rw [List.getElem_zipWith, frameScaleAdd_zip] at hv
      obtain ⟨j, hj, rfl⟩ := List.mem_iff_getElem.1 hv
      rw [List.getElem_zipWith]
      obtain ⟨y, hy⟩ := ieee_scaleAdd m bs t _ _ _
      rw [hy, mkey_flush, fkey_idem]
  apply main
  intro o ho v hv
  rw [List.eq_of_mem_replicate ho] at hv
  rw [show v = Fl.zero false by
    have := List.eq_of_mem_replicate hv
    simpa [zeroFrame] using this]
  exact fkey_zero t

theorem maxKey_flushed {α : Type} {f : α → Nat} {xs : List α}
    (h : ∀ x ∈ xs, fkey t Fmt.b32 (f x) = f x) : fkey t Fmt.b32 (maxKey f xs) = maxKey f xs := by
  rcases maxKey_attained f xs with h0 | ⟨x, hx, he⟩
  · rw [h0, fkey_zero]
  · rw [← he]; exact h x hx

theorem Interp.peakKey_flushed (ip : Interp F32) (xs : List F32) :
    fkey t Fmt.b32 (ip.peakKey m bs t xs) = ip.peakKey m bs t xs := by
  induction xs generalizing ip with
  | nil => exact fkey_zero t
  | cons x xs ih =>
    have h1 : fkey t Fmt.b32 (outKey (ip.stepP (ieeeEnv m bs t) [x]).2) =
        outKey (ip.stepP (ieeeEnv m bs t) [x]).2 :=
      maxKey_flushed t fun o ho => maxKey_flushed t fun v hv =>
        firAccum_flushed m bs t _ _ _ _ o ho v hv
    unfold Interp.peakKey
    rcases Nat.le_total (outKey (ip.stepP (ieeeEnv m bs t) [x]).2)
      (Interp.peakKey m bs t (ip.adv (ieeeEnv m bs t) [x]) xs) with h | h
    · rw [Nat.max_eq_right h]; exact ih _
    · rw [Nat.max_eq_left h]; exact h1

theorem Interp.peakKey_le (ip : Interp F32) (xs : List F32) : ip.peakKey m bs t xs ≤ Fmt.b32.infK := by
  induction xs generalizing ip with
  | nil => exact Nat.zero_le _
  | cons x xs ih =>
    have h1 : outKey (ip.stepP (ieeeEnv m bs t) [x]).2 ≤ Fmt.b32.infK :=
      maxKey_le _ fun o _ => maxKey_le _ fun v _ => mkey_le v
    have h2 := ih (ip.adv (ieeeEnv m bs t) [x])
    unfold Interp.peakKey; omega

/-! ### The generic scanner: one mono interpolator per channel, maximum in `f64` -/

theorem gen_fold_snd (ops : SampleOps F64 F32 T) (ip : Interp F32) (a : Nat) (xs : List T) :
    (xs.foldl (genStepP (ieeeEnv m bs t) ops) (ip, pk _ a)).2 =
      pk _ (max a (wkey (ip.peakKey m bs t (xs.map ops.toF32)))) := by
  have inner : ∀ (o : List F32) (a : Nat), o.foldl (fun p x => maxBy Fl.lt p (Fl.cast Fmt.b64 (Fl.abs x))) (pk Fmt.b64 a) =
      pk Fmt.b64 (max a (wkey (maxKey mkey o))) := by
    intro o
    induction o with
    | nil => intro a; simp only [List.foldl_nil, maxKey_nil, wkey_zero]; congr 1; omega
    | cons x o ih =>
      intro a
      have hx : maxBy Fl.lt (pk Fmt.b64 a) (Fl.cast Fmt.b64 (Fl.abs x)) = pk Fmt.b64 (max a (wkey (mkey x))) := by
        by_cases hn : x = .nan
        · subst hn
          simp only [Fl.abs, Fl.cast, maxBy, lt_nan, mkey, wkey_zero]
          rw [if_neg (by simp)]; congr 1; omega
        · rw [abs_eq_pk hn, cast_pk (mkey_le x), maxBy_pk]
      rw [List.foldl_cons, hx, ih, maxKey_cons, wkey_max]
      congr 1; omega
  have outer : ∀ (outs : List (List F32)) (a : Nat),
      outs.foldl (fun p nf => nf.foldl (fun p x => maxBy Fl.lt p (Fl.cast Fmt.b64 (Fl.abs x))) p) (pk Fmt.b64 a) =
      pk Fmt.b64 (max a (wkey (outKey outs))) := by
    intro outs
    unfold outKey
    induction outs with
    | nil => intro a; simp only [List.foldl_nil, maxKey_nil, wkey_zero]; congr 1; omega
    | cons o outs ih =>
      intro a
      rw [List.foldl_cons, inner, ih, maxKey_cons, wkey_max]
      congr 1; omega
  induction xs generalizing ip a with
  | nil => simp only [List.foldl_nil, List.map_nil, Interp.peakKey, wkey_zero]; congr 1; omega
  | cons x xs ih =>
    have hs : genStepP (ieeeEnv m bs t) ops (ip, pk _ a) x =
        (ip.adv (ieeeEnv m bs t) [ops.toF32 x],
          pk _ (max a (wkey (outKey (ip.stepP (ieeeEnv m bs t) [ops.toF32 x]).2)))) := by
      unfold genStepP
      simp only [ieee_p_lt, ieee_widen, ieee_q_abs]
      rw [outer]; rfl
    rw [List.foldl_cons, hs, ih, List.map_cons, Interp.peakKey, wkey_max]
    congr 1; omega

/-! ### The specialised scanner: all channels in one frame, maximum in `f32` -/

theorem spec_outs_snd {n c : Nat} (hc : c < n) (outs : List (List F32)) (h : ∀ o ∈ outs, o.length = n) :
    ∀ (p : List F32) (q : Nat), p.length = n → p[c]? = some (pk _ q) →
      (outs.foldl (fun p nf => retainMaxSamples (ieeeEnv m bs t) p (nf.map (ieeeEnv m bs t).f32p.abs)) p).length = n ∧
      (outs.foldl (fun p nf => retainMaxSamples (ieeeEnv m bs t) p (nf.map (ieeeEnv m bs t).f32p.abs)) p)[c]? =
        some (pk _ (max q (outKey (outs.map (pick c))))) := by
  induction outs with
  | nil => intro p q hp hq; refine ⟨hp, ?_⟩; rw [List.foldl_nil, hq]; congr 2; simp [outKey, maxKey_nil]
  | cons o outs ih =>
    intro p q hp hq
    rw [List.foldl_cons]
    have ho := h o (by simp)
    have hl : (retainMaxSamples (ieeeEnv m bs t) p (o.map (ieeeEnv m bs t).f32p.abs)).length = n := by
      simp [retainMaxSamples, hp, ho]
    have hcv : o[c]? = some o[c] := List.getElem?_eq_getElem (by omega)
    have hv : (retainMaxSamples (ieeeEnv m bs t) p (o.map (ieeeEnv m bs t).f32p.abs))[c]? =
        some (pk _ (max q (mkey o[c]))) := by
      unfold retainMaxSamples
      rw [List.getElem?_zipWith, hq, List.getElem?_map, hcv]
      simp only [Option.map_some, ieee_q_lt, ieee_q_abs, maxBy_abs]
    obtain ⟨h1, h2⟩ := ih (fun o' ho' => h o' (by simp [ho'])) _ _ hl hv
    refine ⟨h1, ?_⟩
    rw [h2]
    congr 2
    have : maxKey mkey (pick c o) = mkey o[c] := by
      unfold pick; rw [maxKey_cons, maxKey_nil, List.getD_eq_getElem?_getD, hcv]; simp
    unfold outKey
    rw [List.map_cons, maxKey_cons, this]
    omega

theorem spec_fold_snd (ops : SampleOps F64 F32 T) {n c : Nat} (hc : c < n) (fs : List (List T)) (hf : RectF n fs) :
    ∀ (ip : Interp F32) (p : List F32) (q : Nat), ip.width = n → ip.Rect → p.length = n → p[c]? = some (pk _ q) →
      (fs.foldl (specStepP (ieeeEnv m bs t) ops) (ip, p)).2.length = n ∧
      (fs.foldl (specStepP (ieeeEnv m bs t) ops) (ip, p)).2[c]? =
        some (pk _ (max q ((ip.proj c).peakKey m bs t ((column c fs).map ops.toF32)))) ∧
      (fs.foldl (specStepP (ieeeEnv m bs t) ops) (ip, p)).1.proj c =
        (ip.proj c).fed m bs t ((column c fs).map ops.toF32) := by
  induction fs with
  | nil =>
    intro ip p q _ _ hp hq
    refine ⟨hp, ?_, rfl⟩
    rw [List.foldl_nil, hq]; congr 2
    simp [column, Interp.peakKey]
  | cons f fs ih =>
    intro ip p q hw hr hp hq
    have hfl : f.length = n := hf f (by simp)
    have hcf : f[c]? = some f[c] := List.getElem?_eq_getElem (by omega)
    have hlen : (f.map ops.toF32).length = ip.width := by simp [hfl, hw]
    have hpick : pick c (f.map ops.toF32) = [ops.toF32 f[c]] := by
      unfold pick
      rw [List.getD_eq_getElem?_getD, List.getElem?_map, hcf]; rfl
    have hcol : column c (f :: fs) = f[c] :: column c fs := by
      unfold column; rw [List.filterMap_cons, hcf]
    obtain ⟨hr1, hr2⟩ := Interp.stepP_rect (ieeeEnv m bs t) hr hlen
    obtain ⟨h1, h2⟩ := spec_outs_snd m bs t hc (ip.stepP (ieeeEnv m bs t) (f.map ops.toF32)).2
      (fun o ho => by rw [hr2 o ho, hw]) p q hp hq
    have hps := Interp.proj_step m bs t hr (c := c) (by omega) hlen
    rw [hpick] at hps
    rw [List.foldl_cons]
    have hst : specStepP (ieeeEnv m bs t) ops (ip, p) f =
        (ip.adv (ieeeEnv m bs t) (f.map ops.toF32),
          (ip.stepP (ieeeEnv m bs t) (f.map ops.toF32)).2.foldl
            (fun p nf => retainMaxSamples (ieeeEnv m bs t) p (nf.map (ieeeEnv m bs t).f32p.abs)) p) := rfl
    rw [hst]
    obtain ⟨g1, g2, g3⟩ := ih (fun g hg => hf g (by simp [hg])) (ip.adv (ieeeEnv m bs t) (f.map ops.toF32)) _ _
      (by rw [← hw]; rfl) hr1 h1 h2
    have hadv : (ip.adv (ieeeEnv m bs t) (f.map ops.toF32)).proj c =
        (ip.proj c).adv (ieeeEnv m bs t) [ops.toF32 f[c]] := by
      unfold Interp.adv; rw [hps]
    refine ⟨g1, ?_, ?_⟩
    · rw [g2, hcol, List.map_cons, Interp.peakKey, hps, hadv]
      congr 2; dsimp only; omega
    · rw [g3, hcol, hadv]; rfl

/-! ## The scanner seen from one channel -/

/-- The mono interpolator through which the scanner sees channel `c`. -/
def Scanner.mono (sc : Scanner F32) (c : Nat) : Option (Interp F32) :=
  match sc with
  | .specialized _ ip => some (ip.proj c)
  | .generic ips => ips[c]?

/-- Pattern of the true peak of channel `c` over some frames. -/
def Scanner.key (ops : SampleOps F64 F32 T) (sc : Scanner F32) (fs : List (List T)) (c : Nat) : Nat :=
  match sc.mono c with
  | some ip => ip.peakKey m bs t ((column c fs).map ops.toF32)
  | none => 0

theorem Scanner.mono_some {sc : Scanner F32} {n : Nat} (h : sc.Inv n) {c : Nat} (hc : c < n) :
    ∃ ip, sc.mono c = some ip := by
  cases sc with
  | specialized ch ip => exact ⟨_, rfl⟩
  | generic ips => exact ⟨ips[c]'(by have := h.1; omega), List.getElem?_eq_getElem _⟩

theorem Scanner.mono_feed (ops : SampleOps F64 F32 T) {sc : Scanner F32} {n : Nat} (h : sc.Inv n) (hr : sc.Rect)
    {c : Nat} (hc : c < n) {fs : List (List T)} (hf : RectF n fs) :
    (sc.feed (ieeeEnv m bs t) ops fs).mono c =
      (sc.mono c).map fun ip => ip.fed m bs t ((column c fs).map ops.toF32) := by
  cases sc with
  | specialized ch ip =>
    obtain ⟨h1, h2, h3⟩ := h
    have hq : (List.replicate n (pk Fmt.b32 0))[c]? = some (pk _ 0) := by simp [hc]
    have := (spec_fold_snd m bs t ops hc fs hf ip (List.replicate n (pk _ 0)) 0 h2 hr (by simp) hq).2.2
    rw [spec_fold_fst] at this
    simp only [Scanner.feed, Scanner.mono, Option.map_some, this]
  | generic ips =>
    simp only [Scanner.feed, Scanner.mono, List.getElem?_map, List.getElem?_zipIdx, Option.map_map]
    congr 1
    funext ip
    simp only [Function.comp, Nat.zero_add, Interp.fed, List.foldl_map]

theorem Scanner.key_append (ops : SampleOps F64 F32 T) {sc : Scanner F32} {n : Nat} (h : sc.Inv n) (hr : sc.Rect)
    {c : Nat} (hc : c < n) {fs : List (List T)} (hf : RectF n fs) (gs : List (List T)) :
    sc.key m bs t ops (fs ++ gs) c =
      max (sc.key m bs t ops fs c) ((sc.feed (ieeeEnv m bs t) ops fs).key m bs t ops gs c) := by
  obtain ⟨ip, hip⟩ := Scanner.mono_some h hc
  unfold Scanner.key
  rw [Scanner.mono_feed m bs t ops h hr hc hf, hip]
  simp only [Option.map_some]
  rw [show column c (fs ++ gs) = column c fs ++ column c gs by unfold column; rw [List.filterMap_append],
    List.map_append, Interp.peakKey_append]

theorem Scanner.key_flushed (ops : SampleOps F64 F32 T) (sc : Scanner F32) (fs : List (List T)) (c : Nat) :
    fkey t Fmt.b32 (sc.key m bs t ops fs c) = sc.key m bs t ops fs c := by
  unfold Scanner.key
  split
  · exact Interp.peakKey_flushed m bs t _ _
  · exact fkey_zero t

theorem Scanner.key_le (ops : SampleOps F64 F32 T) (sc : Scanner F32) (fs : List (List T)) (c : Nat) :
    sc.key m bs t ops fs c ≤ Fmt.b32.infK := by
  unfold Scanner.key
  split
  · exact Interp.peakKey_le m bs t _ _
  · exact Nat.zero_le _

/-- A running true peak: a widened `f32` pattern that survives the round trip through `f32`. -/
structure TpKey (t : Target) (q : Nat) : Prop where
  le : q ≤ Fmt.b32.infK
  flushed : fkey t Fmt.b32 q = q

theorem TpKey.zero : TpKey t 0 := ⟨Nat.zero_le _, fkey_zero t⟩
theorem TpKey.max {t : Target} {p q : Nat} (hp : TpKey t p) (hq : TpKey t q) : TpKey t (max p q) := by
  rcases Nat.le_total p q with h | h
  · rw [Nat.max_eq_right h]; exact hq
  · rw [Nat.max_eq_left h]; exact hp
theorem Scanner.key_tp (ops : SampleOps F64 F32 T) (sc : Scanner F32) (fs : List (List T)) (c : Nat) :
    TpKey t (sc.key m bs t ops fs c) := ⟨sc.key_le m bs t ops fs c, sc.key_flushed m bs t ops fs c⟩

theorem Scanner.checkP_peak (ops : SampleOps F64 F32 T) {sc : Scanner F32} {n : Nat} (h : sc.Inv n) (hr : sc.Rect)
    {c : Nat} (hc : c < n) {fs : List (List T)} (hf : RectF n fs) {peaks : List F64} (hp : peaks.length = n)
    {q : Nat} (hq : TpKey t q) (hpc : peaks[c]? = some (pk _ (wkey q))) :
    (sc.checkP (ieeeEnv m bs t) ops fs peaks).2[c]? =
      some (pk _ (wkey (max q (sc.key m bs t ops fs c)))) := by
  cases sc with
  | specialized ch ip =>
    obtain ⟨h1, h2, h3⟩ := h
    have hn : (peaks.map (ieeeEnv m bs t).narrowP)[c]? = some (pk _ q) := by
      rw [List.getElem?_map, hpc, Option.map_some, narrowP_wkey m bs t hq.le, hq.flushed]
    obtain ⟨g1, g2, g3⟩ := spec_fold_snd m bs t ops hc fs hf ip _ q h2 hr (by simpa using hp) hn
    simp only [Scanner.checkP, List.getElem?_map, g2, Option.map_some, ieee_widen]
    rw [cast_pk]
    · rfl
    · have := Interp.peakKey_le m bs t (ip.proj c) ((column c fs).map ops.toF32)
      have := hq.le
      omega
  | generic ips =>
    have hl : ips.length = n := h.1
    simp only [Scanner.checkP, List.getElem?_map, List.getElem?_zipIdx, List.map_map]
    have hz : (ips.zip peaks)[c]? = some (ips[c], pk _ (wkey q)) :=
      zip_some (List.getElem?_eq_getElem _) hpc
    rw [hz]
    simp only [Option.map_some, Function.comp, Nat.zero_add]
    rw [gen_fold_snd]
    congr 2
    rw [wkey_max]
    simp only [Scanner.key, Scanner.mono, List.getElem?_eq_getElem (show c < ips.length by omega)]

end Verif
