import Verif.Proofs.Interp
import Verif.Model.Ebur128
/-! # True peak scanner and filter as total functions on frame lists -/

set_option linter.unusedSimpArgs false

namespace Verif
variable {D S T : Type} {Sm : Type → Type}

/-! ## Scanner -/

/-- The scanner fits `n` channels. -/
def Scanner.Inv (sc : Scanner S) (n : Nat) : Prop :=
  match sc with
  | .specialized ch ip => ch = n ∧ ip.width = n ∧ ip.buffer.Inv
  | .generic ips => ips.length = n ∧ ∀ ip ∈ ips, ip.width = 1 ∧ ip.buffer.Inv

def specStepP (E : Env D S) (ops : SampleOps D S T) (st : Interp S × List S) (frame : List T) :
    Interp S × List S :=
  let r := st.1.stepP E (frame.map ops.toF32)
  (r.1, r.2.foldl (fun pk nf => retainMaxSamples E pk (nf.map E.f32p.abs)) st.2)

def genStepP (E : Env D S) (ops : SampleOps D S T) (st : Interp S × D) (s : T) : Interp S × D :=
  let r := st.1.stepP E [ops.toF32 s]
  (r.1, r.2.foldl
    (fun pk nf => nf.foldl (fun pk x => maxBy E.f64p.lt pk (E.widen (E.f32p.abs x))) pk) st.2)

/-- `check_true_peak` without faults. -/
def Scanner.checkP (E : Env D S) (ops : SampleOps D S T) (sc : Scanner S) (fs : List (List T))
    (peaks : List D) : Scanner S × List D :=
  match sc with
  | .specialized ch ip =>
    let r := fs.foldl (specStepP E ops) (ip, peaks.map E.narrowP)
    (.specialized ch r.1, r.2.map E.widen)
  | .generic ips =>
    let res := (List.zip ips peaks).zipIdx.map fun x => (column x.2 fs).foldl (genStepP E ops) x.1
    (.generic (res.map Prod.fst), res.map Prod.snd)

theorem specStep_eq (E : Env D S) (ops : SampleOps D S T) {st : Interp S × List S}
    (h : st.1.buffer.Inv) (frame : List T) :
    specStep E ops st frame = .done (specStepP E ops st frame) ∧
      (specStepP E ops st frame).1.buffer.Inv := by
  refine ⟨?_, Interp.stepP_inv E h _⟩
  simp only [specStep, Run.bind_eq, Interp.interpolate_eq E h, Run.done_bind, specStepP]

theorem genStep_eq (E : Env D S) (ops : SampleOps D S T) {st : Interp S × D}
    (h : st.1.buffer.Inv) (s : T) :
    genStep E ops st s = .done (genStepP E ops st s) ∧ (genStepP E ops st s).1.buffer.Inv := by
  refine ⟨?_, Interp.stepP_inv E h _⟩
  simp only [genStep, Run.bind_eq, Interp.interpolate_eq E h, Run.done_bind, genStepP]

theorem spec_fold_width (E : Env D S) (ops : SampleOps D S T) (st : Interp S × List S)
    (fs : List (List T)) : (fs.foldl (specStepP E ops) st).1.width = st.1.width := by
  induction fs generalizing st with
  | nil => rfl
  | cons f fs ih => rw [List.foldl_cons, ih]; rfl

theorem gen_fold_width (E : Env D S) (ops : SampleOps D S T) (st : Interp S × D)
    (fs : List T) : (fs.foldl (genStepP E ops) st).1.width = st.1.width := by
  induction fs generalizing st with
  | nil => rfl
  | cons f fs ih => rw [List.foldl_cons, ih]; rfl

theorem spec_fold_inv (E : Env D S) (ops : SampleOps D S T) {st : Interp S × List S}
    (h : st.1.buffer.Inv) (fs : List (List T)) : (fs.foldl (specStepP E ops) st).1.buffer.Inv := by
  induction fs generalizing st with
  | nil => exact h
  | cons f fs ih => exact ih (specStep_eq E ops h f).2

theorem gen_fold_inv (E : Env D S) (ops : SampleOps D S T) {st : Interp S × D}
    (h : st.1.buffer.Inv) (fs : List T) : (fs.foldl (genStepP E ops) st).1.buffer.Inv := by
  induction fs generalizing st with
  | nil => exact h
  | cons f fs ih => exact ih (genStep_eq E ops h f).2

theorem Scanner.checkTruePeak_eq [Samples Sm] [LawfulSamples Sm] (E : Env D S)
    (ops : SampleOps D S T) {sc : Scanner S} {n : Nat} (h : sc.Inv n) {src : Sm T}
    (hw : LawfulSamples.WF src) (hn : Samples.channels src = n) {peaks : List D}
    (hp : peaks.length = n) :
    sc.checkTruePeak E ops src peaks = .done (sc.checkP E ops (LawfulSamples.toFrames src) peaks) := by
  cases sc with
  | specialized ch ip =>
    obtain ⟨rfl, -, hb⟩ := h
    have hc : Samples.channels src = ch ∧ peaks.length = ch := ⟨hn, hp⟩
    have hf := LawfulSamples.frame_eq hw
    rw [hn] at hf
    have := Run.foldL_done (f := specStep E ops) (g := specStepP E ops)
      (P := fun st => st.1.buffer.Inv) (l := LawfulSamples.toFrames src)
      (s := (ip, peaks.map E.narrowP)) hb (fun s x _ hs => specStep_eq E ops hs x)
    simp only [checkTruePeak, Run.bind_eq, Run.assert_true hc, Run.done_bind, hf, this.1, checkP]
  | generic ips =>
    obtain ⟨hl, hb⟩ := h
    have hc : Samples.channels src = ips.length ∧ Samples.channels src = peaks.length := by omega
    simp only [checkTruePeak, Run.bind_eq, Run.assert_true hc, Run.done_bind, checkP]
    rw [Run.forL_done (g := fun x => (column x.2 (LawfulSamples.toFrames src)).foldl
      (genStepP E ops) x.1)]
    · rfl
    · rintro ⟨⟨ip, pk⟩, c⟩ hx
      have hx' := List.mem_zipIdx hx
      simp only [List.length_zip, Nat.zero_add, Nat.sub_zero] at hx'
      have hmem : ip ∈ ips := by
        have h2 : (ip, pk) ∈ ips.zip peaks := hx'.2.2 ▸ List.getElem_mem _
        exact (List.of_mem_zip h2).1
      have := Run.foldL_done (f := genStep E ops) (g := genStepP E ops)
        (P := fun st => st.1.buffer.Inv) (l := column c (LawfulSamples.toFrames src))
        (s := (ip, pk)) (hb ip hmem).2 (fun s x _ hs => genStep_eq E ops hs x)
      simp only [LawfulSamples.sample_eq hw c (by omega), Run.done_bind, this.1]

theorem Scanner.checkP_inv (E : Env D S) (ops : SampleOps D S T) {sc : Scanner S} {n : Nat}
    (h : sc.Inv n) (fs : List (List T)) {peaks : List D} (hp : peaks.length = n) :
    (sc.checkP E ops fs peaks).1.Inv n := by
  cases sc with
  | specialized ch ip =>
    obtain ⟨rfl, hw, hb⟩ := h
    refine ⟨rfl, ?_, spec_fold_inv E ops hb fs⟩
    rw [spec_fold_width]; exact hw
  | generic ips =>
    obtain ⟨hl, hb⟩ := h
    refine ⟨?_, ?_⟩
    · simp [checkP]; omega
    · intro ip hip
      simp only [checkP, List.map_map, List.mem_map] at hip
      obtain ⟨⟨⟨ip0, pk⟩, c⟩, hx, rfl⟩ := hip
      have hx' := List.mem_zipIdx hx
      have hmem : ip0 ∈ ips := by
        have h2 : (ip0, pk) ∈ ips.zip peaks := hx'.2.2 ▸ List.getElem_mem _
        exact (List.of_mem_zip h2).1
      exact ⟨by simp only [Function.comp]; rw [gen_fold_width]; exact (hb ip0 hmem).1,
        gen_fold_inv E ops (st := (ip0, pk)) (hb ip0 hmem).2 _⟩

theorem retainMax_length (E : Env D S) {a b : List S} (h : a.length = b.length) :
    (retainMaxSamples E a b).length = a.length := by
  simp [retainMaxSamples, h]

theorem firAccum_widths (E : Env D S) {factor width : Nat} {filter : List (List S)}
    {view : List (List S)} (hv : ∀ f ∈ view, f.length = width) :
    ∀ o ∈ firAccum E factor width filter view, o.length = width := by
  have key : ∀ (l : List (List S × List S)) (out : List (List S)),
      (∀ x ∈ l, x.2.length = width) → (∀ o ∈ out, o.length = width) →
      ∀ o ∈ l.foldl (fun out x => List.zipWith (fun o coeff => frameScaleAdd E o x.2 coeff) out x.1) out,
        o.length = width := by
    intro l
    induction l with
    | nil => intro out _ h; exact h
    | cons x l ih =>
      intro out hx ho
      rw [List.forall_mem_cons] at hx
      refine ih _ hx.2 ?_
      intro o ho'
      obtain ⟨i, hi, rfl⟩ := List.getElem_of_mem ho'
      simp only [List.getElem_zipWith, frameScaleAdd, List.length_zipWith, hx.1]
      simp only [List.length_zipWith] at hi
      rw [ho _ (List.getElem_mem (by omega))]
      simp
  refine key _ _ ?_ ?_
  · rintro ⟨a, b⟩ hx
    exact hv b (List.of_mem_zip hx).2
  · intro o ho
    rw [List.eq_of_mem_replicate ho, zeroFrame, List.length_replicate]

/-- All stored frames have the interpolator's width. -/
def Interp.Rect (ip : Interp S) : Prop := ∀ f ∈ ip.buffer.buf, f.length = ip.width

theorem RollingBuffer.mem_viewP {α : Type} {b : RollingBuffer α} {x : α} (h : x ∈ b.viewP) : x ∈ b.buf :=
  List.mem_of_mem_drop (List.mem_of_mem_take h)

theorem Interp.stepP_rect (E : Env D S) {ip : Interp S} (h : ip.Rect) {f : List S}
    (hf : f.length = ip.width) :
    (ip.stepP E f).1.Rect ∧ ∀ o ∈ (ip.stepP E f).2, o.length = ip.width := by
  have h1 : (ip.stepP E f).1.Rect := by
    intro g hg
    simp only [stepP, RollingBuffer.pushP] at hg ⊢
    rcases List.mem_or_eq_of_mem_set hg with hg | rfl
    · rcases List.mem_or_eq_of_mem_set hg with hg | rfl
      · exact h g hg
      · exact hf
    · exact hf
  exact ⟨h1, firAccum_widths E fun g hg => h1 g (RollingBuffer.mem_viewP hg)⟩

/-! ## Filter -/

/-- The filter fits `n` channels. -/
structure Filter.Inv (f : Filter D S) (n : Nat) : Prop where
  pos : 0 < n
  channels : f.channels = n
  state : f.filterState.length = n
  samplePeak : f.samplePeak.length = n
  truePeak : f.truePeak.length = n
  tp : ∀ sc, f.tp = some sc → sc.Inv n

/-- New recursive state of one channel after a chunk. -/
def chanState (E : Env D S) (f : Filter D S) (ch : Channel) (st : V5 D) (xs : List D) : V5 D :=
  if ch = .unused then st else flushState E (runFilter E.f64p f.b f.a st xs).1

/-- New row of one channel after a chunk. -/
def chanRow (E : Env D S) (f : Filter D S) (ch : Channel) (st : V5 D) (row : List D) (idx : Nat)
    (xs : List D) : List D :=
  if ch = .unused then row else writeAt row idx (runFilter E.f64p f.b f.a st xs).2

/-- Samples of channel `c` as the filter sees them. -/
def colF64 (ops : SampleOps D S T) (c : Nat) (fs : List (List T)) : List D :=
  (column c fs).map ops.toF64

theorem runFilter_length (A : Arith D) (b a st : V5 D) (xs : List D) :
    (runFilter A b a st xs).2.length = xs.length := by
  induction xs generalizing st with
  | nil => rfl
  | cons x xs ih => simp [runFilter, ih]

theorem runFilter_append (A : Arith D) (b a st : V5 D) (xs ys : List D) :
    runFilter A b a st (xs ++ ys) =
      ((runFilter A b a (runFilter A b a st xs).1 ys).1,
        (runFilter A b a st xs).2 ++ (runFilter A b a (runFilter A b a st xs).1 ys).2) := by
  induction xs generalizing st with
  | nil => rfl
  | cons x xs ih => simp [runFilter, ih]

theorem writeAt_length {row : List D} {i : Nat} {ys : List D} (h : i + ys.length ≤ row.length) :
    (writeAt row i ys).length = row.length := by
  simp only [writeAt, List.length_append, List.length_take, List.length_drop]
  omega

theorem writeAt_append {row : List D} {i : Nat} {ys zs : List D}
    (h : i + ys.length ≤ row.length) :
    writeAt row i (ys ++ zs) = writeAt (writeAt row i ys) (i + ys.length) zs := by
  have hl : (row.take i ++ ys).length = i + ys.length := by
    simp only [List.length_append, List.length_take]; omega
  have hd : (row.take i ++ ys ++ row.drop (i + ys.length)).drop (i + ys.length + zs.length) =
      row.drop (i + ys.length + zs.length) := by
    rw [List.drop_append, hl, List.drop_eq_nil_of_le (by omega), List.nil_append, List.drop_drop]
    congr 1
    omega
  have ht : (row.take i ++ ys ++ row.drop (i + ys.length)).take (i + ys.length) =
      row.take i ++ ys := by
    rw [List.take_append_of_le_length (by omega), List.take_of_length_le (by omega)]
  simp only [writeAt]
  rw [ht, hd]
  simp [Nat.add_assoc]

/-- The whole effect of `Filter::process` on the recursive states. -/
def statesP (E : Env D S) (ops : SampleOps D S T) (f : Filter D S) (fs : List (List T))
    (cm : List Channel) : List (V5 D) :=
  (List.zip cm f.filterState).zipIdx.map fun x => chanState E f x.1.1 x.1.2 (colF64 ops x.2 fs)

/-- The whole effect of `Filter::process` on the rows of the ring buffer. -/
def rowsP (E : Env D S) (ops : SampleOps D S T) (f : Filter D S) (fs : List (List T))
    (rows : List (List D)) (idx : Nat) (cm : List Channel) : List (List D) :=
  (List.zip (List.zip cm f.filterState) rows).zipIdx.map fun x =>
    chanRow E f x.1.1.1 x.1.1.2 x.1.2 idx (colF64 ops x.2 fs)

/-- The effect on the sample peaks. -/
def samplePeaksP (E : Env D S) (ops : SampleOps D S T) (f : Filter D S) (fs : List (List T)) : List D :=
  if f.calculateSamplePeak then
    f.samplePeak.zipIdx.map fun x =>
      maxBy E.f64p.lt x.1 (E.f64p.div (chanMax E ops (column x.2 fs)) ops.maxAmp)
  else f.samplePeak

/-- `Filter::process` without faults. -/
def Filter.processP (E : Env D S) (ops : SampleOps D S T) (f : Filter D S) (fs : List (List T))
    (cm : List Channel) : Filter D S :=
  { f with
    filterState := statesP E ops f fs cm
    samplePeak := samplePeaksP E ops f fs
    tp := f.tp.map fun sc => (sc.checkP E ops fs f.truePeak).1
    truePeak := match f.tp with
      | some sc => (sc.checkP E ops fs f.truePeak).2
      | none => f.truePeak }

theorem mem_zipIdx_zip {α β : Type} {as : List α} {bs : List β} {a : α} {b : β} {c : Nat}
    (h : ((a, b), c) ∈ (as.zip bs).zipIdx) : as[c]? = some a ∧ bs[c]? = some b := by
  have := List.mem_zipIdx_iff_getElem?.1 h
  exact List.getElem?_zip_eq_some.1 this

theorem zip_some {α β : Type} {as : List α} {bs : List β} {a : α} {b : β} {c : Nat}
    (h1 : as[c]? = some a) (h2 : bs[c]? = some b) : (as.zip bs)[c]? = some (a, b) :=
  List.getElem?_zip_eq_some.2 ⟨h1, h2⟩

theorem processChannel_eq [Samples Sm] [LawfulSamples Sm] (E : Env D S)
    (ops : SampleOps D S T) {f : Filter D S} {n L idx c : Nat} {src : Sm T}
    (hw : LawfulSamples.WF src) (hn : Samples.channels src = n) (hc : c < n)
    (hi : idx + (LawfulSamples.toFrames src).length ≤ L) {st : V5 D} (hst : f.filterState[c]? = some st)
    {ch : Channel} {row : List D} (hrow : row.length = L) :
    processChannel E ops f src idx ((ch, row), c) =
      .done (chanState E f ch st (colF64 ops c (LawfulSamples.toFrames src)),
        chanRow E f ch st row idx (colF64 ops c (LawfulSamples.toFrames src))) := by
  simp only [processChannel, Run.bind_eq, Run.index_some hst, Run.done_bind, chanState, chanRow]
  by_cases hu : ch = .unused
  · simp [hu]
  · have hc' : c < Samples.channels src := by omega
    simp only [hu, if_false, Run.assert_true hc', Run.done_bind, LawfulSamples.sample_eq hw c hc']
    have hlen : (column c (LawfulSamples.toFrames src)).length ≤ row.length - idx := by
      rw [column_length (n := n) (by rw [← hn]; exact LawfulSamples.rect hw) hc]
      omega
    rw [List.take_of_length_le (by simpa using hlen)]
    rfl

theorem Filter.process_eq [Samples Sm] [LawfulSamples Sm] (E : Env D S)
    (ops : SampleOps D S T) {f : Filter D S} {n L idx : Nat} (hf : f.Inv n) {src : Sm T}
    (hw : LawfulSamples.WF src) (hn : Samples.channels src = n) {rows : List (List D)}
    (hr : rows.length = n) (hL : ∀ r ∈ rows, r.length = L) (hL0 : L ≠ 0)
    {cm : List Channel} (hcm : cm.length = n)
    (hi : idx + (LawfulSamples.toFrames src).length ≤ L) :
    f.process E ops src rows.flatten idx cm =
      .done (f.processP E ops (LawfulSamples.toFrames src) cm,
        (rowsP E ops f (LawfulSamples.toFrames src) rows idx cm).flatten) := by
  have hn0 := hf.pos
  have hlen : rows.flatten.length = n * L := by rw [length_flatten_of hL, hr]
  have a1 : f.channels ≠ 0 ∧ rows.flatten.length % f.channels = 0 := by
    rw [hf.channels, hlen]; exact ⟨by omega, Nat.mul_mod_right n L⟩
  have a2 : cm.length = f.channels := by rw [hf.channels, hcm]
  have a3 : Samples.channels src = f.channels := by rw [hf.channels, hn]
  have a4 : f.filterState.length = f.channels := by rw [hf.channels, hf.state]
  have a5 : f.samplePeak.length = f.channels := by rw [hf.channels, hf.samplePeak]
  have a6 : f.truePeak.length = f.channels := by rw [hf.channels, hf.truePeak]
  have hstride : rows.flatten.length / f.channels = L := by
    rw [hf.channels, hlen, Nat.mul_div_cancel_left _ hn0]
  have a7 : idx + Samples.frames src ≤ rows.flatten.length / f.channels := by
    rw [hstride, LawfulSamples.frames_eq hw]; exact hi
  have a8 : rows.flatten.length / f.channels ≠ 0 := by rw [hstride]; exact hL0
  have hpk : f.processPeaks E ops src =
      Run.done (samplePeaksP E ops f (LawfulSamples.toFrames src)) := by
    unfold samplePeaksP processPeaks
    by_cases hb : f.calculateSamplePeak
    · simp only [hb, if_true, Run.bind_eq, Run.assert_true a5, Run.done_bind]
      apply Run.forL_done
      rintro ⟨pk, c⟩ hx
      have hx' := List.mem_zipIdx hx
      have hc : c < Samples.channels src := by
        rw [hn, ← hf.samplePeak]; simpa using hx'.2.1
      simp only [peakChannel, Run.bind_eq, Run.assert_true hc, Run.done_bind,
        LawfulSamples.sample_eq hw c hc]
    · simp only [hb]; rfl
  have hres : Run.forL (processChannel E ops f src idx)
      (List.zip cm (chunksExact (rows.flatten.length / f.channels) rows.flatten)).zipIdx =
      Run.done (List.zip (statesP E ops f (LawfulSamples.toFrames src) cm)
        (rowsP E ops f (LawfulSamples.toFrames src) rows idx cm)) := by
    rw [hstride, chunksExact_flatten hL0 hL]
    let fs := LawfulSamples.toFrames src
    let st0 : V5 D := f.filterState[0]'(by rw [hf.state]; exact hn0)
    rw [Run.forL_done (g := fun x =>
      (chanState E f x.1.1 (f.filterState.getD x.2 st0) (colF64 ops x.2 fs),
       chanRow E f x.1.1 (f.filterState.getD x.2 st0) x.1.2 idx (colF64 ops x.2 fs)))]
    · congr 1
      apply List.ext_getElem?
      intro i
      simp only [List.getElem?_map, List.getElem?_zipIdx]
      by_cases hi' : i < n
      · have e1 : cm[i]? = some (cm[i]'(by omega)) := List.getElem?_eq_getElem _
        have e2 : rows[i]? = some (rows[i]'(by omega)) := List.getElem?_eq_getElem _
        have e3 : f.filterState[i]? = some (f.filterState[i]'(by rw [hf.state]; omega)) :=
          List.getElem?_eq_getElem _
        rw [zip_some e1 e2]
        refine Eq.trans ?_ (zip_some
          (a := chanState E f cm[i] f.filterState[i] (colF64 ops i fs))
          (b := chanRow E f cm[i] f.filterState[i] rows[i] idx (colF64 ops i fs)) ?_ ?_).symm
        · simp [e3, List.getD_eq_getElem?_getD]
        · simp only [statesP, List.getElem?_map, List.getElem?_zipIdx,
            zip_some e1 e3, Option.map_some, Nat.zero_add]
          rfl
        · simp only [rowsP, List.getElem?_map, List.getElem?_zipIdx,
            zip_some (zip_some e1 e3) e2, Option.map_some,
            Nat.zero_add]
          rfl
      · rw [List.getElem?_eq_none (by simp; omega), List.getElem?_eq_none]
        · rfl
        · simp [statesP, rowsP]; omega
    · rintro ⟨⟨ch, row⟩, c⟩ hx
      have hx' := mem_zipIdx_zip hx
      have hc : c < n := by rw [← hcm]; exact (List.getElem?_eq_some_iff.1 hx'.1).1
      have e3 : f.filterState[c]? = some (f.filterState[c]'(by rw [hf.state]; omega)) :=
        List.getElem?_eq_getElem _
      rw [processChannel_eq E ops hw hn hc hi e3 (hL row (List.mem_of_getElem? hx'.2))]
      simp [e3, List.getD_eq_getElem?_getD, fs]
  have hls : (statesP E ops f (LawfulSamples.toFrames src) cm).length = n := by
    simp [statesP, hcm, hf.state]
  have hlr : (rowsP E ops f (LawfulSamples.toFrames src) rows idx cm).length = n := by
    simp [rowsP, hcm, hf.state, hr]
  have hz1 : ((statesP E ops f (LawfulSamples.toFrames src) cm).zip
      (rowsP E ops f (LawfulSamples.toFrames src) rows idx cm)).map Prod.fst =
      statesP E ops f (LawfulSamples.toFrames src) cm := List.map_fst_zip (by omega)
  have hz2 : ((statesP E ops f (LawfulSamples.toFrames src) cm).zip
      (rowsP E ops f (LawfulSamples.toFrames src) rows idx cm)).map Prod.snd =
      rowsP E ops f (LawfulSamples.toFrames src) rows idx cm := List.map_snd_zip (by omega)
  simp only [process, Run.bind_eq, Run.assert_true a1, Run.assert_true a2, Run.assert_true a3,
    Run.assert_true a4, Run.done_bind, hpk, Run.assert_true a7, Run.assert_true a8, hres, hz1, hz2]
  cases htp : f.tp with
  | none => simp [processP, htp]
  | some sc =>
    simp only [Run.assert_true a6, Run.done_bind,
      Scanner.checkTruePeak_eq E ops (hf.tp sc htp) hw hn hf.truePeak, processP, htp, Option.map_some]

end Verif
