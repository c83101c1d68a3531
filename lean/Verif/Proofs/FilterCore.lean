import Verif.Proofs.Gating
import Verif.Proofs.Hist
/-! # The filter without its peaks: invariants, splitting, seeding -/

set_option linter.unusedSimpArgs false

namespace Verif
variable {D S T : Type} {Sm : Type → Type}

/-- Every frame has `n` samples. -/
def RectF (n : Nat) (fs : List (List T)) : Prop := ∀ f ∈ fs, f.length = n

theorem RectF.take {n : Nat} {fs : List (List T)} (h : RectF n fs) (k : Nat) : RectF n (fs.take k) :=
  fun f hf => h f (List.mem_of_mem_take hf)

theorem RectF.drop {n : Nat} {fs : List (List T)} (h : RectF n fs) (k : Nat) : RectF n (fs.drop k) :=
  fun f hf => h f (List.mem_of_mem_drop hf)

theorem RectF.append {n : Nat} {fs gs : List (List T)} (h : RectF n fs) (h' : RectF n gs) :
    RectF n (fs ++ gs) := by
  intro f hf
  rcases List.mem_append.1 hf with hf | hf
  · exact h f hf
  · exact h' f hf

theorem zipIdx_map_zipIdx {α β γ : Type} (l : List α) (f : α × Nat → β) (g : β × Nat → γ) :
    ((l.zipIdx.map f).zipIdx).map g = l.zipIdx.map fun x => g (f x, x.2) := by
  apply List.ext_getElem?
  intro i
  simp only [List.getElem?_map, List.getElem?_zipIdx]
  cases l[i]? <;> simp

/-! ## Scanner -/

/-- State of an interpolator after one more frame. -/
def Interp.adv (E : Env D S) (ip : Interp S) (frame : List S) : Interp S := (ip.stepP E frame).1

/-- Scanner state after some frames; the peaks do not matter. -/
def Scanner.feed (E : Env D S) (ops : SampleOps D S T) (fs : List (List T)) : Scanner S → Scanner S
  | .specialized ch ip => .specialized ch (fs.foldl (fun ip f => ip.adv E (f.map ops.toF32)) ip)
  | .generic ips => .generic (ips.zipIdx.map fun x =>
      (column x.2 fs).foldl (fun ip s => ip.adv E [ops.toF32 s]) x.1)

theorem spec_fold_fst (E : Env D S) (ops : SampleOps D S T) (st : Interp S × List S)
    (fs : List (List T)) : (fs.foldl (specStepP E ops) st).1 =
      fs.foldl (fun ip f => ip.adv E (f.map ops.toF32)) st.1 := by
  induction fs generalizing st with
  | nil => rfl
  | cons f fs ih => rw [List.foldl_cons, ih]; rfl

theorem gen_fold_fst (E : Env D S) (ops : SampleOps D S T) (st : Interp S × D) (fs : List T) :
    (fs.foldl (genStepP E ops) st).1 = fs.foldl (fun ip s => ip.adv E [ops.toF32 s]) st.1 := by
  induction fs generalizing st with
  | nil => rfl
  | cons f fs ih => rw [List.foldl_cons, ih]; rfl

theorem Scanner.checkP_fst (E : Env D S) (ops : SampleOps D S T) {sc : Scanner S} {n : Nat}
    (h : sc.Inv n) (fs : List (List T)) {peaks : List D} (hp : peaks.length = n) :
    (sc.checkP E ops fs peaks).1 = sc.feed E ops fs := by
  cases sc with
  | specialized ch ip => simp only [checkP, feed, spec_fold_fst]
  | generic ips =>
    obtain ⟨hl, -⟩ := h
    simp only [checkP, feed]
    congr 1
    apply List.ext_getElem?
    intro i
    simp only [List.getElem?_map, List.getElem?_zipIdx, List.map_map]
    by_cases hi : i < n
    · have e1 : ips[i]? = some (ips[i]'(by omega)) := List.getElem?_eq_getElem _
      have e2 : peaks[i]? = some (peaks[i]'(by omega)) := List.getElem?_eq_getElem _
      rw [zip_some e1 e2, e1]
      simp only [Option.map_some, Function.comp, gen_fold_fst]
    · rw [List.getElem?_eq_none (by simp; omega), List.getElem?_eq_none (by omega)]
      rfl

theorem Scanner.feed_append (E : Env D S) (ops : SampleOps D S T) (sc : Scanner S)
    (fs gs : List (List T)) : sc.feed E ops (fs ++ gs) = (sc.feed E ops fs).feed E ops gs := by
  cases sc with
  | specialized ch ip => simp only [feed, List.foldl_append]
  | generic ips =>
    simp only [feed, zipIdx_map_zipIdx, column_append, List.foldl_append]

theorem foldl_congr_id {α β : Type} (l : List β) (a : α) : l.foldl (fun x _ => x) a = a := by
  induction l with
  | nil => rfl
  | cons x xs ih => exact ih

theorem map_zipIdx_fst {α : Type} (l : List α) : l.zipIdx.map (fun x => x.1) = l := by
  apply List.ext_getElem?
  intro i
  simp only [List.getElem?_map, List.getElem?_zipIdx]
  cases l[i]? <;> simp

theorem Scanner.feed_nil (E : Env D S) (ops : SampleOps D S T) (sc : Scanner S) :
    sc.feed E ops [] = sc := by
  cases sc with
  | specialized ch ip => rfl
  | generic ips =>
    simp only [feed, column, List.filterMap_nil, List.foldl_nil]
    rw [map_zipIdx_fst]

theorem Scanner.checkP_snd_length (E : Env D S) (ops : SampleOps D S T) {sc : Scanner S} {n : Nat}
    (h : sc.Inv n) {fs : List (List T)} {peaks : List D}
    (hp : peaks.length = n) (hout : ∀ ch ip, sc = .specialized ch ip → ip.Rect)
    (hf : RectF n fs) :
    (sc.checkP E ops fs peaks).2.length = n := by
  cases sc with
  | generic ips => simp [checkP, hp, h.1]
  | specialized ch ip =>
    obtain ⟨rfl, hw, -⟩ := h
    have hr := hout _ _ rfl
    simp only [checkP, List.length_map]
    have key : ∀ (fs : List (List T)) (st : Interp S × List S), RectF ch fs → st.1.Rect →
        st.1.width = ch → st.2.length = ch → (fs.foldl (specStepP E ops) st).2.length = ch := by
      intro fs
      induction fs with
      | nil => intro st _ _ _ h; exact h
      | cons f fs ih =>
        intro st hf hr hw hl
        have hf1 : f.length = ch := hf f (by simp)
        have hs := Interp.stepP_rect E hr (f := f.map ops.toF32) (by simp [hf1, hw])
        refine ih _ (fun g hg => hf g (by simp [hg])) hs.1 hw ?_
        simp only [specStepP]
        have : ∀ (l : List (List S)) (pk : List S), (∀ o ∈ l, o.length = ch) → pk.length = ch →
            (l.foldl (fun pk nf => retainMaxSamples E pk (nf.map E.f32p.abs)) pk).length = ch := by
          intro l
          induction l with
          | nil => intro pk _ h; exact h
          | cons o l ih =>
            intro pk ho hpk
            rw [List.forall_mem_cons] at ho
            refine ih _ ho.2 ?_
            rw [retainMax_length]
            · exact hpk
            · simp [hpk, ho.1]
        exact this _ _ (fun o ho => by rw [hs.2 o ho, hw]) hl
    exact key fs _ hf hr hw (by simp [hp])

/-- All stored frames have the right width. -/
def Scanner.Rect : Scanner S → Prop
  | .specialized _ ip => ip.Rect
  | .generic ips => ∀ ip ∈ ips, ip.Rect

theorem Scanner.feed_inv (E : Env D S) (ops : SampleOps D S T) {sc : Scanner S} {n : Nat}
    (h : sc.Inv n) (fs : List (List T)) : (sc.feed E ops fs).Inv n := by
  cases sc with
  | specialized ch ip =>
    have := checkP_inv E ops h fs (peaks := List.replicate n E.f64.zero) (by simp)
    rwa [checkP_fst E ops h fs (by simp)] at this
  | generic ips =>
    have := checkP_inv E ops h fs (peaks := List.replicate n E.f64.zero) (by simp)
    rwa [checkP_fst E ops h fs (by simp)] at this

theorem Scanner.feed_rect (E : Env D S) (ops : SampleOps D S T) {sc : Scanner S} {n : Nat}
    (h : sc.Inv n) (hr : sc.Rect) {fs : List (List T)} (hf : RectF n fs) :
    (sc.feed E ops fs).Rect := by
  cases sc with
  | specialized ch ip =>
    obtain ⟨rfl, hw, -⟩ := h
    have key : ∀ (fs : List (List T)) (ip : Interp S), RectF ch fs → ip.Rect → ip.width = ch →
        (fs.foldl (fun ip f => ip.adv E (f.map ops.toF32)) ip).Rect := by
      intro fs
      induction fs with
      | nil => intro ip _ h _; exact h
      | cons f fs ih =>
        intro ip hf hr hw
        exact ih _ (fun g hg => hf g (by simp [hg]))
          (Interp.stepP_rect E hr (by simp [hw, hf f])).1 hw
    exact key fs ip hf hr hw
  | generic ips =>
    obtain ⟨hl, hb⟩ := h
    intro ip hip
    simp only [List.mem_map] at hip
    obtain ⟨⟨ip0, c⟩, hx, rfl⟩ := hip
    have hmem : ip0 ∈ ips := by
      have hx' := List.mem_zipIdx hx
      rw [hx'.2.2]; exact List.getElem_mem _
    have key : ∀ (xs : List T) (ip : Interp S), ip.Rect → ip.width = 1 →
        (xs.foldl (fun ip s => ip.adv E [ops.toF32 s]) ip).Rect := by
      intro xs
      induction xs with
      | nil => intro ip h _; exact h
      | cons x xs ih =>
        intro ip hr hw
        exact ih _ (Interp.stepP_rect E hr (by simp [hw])).1 hw
    exact key _ _ (hr _ hmem) (hb _ hmem).1

/-! ## Filter -/

/-- The filter state the loudness path and the scanner use, i.e. everything but the peaks. -/
def Filter.strip (f : Filter D S) : Filter D S := { f with samplePeak := [], truePeak := [] }

/-- Filter and scanner state after some frames; the peaks are kept. -/
def Filter.coreP (E : Env D S) (ops : SampleOps D S T) (f : Filter D S) (fs : List (List T))
    (cm : List Channel) : Filter D S :=
  { f with filterState := statesP E ops f fs cm, tp := f.tp.map (Scanner.feed E ops fs) }

/-- The scanner's buffers have the right frame width. -/
def Filter.RectTp (f : Filter D S) : Prop := ∀ sc, f.tp = some sc → sc.Rect

theorem Filter.strip_processP (E : Env D S) (ops : SampleOps D S T) {f : Filter D S} {n : Nat}
    (h : f.Inv n) (fs : List (List T)) (cm : List Channel) :
    (f.processP E ops fs cm).strip = f.strip.coreP E ops fs cm := by
  simp only [strip, processP, coreP, statesP]
  congr 1
  cases htp : f.tp with
  | none => rfl
  | some sc =>
    simp only [Option.map_some, Option.some.injEq]
    exact Scanner.checkP_fst E ops (h.tp sc htp) fs h.truePeak

theorem statesP_length (E : Env D S) (ops : SampleOps D S T) {f : Filter D S} {n : Nat}
    (h : f.filterState.length = n) (fs : List (List T)) {cm : List Channel} (hcm : cm.length = n) :
    (statesP E ops f fs cm).length = n := by
  simp [statesP, h, hcm]

theorem Filter.processP_inv (E : Env D S) (ops : SampleOps D S T) {f : Filter D S} {n : Nat}
    (h : f.Inv n) (hr : f.RectTp) {fs : List (List T)} (hf : RectF n fs) {cm : List Channel}
    (hcm : cm.length = n) :
    (f.processP E ops fs cm).Inv n ∧ (f.processP E ops fs cm).RectTp := by
  constructor
  · refine ⟨h.pos, h.channels, statesP_length E ops h.state fs hcm, ?_, ?_, ?_⟩
    · simp only [processP, samplePeaksP]
      split
      · simp [h.samplePeak]
      · exact h.samplePeak
    · simp only [processP]
      cases htp : f.tp with
      | none => exact h.truePeak
      | some sc =>
        refine Scanner.checkP_snd_length E ops (h.tp sc htp) h.truePeak ?_ hf
        intro ch ip hsc
        have := hr sc htp
        rw [hsc] at this
        exact this
    · intro sc hsc
      simp only [processP] at hsc
      cases htp : f.tp with
      | none => rw [htp] at hsc; cases hsc
      | some sc0 =>
        rw [htp] at hsc
        cases hsc
        exact Scanner.checkP_inv E ops (h.tp sc0 htp) fs h.truePeak
  · intro sc hsc
    simp only [processP] at hsc
    cases htp : f.tp with
    | none => rw [htp] at hsc; cases hsc
    | some sc0 =>
      rw [htp] at hsc
      cases hsc
      simp only [Scanner.checkP_fst E ops (h.tp sc0 htp) fs h.truePeak]
      exact Scanner.feed_rect E ops (h.tp sc0 htp) (hr sc0 htp) hf

theorem Filter.coreP_inv (E : Env D S) (ops : SampleOps D S T) {f : Filter D S} {n : Nat}
    (h : f.Inv n) (hr : f.RectTp) {fs : List (List T)} (hf : RectF n fs) {cm : List Channel}
    (hcm : cm.length = n) :
    (f.coreP E ops fs cm).Inv n ∧ (f.coreP E ops fs cm).RectTp := by
  constructor
  · refine ⟨h.pos, h.channels, statesP_length E ops h.state fs hcm, h.samplePeak, h.truePeak, ?_⟩
    intro sc hsc
    simp only [coreP] at hsc
    cases htp : f.tp with
    | none => rw [htp] at hsc; cases hsc
    | some sc0 =>
      rw [htp] at hsc
      cases hsc
      exact Scanner.feed_inv E ops (h.tp sc0 htp) fs
  · intro sc hsc
    simp only [coreP] at hsc
    cases htp : f.tp with
    | none => rw [htp] at hsc; cases hsc
    | some sc0 =>
      rw [htp] at hsc
      cases hsc
      exact Scanner.feed_rect E ops (h.tp sc0 htp) (hr sc0 htp) hf

theorem rowsP_length (E : Env D S) (ops : SampleOps D S T) {f : Filter D S} {n : Nat}
    (h : f.filterState.length = n) (fs : List (List T)) {cm : List Channel} (hcm : cm.length = n)
    {rows : List (List D)} (hr : rows.length = n) (idx : Nat) :
    (rowsP E ops f fs rows idx cm).length = n := by
  simp [rowsP, h, hcm, hr]

theorem colF64_length (ops : SampleOps D S T) {c n : Nat} {fs : List (List T)} (h : RectF n fs)
    (hc : c < n) : (colF64 ops c fs).length = fs.length := by
  rw [colF64, List.length_map, column_length h hc]

theorem rowsP_rows (E : Env D S) (ops : SampleOps D S T) {f : Filter D S} {n L : Nat}
    {fs : List (List T)} (hf : RectF n fs) {cm : List Channel} (hcm : cm.length = n)
    {rows : List (List D)} (hL : ∀ r ∈ rows, r.length = L) {idx : Nat}
    (hi : idx + fs.length ≤ L) : ∀ r ∈ rowsP E ops f fs rows idx cm, r.length = L := by
  intro r hr
  simp only [rowsP, List.mem_map] at hr
  obtain ⟨⟨⟨⟨ch, st⟩, row⟩, c⟩, hx, rfl⟩ := hr
  obtain ⟨h1, h2⟩ := mem_zipIdx_zip hx
  have h3 := (List.getElem?_zip_eq_some.1 h1).1
  have hc : c < n := by rw [← hcm]; exact (List.getElem?_eq_some_iff.1 h3).1
  have hrow := hL row (List.mem_of_getElem? h2)
  simp only [chanRow]
  split
  · exact hrow
  · rw [writeAt_length]
    · exact hrow
    · rw [runFilter_length, colF64_length ops hf hc]; omega

theorem colF64_append (ops : SampleOps D S T) (c : Nat) (fs gs : List (List T)) :
    colF64 ops c (fs ++ gs) = colF64 ops c fs ++ colF64 ops c gs := by
  simp [colF64, column_append]

theorem chanState_append {E : Env D S} (hz : E.noFtz = false) (f : Filter D S) (ch : Channel)
    (st : V5 D) (xs ys : List D) :
    chanState E f ch st (xs ++ ys) = chanState E f ch (chanState E f ch st xs) ys := by
  simp only [chanState, flushState, hz, runFilter_append]
  split <;> simp

theorem statesP_append {E : Env D S} (hz : E.noFtz = false) (ops : SampleOps D S T)
    (f : Filter D S) (fs gs : List (List T)) (cm : List Channel) :
    statesP E ops f (fs ++ gs) cm = statesP E ops (f.coreP E ops fs cm) gs cm := by
  apply List.ext_getElem?
  intro i
  simp only [statesP, Filter.coreP, List.getElem?_map, List.getElem?_zipIdx, colF64_append]
  cases h1 : cm[i]? with
  | none =>
    rw [List.getElem?_eq_none (by simp at h1; simp; omega),
      List.getElem?_eq_none (by simp at h1; simp; omega)]
    rfl
  | some ch =>
    cases h2 : f.filterState[i]? with
    | none =>
      rw [List.getElem?_eq_none (by simp at h2; simp; omega),
        List.getElem?_eq_none (by simp at h2; simp; omega)]
      rfl
    | some st =>
      have h3 : (List.map (fun x => chanState E f x.1.1 x.1.2 (colF64 ops x.2 fs))
          (cm.zip f.filterState).zipIdx)[i]? = some (chanState E f ch st (colF64 ops i fs)) := by
        rw [List.getElem?_map, List.getElem?_zipIdx, zip_some h1 h2]; simp
      rw [zip_some h1 h2, zip_some h1 h3]
      simp only [Option.map_some, Nat.zero_add]
      rw [chanState_append hz]
      rfl

theorem Filter.coreP_append {E : Env D S} (hz : E.noFtz = false) (ops : SampleOps D S T)
    (f : Filter D S) (fs gs : List (List T)) (cm : List Channel) :
    f.coreP E ops (fs ++ gs) cm = (f.coreP E ops fs cm).coreP E ops gs cm := by
  have := statesP_append hz ops f fs gs cm
  simp only [coreP] at this ⊢
  rw [this]
  congr 1
  cases f.tp with
  | none => rfl
  | some sc => simp [Scanner.feed_append]

theorem chanRow_append {E : Env D S} (hz : E.noFtz = false) (f : Filter D S) (ch : Channel)
    (st : V5 D) {row : List D} {idx : Nat} {xs : List D} (ys : List D)
    (h : idx + xs.length ≤ row.length) :
    chanRow E f ch st row idx (xs ++ ys) =
      chanRow E f ch (chanState E f ch st xs) (chanRow E f ch st row idx xs) (idx + xs.length) ys := by
  simp only [chanRow, chanState, flushState, hz, runFilter_append]
  split
  · rfl
  · rw [writeAt_append (by rw [runFilter_length]; exact h), runFilter_length]
    simp

theorem rowsP_append {E : Env D S} (hz : E.noFtz = false) (ops : SampleOps D S T)
    (f : Filter D S) {n L : Nat} {fs : List (List T)} (hf : RectF n fs) (gs : List (List T))
    {cm : List Channel} (hcm : cm.length = n) {rows : List (List D)}
    (hL : ∀ r ∈ rows, r.length = L) {idx : Nat} (hi : idx + fs.length ≤ L) :
    rowsP E ops f (fs ++ gs) rows idx cm =
      rowsP E ops (f.coreP E ops fs cm) gs (rowsP E ops f fs rows idx cm) (idx + fs.length) cm := by
  apply List.ext_getElem?
  intro i
  simp only [rowsP, Filter.coreP, List.getElem?_map, List.getElem?_zipIdx, colF64_append]
  cases h1 : cm[i]? with
  | none =>
    rw [List.getElem?_eq_none (by simp at h1; simp; omega),
      List.getElem?_eq_none (by simp at h1; simp; omega)]
    rfl
  | some ch =>
    have hc : i < n := by rw [← hcm]; exact (List.getElem?_eq_some_iff.1 h1).1
    cases h2 : f.filterState[i]? with
    | none =>
      rw [List.getElem?_eq_none (by simp at h2; simp; omega),
        List.getElem?_eq_none (by simp at h2; simp [statesP]; omega)]
      rfl
    | some st =>
      cases h4 : rows[i]? with
      | none =>
        rw [List.getElem?_eq_none (by simp at h4; simp; omega),
          List.getElem?_eq_none (by simp at h4; simp [statesP]; omega)]
        rfl
      | some row =>
        have h3 : (statesP E ops f fs cm)[i]? = some (chanState E f ch st (colF64 ops i fs)) := by
          rw [statesP, List.getElem?_map, List.getElem?_zipIdx, zip_some h1 h2]; simp
        have h5 : (List.map (fun x => chanRow E f x.1.1.1 x.1.1.2 x.1.2 idx (colF64 ops x.2 fs))
            ((cm.zip f.filterState).zip rows).zipIdx)[i]? =
            some (chanRow E f ch st row idx (colF64 ops i fs)) := by
          rw [List.getElem?_map, List.getElem?_zipIdx, zip_some (zip_some h1 h2) h4]; simp
        rw [zip_some (zip_some h1 h2) h4, zip_some (zip_some h1 h3) h5]
        simp only [Option.map_some, Nat.zero_add]
        have hlen := colF64_length ops hf hc
        rw [chanRow_append hz _ _ _ _ (by
          rw [hL row (List.mem_of_getElem? h4), hlen]; exact hi), hlen]
        rfl

theorem runSeed_eq (A : Arith D) (b a st : V5 D) (xs : List D) :
    runSeed A a st xs = (runFilter A b a st xs).1 := by
  induction xs generalizing st with
  | nil => rfl
  | cons x xs ih => simp [runSeed, runFilter, ih]

/-- `Filter::seed` advances filter and scanner state exactly as `Filter::process` and keeps the peaks. -/
theorem Filter.seed_eq [Samples Sm] [LawfulSamples Sm] (E : Env D S)
    (ops : SampleOps D S T) {f : Filter D S} {n : Nat} (hf : f.Inv n) {src : Sm T}
    (hw : LawfulSamples.WF src) (hn : Samples.channels src = n) {cm : List Channel}
    (hcm : cm.length = n) :
    f.seed E ops src cm = .done (f.coreP E ops (LawfulSamples.toFrames src) cm) := by
  have a2 : cm.length = f.channels := by rw [hf.channels, hcm]
  have a3 : Samples.channels src = f.channels := by rw [hf.channels, hn]
  have a4 : f.filterState.length = f.channels := by rw [hf.channels, hf.state]
  have a6 : f.truePeak.length = f.channels := by rw [hf.channels, hf.truePeak]
  have hn0 := hf.pos
  have hres : Run.forL (seedChannel E ops f src) cm.zipIdx =
      .done (statesP E ops f (LawfulSamples.toFrames src) cm) := by
    let fs := LawfulSamples.toFrames src
    let st0 : V5 D := f.filterState[0]'(by rw [hf.state]; exact hn0)
    rw [Run.forL_done (g := fun x =>
      chanState E f x.1 (f.filterState.getD x.2 st0) (colF64 ops x.2 fs))]
    · congr 1
      apply List.ext_getElem?
      intro i
      simp only [statesP, List.getElem?_map, List.getElem?_zipIdx]
      by_cases hi' : i < n
      · have e1 : cm[i]? = some (cm[i]'(by omega)) := List.getElem?_eq_getElem _
        have e3 : f.filterState[i]? = some (f.filterState[i]'(by rw [hf.state]; omega)) :=
          List.getElem?_eq_getElem _
        rw [zip_some e1 e3, e1]
        simp [e3, List.getD_eq_getElem?_getD, fs]
      · rw [List.getElem?_eq_none (by omega), List.getElem?_eq_none (by simp; omega)]
        rfl
    · rintro ⟨ch, c⟩ hx
      have hx' := List.mem_zipIdx_iff_getElem?.1 hx
      have hc : c < n := by rw [← hcm]; exact (List.getElem?_eq_some_iff.1 hx').1
      have e3 : f.filterState[c]? = some (f.filterState[c]'(by rw [hf.state]; omega)) :=
        List.getElem?_eq_getElem _
      simp only [seedChannel, Run.bind_eq, Run.index_some e3, Run.done_bind, chanState]
      split
      · simp [e3, List.getD_eq_getElem?_getD]
      · have hc' : c < Samples.channels src := by omega
        simp only [Run.assert_true hc', Run.done_bind, LawfulSamples.sample_eq hw c hc',
          runSeed_eq E.f64p f.b]
        simp [e3, List.getD_eq_getElem?_getD, fs, colF64]
  simp only [seed, Run.bind_eq, Run.assert_true a2, Run.assert_true a3, Run.assert_true a4,
    Run.done_bind, hres]
  cases htp : f.tp with
  | none => simp [coreP, htp]
  | some sc =>
    have hp : (List.replicate (Samples.channels src) E.f64p.zero).length = n := by simp [hn]
    simp only [Run.assert_true a6, Run.done_bind, Scanner.seed, Run.bind_eq,
      Scanner.checkTruePeak_eq E ops (hf.tp sc htp) hw hn hp, coreP, htp, Option.map_some,
      Scanner.checkP_fst E ops (hf.tp sc htp) _ hp]

/-! ## Construction and reset -/

theorem Scanner.init_inv (E : Env D S) {taps factor width : Nat} (h0 : 0 < taps)
    (h2 : taps * 2 ≤ TAPS) :
    (Interp.init E taps factor width).width = width ∧
      (Interp.init E taps factor width).buffer.Inv ∧ (Interp.init E taps factor width).Rect := by
  refine ⟨rfl, RollingBuffer.new_inv h0 h2 _, ?_⟩
  intro f hf
  simp only [Interp.init] at hf
  rw [List.eq_of_mem_replicate hf]
  simp [zeroFrame, Interp.init]

/-- The scanner built for a rate and channel count. -/
def Scanner.initP (E : Env D S) (rate channels : Nat) : Option (Scanner S) :=
  if rate < 96000 then some (mk 12 4)
  else if rate < 192000 then some (mk 24 2)
  else none
where
  mk (taps factor : Nat) : Scanner S :=
    if channels ∈ specializedChannels then .specialized channels (Interp.init E taps factor channels)
    else .generic (List.replicate channels (Interp.init E taps factor 1))

theorem Scanner.new_eq (E : Env D S) (rate channels : Nat) :
    Scanner.new E rate channels = .done (Scanner.initP E rate channels) := by
  have key : ∀ taps factor, taps * factor = TAPS → taps * 2 ≤ TAPS →
      Scanner.new.mk E channels taps factor = .done (some (Scanner.initP.mk E channels taps factor)) := by
    intro taps factor h h2
    unfold Scanner.new.mk Scanner.initP.mk
    split
    · simp only [Run.bind_eq, Interp.new_eq E h h2, Run.done_bind]
    · simp only [Run.bind_eq, Interp.new_eq E h h2, Run.done_bind]
  unfold Scanner.new Scanner.initP
  split
  · exact key 12 4 rfl (by decide)
  · split
    · exact key 24 2 rfl (by decide)
    · rfl

theorem Scanner.initP_inv (E : Env D S) {rate channels : Nat} {sc : Scanner S}
    (h : Scanner.initP E rate channels = some sc) : sc.Inv channels ∧ sc.Rect := by
  have key : ∀ taps factor, 0 < taps → taps * 2 ≤ TAPS →
      (Scanner.initP.mk E channels taps factor).Inv channels ∧
      (Scanner.initP.mk E channels taps factor).Rect := by
    intro taps factor h0 h2
    unfold Scanner.initP.mk
    split
    · exact ⟨⟨rfl, (init_inv E h0 h2).1, (init_inv E h0 h2).2.1⟩, (init_inv E h0 h2).2.2⟩
    · refine ⟨⟨by simp, fun ip hip => ?_⟩, fun ip hip => ?_⟩
      · rw [List.eq_of_mem_replicate hip]
        exact ⟨(init_inv E h0 h2).1, (init_inv E h0 h2).2.1⟩
      · rw [List.eq_of_mem_replicate hip]
        exact (init_inv E h0 h2).2.2
  unfold Scanner.initP at h
  split at h
  · cases h; exact key 12 4 (by decide) (by decide)
  · split at h
    · cases h; exact key 24 2 (by decide) (by decide)
    · cases h

/-- The filter built by `Filter::new`. -/
def Filter.init (E : Env D S) (rate channels : Nat) (sp tp : Bool) : Filter D S :=
  let ba := filterCoefficients E (E.f64.ofInt rate)
  { channels := channels
    b := ba.1
    a := ba.2
    filterState := List.replicate channels (zeroV5 E)
    calculateSamplePeak := sp
    samplePeak := List.replicate channels E.f64.zero
    tp := if tp then Scanner.initP E rate channels else none
    truePeak := List.replicate channels E.f64.zero }

theorem Filter.new_eq (E : Env D S) {rate channels : Nat} (hr : 0 < rate) (hc : 0 < channels)
    (sp tp : Bool) : Filter.new E rate channels sp tp = .done (Filter.init E rate channels sp tp) := by
  cases tp
  · simp only [Filter.new, Run.bind_eq, Run.assert_true hr, Run.assert_true hc, Run.done_bind,
      Filter.init, Bool.false_eq_true, if_false]
  · simp only [Filter.new, Run.bind_eq, Run.assert_true hr, Run.assert_true hc, Run.done_bind,
      Filter.init, if_true, Scanner.new_eq]

theorem Filter.init_inv (E : Env D S) (rate : Nat) {channels : Nat} (hc : 0 < channels)
    (sp tp : Bool) :
    (Filter.init E rate channels sp tp).Inv channels ∧ (Filter.init E rate channels sp tp).RectTp := by
  have htp : ∀ sc, (Filter.init E rate channels sp tp).tp = some sc → sc.Inv channels ∧ sc.Rect := by
    intro sc hsc
    simp only [Filter.init] at hsc
    split at hsc
    · exact Scanner.initP_inv E hsc
    · cases hsc
  exact ⟨⟨hc, rfl, by simp [init], by simp [init], by simp [init], fun sc h => (htp sc h).1⟩,
    fun sc h => (htp sc h).2⟩

/-- `UpsamplingScanner::reset` without faults. -/
def Scanner.resetP (E : Env D S) : Scanner S → Scanner S
  | .specialized ch ip => .specialized ch (ip.resetP E)
  | .generic ips => .generic (ips.map (Interp.resetP E))

theorem Scanner.reset_eq (E : Env D S) {sc : Scanner S} {n : Nat} (h : sc.Inv n) :
    sc.reset E = .done (sc.resetP E) := by
  cases sc with
  | specialized ch ip =>
    simp only [Scanner.reset, Run.bind_eq, Interp.reset_eq E h.2.2, Run.done_bind, resetP]
  | generic ips =>
    simp only [Scanner.reset, Run.bind_eq]
    rw [Run.forL_done (g := Interp.resetP E) (fun ip hip => Interp.reset_eq E (h.2 ip hip).2)]
    rfl

/-- `Filter::reset` without faults. -/
def Filter.resetP (E : Env D S) (f : Filter D S) : Filter D S :=
  { f with
    samplePeak := f.samplePeak.map fun _ => E.f64.zero
    truePeak := f.truePeak.map fun _ => E.f64.zero
    filterState := f.filterState.map fun _ => zeroV5 E
    tp := f.tp.map (Scanner.resetP E) }

theorem Filter.reset_eq (E : Env D S) {f : Filter D S} {n : Nat} (h : f.Inv n) :
    f.reset E = .done (f.resetP E) := by
  unfold Filter.reset Filter.resetP Filter.resetPeaks
  cases htp : f.tp with
  | none => simp [htp]
  | some sc => simp [htp, Scanner.reset_eq E (h.tp sc htp)]

theorem Interp.resetP_adv (E : Env D S) (ip : Interp S) (f : List S) :
    (ip.adv E f).resetP E = ip.resetP E := rfl

theorem Scanner.resetP_feed (E : Env D S) (ops : SampleOps D S T) (sc : Scanner S)
    (fs : List (List T)) : (sc.feed E ops fs).resetP E = sc.resetP E := by
  cases sc with
  | specialized ch ip =>
    simp only [feed, resetP]
    congr 1
    induction fs generalizing ip with
    | nil => rfl
    | cons f fs ih => rw [List.foldl_cons, ih]; rfl
  | generic ips =>
    simp only [feed, resetP, List.map_map]
    congr 1
    have key : ∀ (xs : List T) (ip : Interp S),
        (xs.foldl (fun ip s => ip.adv E [ops.toF32 s]) ip).resetP E = ip.resetP E := by
      intro xs
      induction xs with
      | nil => intro ip; rfl
      | cons x xs ih => intro ip; rw [List.foldl_cons, ih]; rfl
    have : (Interp.resetP E ∘ fun x : Interp S × Nat =>
        (column x.2 fs).foldl (fun ip s => ip.adv E [ops.toF32 s]) x.1) =
        fun x => x.1.resetP E := by
      funext x; exact key _ _
    rw [this]
    apply List.ext_getElem?
    intro i
    simp only [List.getElem?_map, List.getElem?_zipIdx]
    cases ips[i]? <;> simp

theorem map_const_eq {α β : Type} (l : List α) (b : β) : l.map (fun _ => b) = List.replicate l.length b :=
  List.map_const' ..

theorem Filter.resetP_coreP (E : Env D S) (ops : SampleOps D S T) {f : Filter D S} {n : Nat}
    (h : f.Inv n) (fs : List (List T)) {cm : List Channel} (hcm : cm.length = n) :
    (f.coreP E ops fs cm).resetP E = f.resetP E := by
  simp only [resetP, coreP, map_const_eq, statesP_length E ops h.state fs hcm, h.state]
  congr 1
  cases f.tp with
  | none => rfl
  | some sc => simp [Scanner.resetP_feed]

theorem Filter.resetP_processP (E : Env D S) (ops : SampleOps D S T) {f : Filter D S} {n : Nat}
    (h : f.Inv n) (hr : f.RectTp) {fs : List (List T)} (hf : RectF n fs) {cm : List Channel}
    (hcm : cm.length = n) :
    (f.processP E ops fs cm).resetP E = f.resetP E := by
  have h' := (processP_inv E ops h hr hf hcm).1
  simp only [resetP, map_const_eq, h.samplePeak, h.truePeak, h.state, h'.samplePeak, h'.truePeak,
    h'.state]
  simp only [processP]
  congr 1
  cases htp : f.tp with
  | none => rfl
  | some sc =>
    simp [Scanner.checkP_fst E ops (h.tp sc htp) fs h.truePeak, Scanner.resetP_feed]

theorem Filter.resetP_resetPeaks (E : Env D S) (f : Filter D S) :
    (f.resetPeaks E).resetP E = f.resetP E := by
  simp [resetP, resetPeaks, Function.comp_def]

theorem Filter.resetPeaks_inv (E : Env D S) {f : Filter D S} {n : Nat} (h : f.Inv n)
    (hr : f.RectTp) : (f.resetPeaks E).Inv n ∧ (f.resetPeaks E).RectTp :=
  ⟨⟨h.pos, h.channels, h.state, by simp [resetPeaks, h.samplePeak],
    by simp [resetPeaks, h.truePeak], h.tp⟩, hr⟩

theorem Filter.strip_resetPeaks (E : Env D S) (f : Filter D S) : (f.resetPeaks E).strip = f.strip := rfl

theorem Interp.resetP_idem (E : Env D S) (ip : Interp S) : (ip.resetP E).resetP E = ip.resetP E := rfl

theorem Filter.resetP_idem (E : Env D S) (f : Filter D S) : (f.resetP E).resetP E = f.resetP E := by
  simp only [resetP, List.map_map, Function.comp_def, Option.map_map]
  congr 1
  cases f.tp with
  | none => rfl
  | some sc =>
    cases sc with
    | specialized ch ip => rfl
    | generic ips => simp [Scanner.resetP, Function.comp_def, Interp.resetP_idem]

theorem Filter.resetP_init (E : Env D S) (rate channels : Nat) (sp tp : Bool) :
    (Filter.init E rate channels sp tp).resetP E = Filter.init E rate channels sp tp := by
  have key : ∀ taps factor, (Scanner.initP.mk E channels taps factor).resetP E =
      Scanner.initP.mk E channels taps factor := by
    intro taps factor
    unfold Scanner.initP.mk
    split
    · rfl
    · simp only [Scanner.resetP, List.map_replicate]; rfl
  simp only [Filter.init, Filter.resetP, List.map_replicate]
  congr 1
  split
  · unfold Scanner.initP
    split
    · simp [key]
    · split
      · simp [key]
      · rfl
  · rfl

end Verif
