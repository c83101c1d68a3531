import Verif.Proofs.CRefFloat
import Verif.Spec.Libm
/-!
# C62: filter, sample peak and block energy agree with the C reference

The crate is a port of libebur128; `tests/c` holds the C functions it was ported from.  With hardware
flush-to-zero the filter and the sample peak of the two are the same bit for bit, for every sequence of
calls with samples of any format, and so is the energy of every block.  Without it they are the same as
long as C keeps no filter state below `f64::EPSILON`; where it does they differ.
-/

namespace Verif
open Fl Spec CRef

namespace CRef
variable {D S T : Type}

/-! ## The block energy -/

theorem isCode_codeOf (ch : Channel) : IsCode ch (codeOf ch) := by
  cases ch <;> rfl

theorem forall₂_code (cm : List Channel) : List.Forall₂ IsCode cm (cm.map codeOf) := by
  induction cm with
  | nil => exact .nil
  | cons ch cm ih => exact .cons (isCode_codeOf ch) ih

/-- A planar buffer as rows. -/
theorem exists_rows {n L : Nat} (hL : 0 < L) {planar : List D} (h : planar.length = n * L) :
    ∃ rows : List (List D), planar = rows.flatten ∧ rows.length = n ∧ ∀ r ∈ rows, r.length = L := by
  obtain ⟨h1, h2, h3⟩ := chunksExact_rect (n := L) (by omega) planar (by rw [h]; exact Nat.mul_mod_left _ _)
  exact ⟨_, h2.symm, by rw [h3, h, Nat.mul_div_cancel _ hL], h1⟩

/-- The same samples, by rows. -/
theorem same_rows {n L : Nat} {rows : List (List D)} {inter : List D} (hr : rows.length = n)
    (hL : ∀ r ∈ rows, r.length = L) (h : SameSamples n L rows.flatten inter) {c : Nat} {row : List D}
    (hc : rows[c]? = some row) (i : Nat) (hi : i < L) : inter[i * n + c]? = row[i]? := by
  have hcn : c < n := by rw [← hr]; exact (List.getElem?_eq_some_iff.1 hc).1
  rw [← h.same c i hcn hi, flatten_getElem? hL hi c, hc]; rfl

/-- **C62, block energy.** On buffers with the same samples, of any layout, for any block length, position
and channel map, in any arithmetic. -/
theorem _root_.Verif.C62_block (E : Env D S) {n L fpb idx : Nat} (hn : 0 < n) (hL0 : 0 < L)
    {planar inter : List D} (h : SameSamples n L planar inter) {cm : List Channel} (hcm : cm.length = n)
    (hi : idx ≤ L) (hf : fpb ≤ L) :
    ∃ x, Verif.calcGatingBlock E fpb planar idx cm = .done x ∧
      CRef.calcGatingBlock E.f64 fpb inter L (idx * n) (cm.map codeOf) n = .done x := by
  obtain ⟨rows, rfl, hr, hL⟩ := exists_rows hL0 h.planar_length
  refine ⟨_, calcGatingBlock_eq E hn hr hL (by omega) hcm hi hf, ?_⟩
  have hz : (cm.zip rows).length = n := by rw [List.length_zip, hcm, hr, Nat.min_self]
  have key := loop_list (f := blockChannel E.f64 fpb inter L (idx * n) (cm.map codeOf) n)
    (g := addChan E.f64 fpb idx) (cm.zip rows) hz E.f64.zero ?_
  · simp only [CRef.calcGatingBlock, key, Run.bind_eq, Run.done_bind, gatingP]
  · rintro s c ⟨ch, row⟩ hx
    rw [List.getElem?_zip_eq_some] at hx
    have hrl := hL row (List.mem_of_getElem? hx.2)
    refine blockChannel_eq E.f64 hn hrl hi hf (by rw [List.getElem?_map, hx.1]; rfl) (isCode_codeOf ch) ?_ s
    intro i hi'
    exact same_rows hr hL h hx.2 i (by omega)

/-! ## One call -/

theorem runFilter_tail (A : Arith D) (b a : V5 D) {v w : V5 D} (h : SameState v w) (xs : List D) :
    (runFilter A b a v xs).2 = (runFilter A b a w xs).2 ∧
      SameState (runFilter A b a v xs).1 (runFilter A b a w xs).1 := by
  induction xs generalizing v w with
  | nil => exact ⟨rfl, h⟩
  | cons x xs ih =>
    obtain ⟨h1, h2, h3, h4⟩ := h
    have e : filterIn A a v x = filterIn A a w x := by simp only [filterIn, h1, h2, h3, h4]
    obtain ⟨i1, i2⟩ := ih (v := filterShift v (filterIn A a v x)) (w := filterShift w (filterIn A a w x))
      ⟨e, h1, h2, h3⟩
    refine ⟨?_, i2⟩
    rw [e] at i1
    simp only [runFilter, e, filterOut, h1, h2, h3, h4, i1]

/-- The two filters hold the same, apart from the true peak. -/
structure Same (n M : Nat) (f : Verif.Filter D S) (g : Filter D S) : Prop where
  inv : f.Inv n
  rect : f.RectTp
  channels : g.channels = n
  v : g.v.length = n
  peak : g.truePeak.length = n
  tp : ∀ tp, g.tp = some tp → tp.Inv n ∧ tp.inputFrames = M
  a : f.a = g.a
  b : f.b = g.b
  measured : f.calculateSamplePeak = g.calculateSamplePeak
  samplePeak : f.samplePeak = g.samplePeak
  state : ∀ (c : Nat) (v w : V5 D), f.filterState[c]? = some v → g.v[c]? = some w → SameState v w

theorem writeAt_get {row ys : List D} {idx : Nat} (h : idx + ys.length ≤ row.length) (i : Nat) :
    (writeAt row idx ys)[i]? =
      if idx ≤ i ∧ i < idx + ys.length then ys[i - idx]? else row[i]? := by
  unfold writeAt
  have ht : (row.take idx).length = idx := by rw [List.length_take]; omega
  rw [List.append_assoc, List.getElem?_append, ht]
  by_cases h1 : i < idx
  · rw [if_pos h1, if_neg (by omega), List.getElem?_take_of_lt h1]
  · rw [if_neg h1, List.getElem?_append]
    by_cases h2 : i - idx < ys.length
    · rw [if_pos h2, if_pos (by omega)]
    · rw [if_neg h2, if_neg (by omega), List.getElem?_drop]
      congr 1; omega

/-- One call with corresponding sample conversions. -/
theorem same_step {E : Env D S} {ops : SampleOps D S T} {cs : CSample D T} {n M L idx : Nat}
    {f : Verif.Filter D S} {g : Filter D S} (h : Same n M f g) (hL0 : 0 < L) {data : List T}
    (hdata : data.length % n = 0) (hidx : idx + data.length / n ≤ L) {cm : List Channel}
    (hcm : cm.length = n) (hM : g.tp ≠ none → data.length / n ≤ M)
    (hop : ∀ x ∈ data, ops.toF64 x = E.f64p.div (cs.toDouble x) cs.scale)
    {ok : D → Prop} (h0 : ok E.f64p.zero)
    (hmax : ∀ m x, ok m → keepMax E.f64p m x = maxBy E.f64p.lt m (E.f64p.abs x) ∧
      ok (maxBy E.f64p.lt m (E.f64p.abs x)))
    (hraw : ∀ x, ops.raw x = cs.toDouble x) (hscale : ops.maxAmp = cs.scale)
    {clear : V5 D → Prop}
    (hfl : ∀ v w, SameState v w → clear (flushManually E w) → SameState (flushState E v) (flushManually E w))
    {planar inter : List D} (hs : SameSamples n L planar inter) :
    ∃ f' planar' g' audio',
      f.process E ops (⟨data, n⟩ : Interleaved T) planar idx cm = .done (f', planar') ∧
      g.process E cs (data.length / n) data (inter.drop (idx * n)) (cm.map codeOf) = .done (g', audio') ∧
      ((∀ w ∈ g'.v, clear w) → Same n M f' g') ∧
      SameSamples n L planar' (inter.take (idx * n) ++ audio') ∧ (g'.tp = none ↔ g.tp = none) := by
  have hn := h.inv.pos
  have hn' : n ≠ 0 := by omega
  obtain ⟨rows, rfl, hr, hrl⟩ := exists_rows hL0 hs.planar_length
  obtain ⟨hfr, hflat, hlen⟩ := chunksExact_rect hn' data hdata
  have hwf : LawfulSamples.WF (⟨data, n⟩ : Interleaved T) := ⟨hn', hdata⟩
  have htf : LawfulSamples.toFrames (⟨data, n⟩ : Interleaved T) = chunksExact n data := rfl
  have e1 := Filter.process_eq E ops h.inv hwf rfl hr hrl (by omega) hcm (idx := idx) (by rw [htf, hlen]; exact hidx)
  rw [htf] at e1
  have hil : inter.length = n * L := hs.inter_length
  have hdl : data.length ≤ (inter.drop (idx * n)).length := by
    rw [List.length_drop, hil]
    have : (idx + data.length / n) * n ≤ L * n := Nat.mul_le_mul_right _ hidx
    rw [Nat.add_mul, Nat.div_mul_cancel (Nat.dvd_of_mod_eq_zero hdata), Nat.mul_comm L n] at this
    omega
  obtain ⟨vs, audio, k1, k2, k3, k4⟩ := filterChannels (E := E) (ops := ops) (cs := cs) (g := g) hn h.channels h.v
    hdata hop hcm (forall₂_code cm) hdl
  -- true peak
  obtain ⟨tp', tpk, k5, k6, k7, k8⟩ : ∃ tp' tpk, (match g.tp with
      | some tp => do
        let r ← tp.check E cs (data.length / n) data g.truePeak
        Run.done (some r.1, r.2)
      | none => Run.done (none, g.truePeak)) = .done (tp', tpk) ∧ tpk.length = n ∧
      (∀ tp, tp' = some tp → tp.Inv n ∧ tp.inputFrames = M) ∧ (tp' = none ↔ g.tp = none) := by
    cases hg : g.tp with
    | none => exact ⟨none, g.truePeak, rfl, h.peak, by simp, by simp⟩
    | some tp =>
      obtain ⟨i1, i2⟩ := h.tp tp hg
      have := TruePeak.check_eq E cs hn i1 hdata (by rw [i2]; exact hM (by simp [hg])) h.peak
      simp only [this, Run.bind_eq, Run.done_bind]
      obtain ⟨j1, j2⟩ := peakFold_inv E cs (st := (tp.interp, g.truePeak)) i1.interp h.peak hfr
      refine ⟨_, _, rfl, ?_, ?_, by simp⟩
      · exact j2
      · rintro tp2 h2
        obtain rfl := Option.some.inj h2
        exact ⟨⟨i1.channels, j1⟩, i2⟩
  have k9 : (if g.calculateSamplePeak then
      loop 0 g.channels g.samplePeak (samplePeakChannel E cs g.channels (data.length / n) data)
    else Run.done g.samplePeak) = .done (samplePeaksP E ops f (chunksExact n data)) := by
    unfold samplePeaksP
    rw [← h.measured, ← h.samplePeak, h.channels]
    split
    · exact samplePeaks hn hdata h0 hmax hraw hscale h.inv.samplePeak
    · rfl
  have e2 : g.process E cs (data.length / n) data (inter.drop (idx * n)) (cm.map codeOf) =
      .done ({ g with v := vs, samplePeak := samplePeaksP E ops f (chunksExact n data), tp := tp',
                      truePeak := tpk }, audio) := by
    unfold Filter.process
    generalize samplePeaksP E ops f (chunksExact n data) = spk at k9
    simp only [Run.bind_eq] at k5 ⊢
    rw [h.channels] at k9 ⊢
    cases hg : g.tp with
    | none =>
      rw [hg] at k5
      obtain ⟨rfl, rfl⟩ : none = tp' ∧ g.truePeak = tpk := by simpa using k5
      cases hc : g.calculateSamplePeak <;> simp only [hc, if_true, if_false, Bool.false_eq_true] at k9 ⊢
      · obtain rfl : g.samplePeak = spk := by simpa using k9
        simp only [k1, Run.done_bind]
      · rw [k9]; simp only [k1, Run.done_bind]
    | some tp =>
      rw [hg] at k5
      cases hk : tp.check E cs (data.length / n) data g.truePeak with
      | done r =>
        simp only [hk, Run.done_bind] at k5 ⊢
        obtain ⟨rfl, rfl⟩ : some r.1 = tp' ∧ r.2 = tpk := by simpa using k5
        cases hc : g.calculateSamplePeak <;> simp only [hc, if_true, if_false, Bool.false_eq_true] at k9 ⊢
        · obtain rfl : g.samplePeak = spk := by simpa using k9
          simp only [k1, Run.done_bind]
        · rw [k9]; simp only [k1, Run.done_bind]
      | panic => simp [hk, Run.bind] at k5
      | hang => simp [hk, Run.bind] at k5
  refine ⟨_, _, _, _, e1, e2, fun hcl => ?_, ?_, k8⟩
  · obtain ⟨j1, j2⟩ := Filter.processP_inv E ops h.inv h.rect hfr hcm
    refine ⟨j1, j2, h.channels, k2, k6, k7, h.a, h.b, h.measured, rfl, ?_⟩
    intro c v' w' hv' hw'
    have hc : c < n := by rw [← k2]; exact (List.getElem?_eq_some_iff.1 hw').1
    have f1 : cm[c]? = some (cm[c]'(by omega)) := List.getElem?_eq_getElem _
    have f2 : f.filterState[c]? = some (f.filterState[c]'(by rw [h.inv.state]; exact hc)) := List.getElem?_eq_getElem _
    have f3 : g.v[c]? = some (g.v[c]'(by rw [h.v]; exact hc)) := List.getElem?_eq_getElem _
    have hst := h.state c _ _ f2 f3
    obtain ⟨l1, -⟩ := k4 c _ _ f1 f3
    generalize cm[c]'(by omega) = ch at f1 l1
    generalize f.filterState[c]'(by rw [h.inv.state]; exact hc) = v at f2 hst
    generalize g.v[c]'(by rw [h.v]; exact hc) = w at f3 hst l1
    have hv2 : v' = chanState E f ch v (colF64 ops c (chunksExact n data)) := by
      have : (f.processP E ops (chunksExact n data) cm).filterState[c]? =
          some (chanState E f ch v (colF64 ops c (chunksExact n data))) := by
        simp only [Filter.processP, statesP, List.getElem?_map, List.getElem?_zipIdx, zip_some f1 f2]
        simp
      exact Option.some.inj (hv'.symm.trans this)
    have hw2 := Option.some.inj (hw'.symm.trans l1)
    have hclear := hcl w' (List.mem_of_getElem? hw')
    subst hv2
    rw [hw2] at hclear ⊢
    unfold chanState
    by_cases hu : ch = .unused
    · simp only [if_pos hu]; exact hst
    · simp only [if_neg hu] at hclear ⊢
      refine hfl _ _ ?_ hclear
      rw [h.a, h.b]
      exact (runFilter_tail E.f64p g.b g.a hst _).2
  · have hrows := rowsP_rows E ops (f := f) hfr hcm hrl (idx := idx) (by rw [hlen]; exact hidx)
    have hrl2 := rowsP_length E ops (f := f) h.inv.state (chunksExact n data) hcm hr idx
    have htl : (inter.take (idx * n)).length = idx * n := by
      rw [List.length_take, hil]
      have : idx * n ≤ L * n := Nat.mul_le_mul_right _ (by omega)
      rw [Nat.mul_comm L n] at this
      omega
    constructor
    · rw [length_flatten_of hrows, hrl2]
    · rw [List.length_append, k3, List.length_drop, htl, hil]
      have : idx * n ≤ L * n := Nat.mul_le_mul_right _ (by omega)
      rw [Nat.mul_comm L n] at this
      omega
    · intro c i hc hi
      have f1 : cm[c]? = some (cm[c]'(by omega)) := List.getElem?_eq_getElem _
      have f2 : f.filterState[c]? = some (f.filterState[c]'(by rw [h.inv.state]; exact hc)) := List.getElem?_eq_getElem _
      have f3 : g.v[c]? = some (g.v[c]'(by rw [h.v]; exact hc)) := List.getElem?_eq_getElem _
      have f4 : rows[c]? = some (rows[c]'(by omega)) := List.getElem?_eq_getElem _
      have hst := h.state c _ _ f2 f3
      have hrc := hrl _ (List.mem_of_getElem? f4)
      obtain ⟨-, l2⟩ := k4 c _ _ f1 f3
      generalize cm[c]'(by omega) = ch at f1 l2
      generalize f.filterState[c]'(by rw [h.inv.state]; exact hc) = v at f2 hst
      generalize g.v[c]'(by rw [h.v]; exact hc) = w at f3 hst l2
      have hsame := same_rows hr hrl hs f4 i hi
      generalize rows[c]'(by omega) = row at f4 hrc hsame
      have hxl : (colF64 ops c (chunksExact n data)).length = data.length / n := by
        rw [colF64_length ops hfr hc, hlen]
      have hL1 : (rowsP E ops f (chunksExact n data) rows idx cm)[c]? =
          some (chanRow E f ch v row idx (colF64 ops c (chunksExact n data))) := by
        simp only [rowsP, List.getElem?_map, List.getElem?_zipIdx, zip_some (zip_some f1 f2) f4]
        simp
      rw [flatten_getElem? hrows hi c, hL1]
      have hout := (runFilter_tail E.f64p g.b g.a hst (colF64 ops c (chunksExact n data))).1
      have hol := runFilter_length E.f64p g.b g.a w (colF64 ops c (chunksExact n data))
      have hinter : (inter.drop (idx * n))[(i - idx) * n + c]? = if idx ≤ i then row[i]? else
          (inter.drop (idx * n))[(i - idx) * n + c]? := by
        split
        · next hle =>
          rw [List.getElem?_drop, ← hsame]
          congr 1
          rw [Nat.sub_mul]
          have := Nat.mul_le_mul_right n hle
          omega
        · rfl
      rw [List.getElem?_append, htl]
      by_cases hlt : i < idx
      · have h1 : i * n + c < idx * n := by
          calc i * n + c < i * n + n := by omega
            _ = (i + 1) * n := by ring
            _ ≤ idx * n := Nat.mul_le_mul_right _ hlt
        rw [if_pos h1, List.getElem?_take_of_lt h1, hsame]
        show (chanRow E f ch v row idx (colF64 ops c (chunksExact n data)))[i]? = _
        unfold chanRow
        split
        · rfl
        · rw [writeAt_get (by rw [runFilter_length, hxl, hrc]; exact hidx), if_neg (by omega)]
      · have h1 : idx * n ≤ i * n := Nat.mul_le_mul_right n (by omega)
        rw [if_neg (by omega), show i * n + c - idx * n = (i - idx) * n + c by rw [Nat.sub_mul]; omega, l2]
        show (chanRow E f ch v row idx (colF64 ops c (chunksExact n data)))[i]? = _
        rw [if_pos (show idx ≤ i by omega)] at hinter
        rw [hinter]
        unfold chanRow
        by_cases hu : ch = .unused
        · simp [hu]
        · rw [if_neg hu, writeAt_get (by rw [runFilter_length, hxl, hrc]; exact hidx)]
          rw [runFilter_length, hxl, h.a, h.b, hout]
          have : (idx ≤ i ∧ i < idx + data.length / n) ↔ (ch ≠ .unused ∧ i - idx < data.length / n) := by
            constructor
            · intro hh; exact ⟨hu, by omega⟩
            · intro hh; omega
          simp only [this]

/-! ## IEEE-754 -/

variable {m : Libm F64} {bs : BSearch} {t : Target}

theorem lt_chain {φ : Fmt} {a b c : Fl φ} (h1 : Fl.lt a b = true) (h2 : Fl.lt b c = true) : Fl.lt a c = true := by
  cases a <;> cases b <;> cases c <;> simp_all [Fl.lt]
  omega

theorem dblMin_lt_epsilon : Fl.lt (dblMin (Fl.arith Fmt.b64)) (epsilon (Fl.arith Fmt.b64)) = true := by
  decide +kernel

/-- The two software flushes agree where nothing lies between the two limits. -/
theorem flush_value {x : F64}
    (h : Fl.lt (Fl.abs (if Fl.lt (Fl.abs x) (dblMin (Fl.arith Fmt.b64)) then Fl.zero false else x))
        (epsilon (Fl.arith Fmt.b64)) = true →
      (if Fl.lt (Fl.abs x) (dblMin (Fl.arith Fmt.b64)) then Fl.zero false else x) = Fl.zero false) :
    (if Fl.lt (Fl.abs x) (epsilon (Fl.arith Fmt.b64)) then Fl.zero false else x) =
      if Fl.lt (Fl.abs x) (dblMin (Fl.arith Fmt.b64)) then Fl.zero false else x := by
  by_cases h1 : Fl.lt (Fl.abs x) (dblMin (Fl.arith Fmt.b64)) = true
  · rw [if_pos h1, if_pos (lt_chain h1 dblMin_lt_epsilon)]
  · rw [if_neg h1] at h ⊢
    split
    · next h2 => exact (h h2).symm
    · rfl

theorem flush_same (v w : V5 F64) (h : SameState v w)
    (hc : t.sse2 = false → Clear (flushManually (ieeeEnv m bs t) w)) :
    SameState (flushState (ieeeEnv m bs t) v) (flushManually (ieeeEnv m bs t) w) := by
  cases hs : t.sse2 with
  | true => simpa only [flushState, flushManually, ieeeEnv, hs, Bool.not_true, Bool.false_eq_true, if_false] using h
  | false =>
    have e : ieeeEnv m bs t = ieeeEnv m bs ⟨false, t.fused, t.usizeMax⟩ := by rw [← hs]
    have hc := hc hs
    rw [e] at hc ⊢
    clear e
    obtain ⟨h1, h2, h3, h4⟩ := h
    unfold Clear at hc
    simp only [List.mem_cons, List.not_mem_nil, or_false, forall_eq_or_imp, forall_eq] at hc
    obtain ⟨c1, c2, c3, c4⟩ := hc
    refine ⟨?_, ?_, ?_, ?_⟩
    · show (if Fl.lt (Fl.abs v.v1) (epsilon (Fl.arith Fmt.b64)) then Fl.zero false else v.v1) = _
      rw [h1]
      exact flush_value c1
    · show (if Fl.lt (Fl.abs v.v2) (epsilon (Fl.arith Fmt.b64)) then Fl.zero false else v.v2) = _
      rw [h2]
      exact flush_value c2
    · show (if Fl.lt (Fl.abs v.v3) (epsilon (Fl.arith Fmt.b64)) then Fl.zero false else v.v3) = _
      rw [h3]
      exact flush_value c3
    · show (if Fl.lt (Fl.abs v.v4) (epsilon (Fl.arith Fmt.b64)) then Fl.zero false else v.v4) = _
      rw [h4]
      exact flush_value c4

theorem ftz_of_not_subnormal {x : F64} (h : ¬ Subnormal64 x) : Fl.ftz x = x := by
  cases x with
  | nan => rfl
  | num s k hk =>
    apply Fl.ftz_eq
    unfold Subnormal64 at h
    show k = 0 ∨ 2 ^ 52 ≤ k
    omega

/-- One call in IEEE-754 arithmetic. -/
theorem ieee_step {n M L : Nat} {tp : Bool} {f : Verif.Filter F64 F32} {g : Filter F64 F32} (h : Same n M f g)
    (hL0 : 0 < L) {planar inter : List F64} (hs : SameSamples n L planar inter) (htp : g.tp ≠ none → tp = true)
    {call : FilterCall} (hok : call.Ok t n L M tp) :
    ∃ f' planar' g' inter',
      rustCall (ieeeEnv m bs t) n (f, planar) call = .done (f', planar') ∧
      cCall (ieeeEnv m bs t) n (g, inter) call = .done (g', inter') ∧
      ((∀ w ∈ g'.v, t.sse2 = false → Clear w) → Same n M f' g') ∧ SameSamples n L planar' inter' ∧
      (g'.tp ≠ none → tp = true) := by
  have h0 : Fl.lt (ieeeEnv m bs t).f64p.zero (Fl.zero false) = false := by
    rcases t with ⟨_ | _, _, _⟩ <;> rfl
  have main : ∀ {T : Type} (ops : SampleOps F64 F32 T) (cs : CSample F64 T) (l : List T) (i : Nat)
      (cm : List Channel), l.length % n = 0 ∧ i + l.length / n ≤ L ∧ cm.length = n ∧
        (tp = true → l.length / n ≤ M) →
      (∀ x ∈ l, ops.toF64 x = (ieeeEnv m bs t).f64p.div (cs.toDouble x) cs.scale) →
      (∀ x, ops.raw x = cs.toDouble x) → ops.maxAmp = cs.scale →
      ∃ f' planar' g' inter',
      f.process (ieeeEnv m bs t) ops (⟨l, n⟩ : Interleaved T) planar i cm = .done (f', planar') ∧
      cProcess (ieeeEnv m bs t) n cs (g, inter) l i cm = .done (g', inter') ∧
      ((∀ w ∈ g'.v, t.sse2 = false → Clear w) → Same n M f' g') ∧ SameSamples n L planar' inter' ∧
      (g'.tp ≠ none → tp = true) := by
    rintro T ops cs l i cm ⟨o1, o2, o3, o4⟩ hop hraw hscale
    obtain ⟨f', planar', g', audio', r1, r2, r3, r4, r5⟩ := same_step h hL0 o1 o2 o3
      (fun hg => o4 (htp hg)) hop (ok := fun x => Fl.lt x (Fl.zero false) = false) h0
      (fun M x hM => keepMax_p M x hM) hraw hscale
      (clear := fun w => t.sse2 = false → Clear w) (fun v w => flush_same v w) hs
    refine ⟨f', planar', g', _, r1, ?_, r3, r4, fun hg => htp fun h' => hg (r5.2 h')⟩
    simp only [cProcess, r2, Run.bind_eq, Run.done_bind]
  cases call with
  | resetPeaks =>
    refine ⟨_, _, _, _, rfl, rfl, fun _ => ?_, hs, htp⟩
    obtain ⟨i1, i2⟩ := Filter.resetPeaks_inv (ieeeEnv m bs t) h.inv h.rect
    refine ⟨i1, i2, h.channels, h.v, ?_, h.tp, h.a, h.b, h.measured, ?_, h.state⟩
    · simp [Filter.resetPeaks, h.channels]
    · simp only [Verif.Filter.resetPeaks, Filter.resetPeaks, map_const_eq, h.inv.samplePeak, h.channels]
  | process x i cm =>
    obtain ⟨o1, o2, o3, o4, o5⟩ := hok
    cases x with
    | short l =>
      exact main _ _ l i cm ⟨o1, o2, o3, o4⟩ (fun x _ => short_op x) (fun _ => rfl)
        ((lit_p _ _).trans short_scale.symm)
    | int l =>
      exact main _ _ l i cm ⟨o1, o2, o3, o4⟩ (fun x _ => int_op x) (fun _ => rfl)
        ((lit_p _ _).trans int_scale.symm)
    | float l =>
      exact main _ _ l i cm ⟨o1, o2, o3, o4⟩ (fun x _ => float_op x) (fun _ => rfl)
        ((lit_p _ _).trans float_scale.symm)
    | double l =>
      exact main _ _ l i cm ⟨o1, o2, o3, o4⟩
        (fun x hx => double_op fun hs => ftz_of_not_subnormal (o5 hs x hx)) (fun _ => rfl)
        ((lit_p _ _).trans double_scale.symm)

/-- Any number of calls. -/
theorem ieee_calls {n M L : Nat} {tp : Bool} (hL0 : 0 < L) (calls : List FilterCall)
    (hok : ∀ c ∈ calls, c.Ok t n L M tp) {f : Verif.Filter F64 F32} {g : Filter F64 F32} (h : Same n M f g)
    {planar inter : List F64} (hs : SameSamples n L planar inter) (htp : g.tp ≠ none → tp = true)
    (hcl : t.sse2 = false → ∀ k g' a', Run.foldL (cCall (ieeeEnv m bs t) n) (g, inter) (calls.take k) = .done (g', a') →
      ∀ w ∈ g'.v, Clear w) :
    ∃ f' planar' g' inter',
      Run.foldL (rustCall (ieeeEnv m bs t) n) (f, planar) calls = .done (f', planar') ∧
      Run.foldL (cCall (ieeeEnv m bs t) n) (g, inter) calls = .done (g', inter') ∧
      Same n M f' g' ∧ SameSamples n L planar' inter' := by
  induction calls generalizing f g planar inter with
  | nil => exact ⟨f, planar, g, inter, rfl, rfl, h, hs⟩
  | cons c cs ih =>
    obtain ⟨f1, p1, g1, i1, r1, r2, r3, r4, r5⟩ := ieee_step (m := m) (bs := bs) h hL0 hs htp
      (hok c List.mem_cons_self)
    have hs1 : Same n M f1 g1 := r3 fun w hw hsse => hcl hsse 1 g1 i1
      (by simp only [List.take_succ_cons, List.take_zero, Run.foldL, r2, Run.done_bind]) w hw
    obtain ⟨f2, p2, g2, i2, q1, q2, q3, q4⟩ := ih (fun c hc => hok c (List.mem_cons_of_mem _ hc)) hs1 r4 r5
      (fun hsse k g' a' hk => hcl hsse (k + 1) g' a'
        (by simpa only [List.take_succ_cons, Run.foldL, r2, Run.bind_eq, Run.done_bind] using hk))
    refine ⟨f2, p2, g2, i2, ?_, ?_, q3, q4⟩
    · simpa only [Run.foldL, r1, Run.bind_eq, Run.done_bind] using q1
    · simpa only [Run.foldL, r2, Run.bind_eq, Run.done_bind] using q2

/-- New filters are the same. -/
theorem ieee_new {rate n : Nat} (hn : 0 < n) (sp tp : Bool) :
    ∃ g, Filter.create (ieeeEnv m bs t) rate n sp tp = .done g ∧
      Same n ((rate + 5) / 10 * 4) (Verif.Filter.init (ieeeEnv m bs t) rate n sp tp) g ∧
      (g.tp ≠ none → tp = true) := by
  obtain ⟨i1, i2⟩ := Filter.init_inv (ieeeEnv m bs t) rate hn sp tp
  obtain ⟨o, ho, hinv⟩ : ∃ o, (if tp then TruePeak.create (ieeeEnv m bs t) rate n else Run.done none) = .done o ∧
      (∀ tp, o = some tp → tp.Inv n ∧ tp.inputFrames = (rate + 5) / 10 * 4) ∧ (o ≠ none → tp = true) := by
    cases tp with
    | false => exact ⟨none, rfl, by simp, by simp⟩
    | true =>
      obtain ⟨o, h1, h2⟩ := TruePeak.create_inv (ieeeEnv m bs t) rate n
      exact ⟨o, by simpa using h1, h2, fun _ => rfl⟩
  have hc := coefficients_eq (m := m) (bs := bs) (t := t) rate
  refine ⟨⟨n, (coefficients (ieeeEnv m bs t) rate).1, (coefficients (ieeeEnv m bs t) rate).2,
    List.replicate n (zeroV5 (ieeeEnv m bs t)), sp, List.replicate n (ieeeEnv m bs t).f64.zero, o,
    List.replicate n (ieeeEnv m bs t).f64.zero⟩, ?_, ?_, hinv.2⟩
  · unfold Filter.create
    simp only [Run.bind_eq]
    cases tp with
    | false =>
      obtain rfl : none = o := by simpa using ho
      rfl
    | true =>
      have ho : TruePeak.create (ieeeEnv m bs t) rate n = .done o := by simpa using ho
      simp only [if_true, ho, Run.done_bind]
      rfl
  · refine ⟨i1, i2, rfl, by simp, by simp, hinv.1, ?_, ?_, rfl, rfl, ?_⟩
    · exact congrArg Prod.snd hc.symm
    · exact congrArg Prod.fst hc.symm
    · intro c v w hv hw
      have hv := List.mem_of_getElem? hv
      have hw := List.mem_of_getElem? hw
      obtain rfl := List.eq_of_mem_replicate hw
      obtain rfl := List.eq_of_mem_replicate (show v ∈ List.replicate n (zeroV5 (ieeeEnv m bs t)) from hv)
      exact ⟨rfl, rfl, rfl, rfl⟩

theorem same_silence (n L : Nat) (z : D) : SameSamples n L (List.replicate (n * L) z) (List.replicate (n * L) z) := by
  refine ⟨by simp, by simp, fun c i hc hi => ?_⟩
  have h1 : c * L + i < n * L := by
    calc c * L + i < c * L + L := by omega
      _ = (c + 1) * L := by ring
      _ ≤ n * L := Nat.mul_le_mul_right _ hc
  have h2 : i * n + c < n * L := by
    calc i * n + c < i * n + n := by omega
      _ = (i + 1) * n := by ring
      _ ≤ L * n := Nat.mul_le_mul_right _ hi
      _ = n * L := Nat.mul_comm _ _
  rw [List.getElem?_replicate, List.getElem?_replicate, if_pos h1, if_pos h2]

end CRef

variable {m : Libm F64} {bs : BSearch} {t : Target}

/-- **C62.** A new filter and any series of calls: neither filter faults, the outputs and the sample peaks
are the same, the states are the same, and so is the energy of every block of the output. -/
theorem C62_filter {rate n L : Nat} (hr : 0 < rate) (hn : 0 < n) (hL : 0 < L) (sp tp : Bool)
    (calls : List FilterCall) (hok : ∀ c ∈ calls, c.Ok t n L ((rate + 5) / 10 * 4) tp)
    (hcl : t.sse2 = false → ∀ k g a, cFilter (ieeeEnv m bs t) rate n L sp tp (calls.take k) = .done (g, a) →
      ∀ w ∈ g.v, Clear w) :
    ∃ f planar g inter,
      rustFilter (ieeeEnv m bs t) rate n L sp tp calls = .done (f, planar) ∧
      cFilter (ieeeEnv m bs t) rate n L sp tp calls = .done (g, inter) ∧
      SameSamples n L planar inter ∧
      f.samplePeak = g.samplePeak ∧
      List.Forall₂ SameState f.filterState g.v ∧
      ∀ fpb idx cm, fpb ≤ L → idx ≤ L → cm.length = n → ∃ x,
        Verif.calcGatingBlock (ieeeEnv m bs t) fpb planar idx cm = .done x ∧
        CRef.calcGatingBlock (ieeeEnv m bs t).f64 fpb inter L (idx * n) (cm.map codeOf) n = .done x := by
  obtain ⟨g0, c1, c2, c3⟩ := CRef.ieee_new (m := m) (bs := bs) (t := t) (rate := rate) hn sp tp
  have e1 : ∀ cs, rustFilter (ieeeEnv m bs t) rate n L sp tp cs = Run.foldL (rustCall (ieeeEnv m bs t) n)
      (Verif.Filter.init (ieeeEnv m bs t) rate n sp tp, List.replicate (n * L) (ieeeEnv m bs t).f64.zero) cs := by
    intro cs
    simp only [rustFilter, Filter.new_eq _ hr hn, Run.bind_eq, Run.done_bind]
  have e2 : ∀ cs, cFilter (ieeeEnv m bs t) rate n L sp tp cs = Run.foldL (cCall (ieeeEnv m bs t) n)
      (g0, List.replicate (n * L) (ieeeEnv m bs t).f64.zero) cs := by
    intro cs
    simp only [cFilter, c1, Run.bind_eq, Run.done_bind]
  obtain ⟨f, p, g, i, r1, r2, r3, r4⟩ := CRef.ieee_calls (m := m) (bs := bs) hL calls hok c2
    (CRef.same_silence n L (ieeeEnv m bs t).f64.zero) c3
    (fun hs k g a hk => hcl hs k g a (by rw [e2]; exact hk))
  refine ⟨f, p, g, i, (e1 _).trans r1, (e2 _).trans r2, r4, r3.samplePeak, ?_, fun fpb idx cm h1 h2 h3 =>
    C62_block _ hn hL r4 h3 h2 h1⟩
  rw [List.forall₂_iff_get]
  refine ⟨by rw [r3.inv.state, r3.v], fun c h1 h2 => ?_⟩
  exact r3.state c _ _ (by simp) (by simp)

/-! ## Where they differ -/

/-- A target with SSE2 and one without. -/
abbrev Demo.hard62 : Env F64 F32 := ieeeEnv Demo.series Demo.bsearch ⟨true, false, 2 ^ 64 - 1⟩
abbrev Demo.soft62 : Env F64 F32 := ieeeEnv Demo.series Demo.bsearch ⟨false, false, 2 ^ 64 - 1⟩

/-- What the filter leaves in the buffer. -/
def Demo.rustOut (E : Env F64 F32) (n L : Nat) (calls : List FilterCall) : List F64 :=
  match rustFilter E 48000 n L false false calls with
  | .done r => r.2
  | _ => []

def Demo.cOut (E : Env F64 F32) (n L : Nat) (calls : List FilterCall) : List F64 :=
  match cFilter E 48000 n L false false calls with
  | .done r => r.2
  | _ => []

/-- A sample of `2^-60`, and silence in a second call. -/
def Demo.quiet : List FilterCall :=
  [.process (.float [Fl.lit Fmt.b32 1 (2 ^ 60)]) 0 [.center], .process (.float [Fl.zero false]) 1 [.center]]

/-- **C62, software flush.** Without SSE2 the crate clears every state below `f64::EPSILON` at the end of a call,
C only what is below `DBL_MIN`: the second outputs differ, and the crate's is zero. -/
theorem C62_soft_differs :
    (Demo.rustOut Demo.soft62 1 2 Demo.quiet).length = 2 ∧ (Demo.cOut Demo.soft62 1 2 Demo.quiet).length = 2 ∧
    (Demo.rustOut Demo.soft62 1 2 Demo.quiet).take 1 = (Demo.cOut Demo.soft62 1 2 Demo.quiet).take 1 ∧
    (Demo.rustOut Demo.soft62 1 2 Demo.quiet).drop 1 = [Fl.zero false] ∧
    (Demo.cOut Demo.soft62 1 2 Demo.quiet).drop 1 ≠ [Fl.zero false] := by
  decide +kernel

/-- With SSE2 the same calls give the same outputs, and the second one is not zero. -/
example : Demo.rustOut Demo.hard62 1 2 Demo.quiet = Demo.cOut Demo.hard62 1 2 Demo.quiet ∧
    (Demo.rustOut Demo.hard62 1 2 Demo.quiet).length = 2 ∧
    (Demo.rustOut Demo.hard62 1 2 Demo.quiet).drop 1 ≠ [Fl.zero false] := by
  decide +kernel

/-- The smallest normal double and the largest subnormal one. -/
def Demo.tiny : List FilterCall :=
  [.process (.double [Fl.lit Fmt.b64 1 (2 ^ 1022), Fl.lit Fmt.b64 (2 ^ 52 - 1) (2 ^ 1074)]) 0 [.center]]

/-- **C62, why subnormal doubles are excluded.** C divides every sample by one, which with SSE2 flushes a
subnormal sample to zero; the crate takes it as it is. -/
theorem C62_subnormal_differs :
    (Demo.rustOut Demo.hard62 1 2 Demo.tiny).length = 2 ∧ (Demo.cOut Demo.hard62 1 2 Demo.tiny).length = 2 ∧
    (Demo.rustOut Demo.hard62 1 2 Demo.tiny).take 1 = (Demo.cOut Demo.hard62 1 2 Demo.tiny).take 1 ∧
    Demo.rustOut Demo.hard62 1 2 Demo.tiny ≠ Demo.cOut Demo.hard62 1 2 Demo.tiny := by
  decide +kernel

/-- Three calls of different formats on two channels, one of them unused in the first call, with a reset of the
peaks between them. -/
def Demo.calls62 : List FilterCall :=
  [.process (.short [1000, -2000, 3000, 32767]) 0 [.left, .unused],
   .resetPeaks,
   .process (.float [Fl.lit Fmt.b32 1 2, Fl.lit Fmt.b32 (-1) 3]) 2 [.left, .leftSurround],
   .process (.double [.nan, Fl.lit Fmt.b64 (-1) 3]) 1 [.dualMono, .right]]

/-- The hypotheses of `C62_filter` hold for them with SSE2. -/
example : ∀ c ∈ Demo.calls62, c.Ok ⟨true, false, 2 ^ 64 - 1⟩ 2 3 19200 true := by
  intro c hc
  simp only [Demo.calls62, List.mem_cons, List.not_mem_nil, or_false] at hc
  rcases hc with rfl | rfl | rfl | rfl
  · exact ⟨rfl, by decide, rfl, fun _ => by decide, fun _ => trivial⟩
  · trivial
  · exact ⟨rfl, by decide, rfl, fun _ => by decide, fun _ => trivial⟩
  · refine ⟨rfl, by decide, rfl, fun _ => by decide, fun _ => ?_⟩
    intro x hx
    simp only [List.mem_cons, List.not_mem_nil, or_false] at hx
    rcases hx with rfl | rfl
    · exact id
    · have h : (Fl.lit Fmt.b64 (-1) 3).ftz = Fl.lit Fmt.b64 (-1) 3 := by decide +kernel
      generalize Fl.lit Fmt.b64 (-1) 3 = y at h
      cases y with
      | nan => exact id
      | num s k hk =>
        rintro ⟨h1, h2⟩
        simp only [Fl.ftz] at h
        rw [if_pos (by exact h2)] at h
        injection h with _ h
        omega

/-- Without SSE2 a loud sample leaves a clear state. -/
example : ∀ k g a, cFilter Demo.soft62 48000 1 1 true false
    ([FilterCall.process (.short [32767]) 0 [.center]].take k) = .done (g, a) → ∀ w ∈ g.v, Clear w := by
  intro k g a h
  have clear : ∀ r, cFilter Demo.soft62 48000 1 1 true false r = .done (g, a) →
      (∀ w ∈ (match cFilter Demo.soft62 48000 1 1 true false r with | .done r => r.1.v | _ => []), Clear w) →
      ∀ w ∈ g.v, Clear w := by
    intro r h1 h2
    rw [h1] at h2
    exact h2
  unfold Clear at clear ⊢
  rcases k with _ | k
  · exact clear [] h (by decide +kernel)
  · refine clear [.process (.short [32767]) 0 [.center]] ?_ (by decide +kernel)
    simpa using h

end Verif
