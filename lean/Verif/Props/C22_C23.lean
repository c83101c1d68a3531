import Verif.Props.C01_C03
/-! # C22, C23: the interpolator and its rolling buffer -/

set_option linter.unusedSimpArgs false

namespace Verif
variable {D S α : Type}

/-! ## C23 -/

/-- A sequence of pushes (`some v`) and resets (`none`, which rebuild the buffer with the default value). -/
def Spec.bufferRun (d : α) : RollingBuffer α → List (Option α) → Run (RollingBuffer α)
  | b, [] => .done b
  | b, some v :: ops => Run.bind (b.pushFront v) fun b => Spec.bufferRun d b ops
  | b, none :: ops => Run.bind (RollingBuffer.new b.n d) fun b => Spec.bufferRun d b ops

/-- The values pushed since the last reset, newest first. -/
def Spec.pushed (ops : List (Option α)) : List α :=
  ops.foldl (fun acc op => match op with | some v => v :: acc | none => []) []

theorem bufferRun_inv (d : α) {b : RollingBuffer α} (hb : b.Inv) (ops : List (Option α)) :
    ∃ b', Spec.bufferRun d b ops = .done b' ∧ b'.Inv ∧ b'.n = b.n := by
  induction ops generalizing b with
  | nil => exact ⟨b, rfl, hb, rfl⟩
  | cons op ops ih =>
    cases op with
    | some v =>
      obtain ⟨b', h1, h2, h3⟩ := ih (RollingBuffer.pushP_inv hb v)
      exact ⟨b', by simp only [Spec.bufferRun, RollingBuffer.pushFront_eq hb, Run.done_bind, h1], h2, h3⟩
    | none =>
      obtain ⟨b', h1, h2, h3⟩ := ih (RollingBuffer.new_inv hb.pos hb.two d)
      exact ⟨b', by simp only [Spec.bufferRun, RollingBuffer.new_eq hb.two, Run.done_bind, h1], h2, h3⟩

theorem bufferRun_append (d : α) (b : RollingBuffer α) (ops : List (Option α)) (op : Option α) :
    Spec.bufferRun d b (ops ++ [op]) = Run.bind (Spec.bufferRun d b ops) fun b => Spec.bufferRun d b [op] := by
  induction ops generalizing b with
  | nil => rfl
  | cons o ops ih =>
    cases o with
    | some v =>
      simp only [List.cons_append, Spec.bufferRun, Run.bind_assoc, ih]
    | none =>
      simp only [List.cons_append, Spec.bufferRun, Run.bind_assoc, ih]

@[elab_as_elim]
theorem snoc_induction {β : Type} {P : List β → Prop} (l : List β) (h0 : P [])
    (h1 : ∀ l x, P l → P (l ++ [x])) : P l := by
  have key : ∀ (n : Nat) (l : List β), l.length = n → P l := by
    intro n
    induction n with
    | zero => intro l hl; rw [List.eq_nil_of_length_eq_zero hl]; exact h0
    | succ n ih =>
      intro l hl
      have hne : l ≠ [] := by intro h; subst h; simp at hl
      rw [← List.dropLast_concat_getLast hne]
      exact h1 _ _ (ih _ (by simp [hl]))
  exact key _ l rfl

theorem take_append_replicate {l : List α} {d : α} {n : Nat} (v : α) (hn : 0 < n) :
    v :: ((l ++ List.replicate n d).take n).take (n - 1) = (v :: l ++ List.replicate n d).take n := by
  obtain ⟨m, rfl⟩ : ∃ m, n = m + 1 := ⟨n - 1, by omega⟩
  simp [List.take_take]

theorem bufferRun_view (d : α) {n : Nat} (h0 : 0 < n) (h : n * 2 ≤ TAPS) (ops : List (Option α)) :
    ∃ b', Spec.bufferRun d ⟨n, List.replicate TAPS d, n⟩ ops = .done b' ∧ b'.Inv ∧ b'.n = n ∧
      b'.viewP = (Spec.pushed ops ++ List.replicate n d).take n := by
  induction ops using snoc_induction with
  | h0 =>
    refine ⟨_, rfl, RollingBuffer.new_inv h0 h d, rfl, ?_⟩
    rw [RollingBuffer.new_view h]
    simp [Spec.pushed]
  | h1 ops op ih =>
    obtain ⟨b, h1, h2, h3, h4⟩ := ih
    cases op with
    | some v =>
      refine ⟨b.pushP v, ?_, RollingBuffer.pushP_inv h2 v, h3, ?_⟩
      · rw [bufferRun_append, h1]
        simp only [Run.done_bind, Spec.bufferRun, RollingBuffer.pushFront_eq h2]
      · rw [RollingBuffer.pushP_view h2, h4, h3, take_append_replicate v h0]
        simp [Spec.pushed]
    | none =>
      refine ⟨⟨n, List.replicate TAPS d, n⟩, ?_, RollingBuffer.new_inv h0 h d, rfl, ?_⟩
      · rw [bufferRun_append, h1]
        simp only [Run.done_bind, Spec.bufferRun, h3, RollingBuffer.new_eq h]
      · rw [RollingBuffer.new_view h]
        simp [Spec.pushed]

/-- **C23**: starting from `RollingBuffer::new` with any size used by the crate (12 or 24, in general any
`n ≥ 1` accepted by its assertion), no sequence of pushes and resets makes an unchecked access leave the
48-element storage (this would be a fault of the model), and the view of `n` elements lies inside it and
contains exactly the last `n` pushed values, newest first, default values before the first push. -/
theorem C23_buffer (d : α) {n : Nat} (h0 : 0 < n) {b0 : RollingBuffer α}
    (hnew : RollingBuffer.new n d = .done b0) (ops : List (Option α)) :
    ∃ b, Spec.bufferRun d b0 ops = .done b ∧ b.buf.length = 48 ∧ b.position + b.n ≤ 48 ∧
      b.view = .done ((Spec.pushed ops ++ List.replicate n d).take n) := by
  have h : n * 2 ≤ TAPS := by
    simp only [RollingBuffer.new, Run.bind_eq] at hnew
    obtain ⟨u, hu, -⟩ := Run.bind_done hnew
    exact Run.assert_done hu
  rw [RollingBuffer.new_eq h] at hnew
  cases hnew
  obtain ⟨b, h1, h2, h3, h4⟩ := bufferRun_view d h0 h ops
  refine ⟨b, h1, h2.len, ?_, ?_⟩
  · have := h2.position; have h5 := h2.two; unfold TAPS at h5; omega
  · rw [RollingBuffer.view_eq h2, h4]

/-- **C23**, one step: the indices written by a push. -/
theorem C23_indices (d : α) {n : Nat} (h0 : 0 < n) {b0 b : RollingBuffer α}
    (hnew : RollingBuffer.new n d = .done b0) {ops : List (Option α)}
    (hb : Spec.bufferRun d b0 ops = .done b) (v : α) :
    ∃ b', b.pushFront v = .done b' ∧ b'.position < 48 ∧ b'.position + b'.n < 48 ∧
      b'.buf[b'.position]? = some v ∧ b'.buf[b'.position + b'.n]? = some v := by
  have h : n * 2 ≤ TAPS := by
    simp only [RollingBuffer.new, Run.bind_eq] at hnew
    obtain ⟨u, hu, -⟩ := Run.bind_done hnew
    exact Run.assert_done hu
  rw [RollingBuffer.new_eq h] at hnew
  cases hnew
  obtain ⟨b1, h1, h2, h3, h4⟩ := bufferRun_view d h0 h ops
  rw [hb] at h1
  cases h1
  have hp := h2.position
  have h5 := h2.two
  have h6 := h2.len
  unfold TAPS at h5 h6
  have hlt : (b.pushP v).position < b.n := by
    have := h2.pos
    simp only [RollingBuffer.pushP]; split <;> omega
  refine ⟨b.pushP v, RollingBuffer.pushFront_eq h2 v, by omega, ?_, ?_, ?_⟩
  · show (b.pushP v).position + b.n < 48
    omega
  · have := h2.pos
    simp only [RollingBuffer.pushP] at hlt ⊢
    rw [List.getElem?_set_ne (by omega), List.getElem?_set_self (by omega)]
  · simp only [RollingBuffer.pushP] at hlt ⊢
    rw [List.getElem?_set_self (by rw [List.length_set]; omega)]

/-- A case of `C23_buffer`: seventeen pushes wrap a 12-element buffer. -/
example : ∃ b0, RollingBuffer.new 12 (0 : Nat) = .done b0 ∧ ∃ b,
    Spec.bufferRun 0 b0 ((List.range 17).map some) = .done b ∧
      b.view = .done [16, 15, 14, 13, 12, 11, 10, 9, 8, 7, 6, 5] := by
  refine ⟨_, rfl, ?_⟩
  obtain ⟨b, h1, -, -, h2⟩ := C23_buffer 0 (by decide) (show RollingBuffer.new 12 0 = .done _ from rfl)
    ((List.range 17).map some)
  exact ⟨b, h1, h2⟩

/-! ## C22 -/

/-- The sample of channel `c` that is `t` frames old (0 is the newest), zero before the start. -/
def Spec.tap (E : Env D S) (frames : List (List S)) (t c : Nat) : S :=
  match frames.reverse[t]? with
  | some f => f.getD c E.f32p.zero
  | none => E.f32p.zero

/-- Phase `k` of the polyphase FIR filter: tap `t` uses coefficient `t * factor + k` of the windowed sinc,
accumulated from the newest sample on. -/
def Spec.phase (E : Env D S) (taps factor : Nat) (frames : List (List S)) (k c : Nat) : S :=
  (List.range taps).foldl
    (fun acc t => E.scaleAdd acc (Spec.tap E frames t c) (interpCoeff E factor (t * factor + k))) E.f32p.zero

/-- Pushing frames through an interpolator, keeping the last output. -/
def Spec.interpRun (E : Env D S) : Interp S → List (List S) → Run (Interp S)
  | ip, [] => .done ip
  | ip, f :: fs => Run.bind (ip.interpolate E f) fun r => Spec.interpRun E r.1 fs

theorem interpRun_eq (E : Env D S) {ip : Interp S} (h : ip.buffer.Inv) (fs : List (List S)) :
    Spec.interpRun E ip fs = .done (fs.foldl (fun ip f => ip.adv E f) ip) := by
  induction fs generalizing ip with
  | nil => rfl
  | cons f fs ih =>
    simp only [Spec.interpRun, Interp.interpolate_eq E h, Run.done_bind, List.foldl_cons]
    exact ih (Interp.stepP_inv E h f)

theorem foldl_adv_parts (E : Env D S) (fs : List (List S)) (ip : Interp S) :
    (fs.foldl (fun ip f => ip.adv E f) ip).factor = ip.factor ∧
    (fs.foldl (fun ip f => ip.adv E f) ip).width = ip.width ∧
    (fs.foldl (fun ip f => ip.adv E f) ip).filter = ip.filter ∧
    (fs.foldl (fun ip f => ip.adv E f) ip).buffer = fs.foldl (fun b f => b.pushP f) ip.buffer := by
  induction fs generalizing ip with
  | nil => exact ⟨rfl, rfl, rfl, rfl⟩
  | cons f fs ih => exact ih (ip.adv E f)

theorem foldl_pushP_view (d : α) {n : Nat} (h0 : 0 < n) (h : n * 2 ≤ TAPS) (fs : List α) :
    let b := fs.foldl (fun b f => b.pushP f) (⟨n, List.replicate TAPS d, n⟩ : RollingBuffer α)
    b.Inv ∧ b.n = n ∧ b.viewP = (fs.reverse ++ List.replicate n d).take n := by
  induction fs using snoc_induction with
  | h0 =>
    refine ⟨RollingBuffer.new_inv h0 h d, rfl, ?_⟩
    simp only [List.foldl_nil, RollingBuffer.new_view h]
    simp
  | h1 fs f ih =>
    obtain ⟨h1, h2, h3⟩ := ih
    simp only [List.foldl_append, List.foldl_cons, List.foldl_nil]
    refine ⟨RollingBuffer.pushP_inv h1 f, h2, ?_⟩
    rw [RollingBuffer.pushP_view h1, h3, h2, take_append_replicate f h0]
    simp

/-- Element `(k, c)` of the accumulated outputs. -/
theorem foldl_fir_get (E : Env D S) (l : List (List S × List S)) {factor width : Nat}
    (h1 : ∀ x ∈ l, x.1.length = factor) (h2 : ∀ x ∈ l, x.2.length = width) (out : List (List S))
    (ho : out.length = factor) (how : ∀ o ∈ out, o.length = width) (z : S) :
    let r := l.foldl (fun out x => List.zipWith (fun o coeff => frameScaleAdd E o x.2 coeff) out x.1) out
    r.length = factor ∧ (∀ o ∈ r, o.length = width) ∧
    ∀ k c, k < factor → c < width → (r.getD k []).getD c z =
      l.foldl (fun acc x => E.scaleAdd acc (x.2.getD c z) (x.1.getD k z)) ((out.getD k []).getD c z) := by
  induction l generalizing out with
  | nil => exact ⟨ho, how, fun k c _ _ => rfl⟩
  | cons x l ih =>
    rw [List.forall_mem_cons] at h1 h2
    have hl : (List.zipWith (fun o coeff => frameScaleAdd E o x.2 coeff) out x.1).length = factor := by
      simp [ho, h1.1]
    have hw : ∀ o ∈ List.zipWith (fun o coeff => frameScaleAdd E o x.2 coeff) out x.1, o.length = width := by
      intro o hm
      obtain ⟨i, hi, rfl⟩ := List.getElem_of_mem hm
      simp only [List.getElem_zipWith, frameScaleAdd, List.length_zipWith, h2.1]
      simp only [List.length_zipWith] at hi
      rw [how _ (List.getElem_mem (by omega))]
      simp
    obtain ⟨h3, h4, h5⟩ := ih h1.2 h2.2 _ hl hw
    refine ⟨h3, h4, fun k c hk hc => ?_⟩
    simp only [List.foldl_cons]
    rw [h5 k c hk hc]
    congr 1
    have e1 : out[k]? = some (out[k]'(by omega)) := List.getElem?_eq_getElem _
    have e2 : x.1[k]? = some (x.1[k]'(by omega)) := List.getElem?_eq_getElem _
    have hlo := how _ (List.getElem_mem (l := out) (n := k) (by omega))
    have e3 : (out[k]'(by omega))[c]? = some ((out[k]'(by omega))[c]'(by omega)) := List.getElem?_eq_getElem _
    have e4 : x.2[c]? = some (x.2[c]'(by omega)) := List.getElem?_eq_getElem _
    simp only [List.getD_eq_getElem?_getD, List.getElem?_zipWith, e1, e2, e3, e4, Option.getD_some,
      frameScaleAdd]

/-- The FIR accumulation over a view, one output at a time. -/
theorem firAccum_phase (E : Env D S) {taps factor width : Nat} (fs : List (List S))
    (hf : ∀ f ∈ fs, f.length = width) :
    let r := firAccum E factor width (interpFilter E taps factor)
      ((fs.reverse ++ List.replicate taps (zeroFrame E width)).take taps)
    r.length = factor ∧ (∀ o ∈ r, o.length = width) ∧
    ∀ k c, k < factor → c < width → (r.getD k []).getD c E.f32p.zero = Spec.phase E taps factor fs k c := by
  intro r
  have hzw : ∀ x ∈ (interpFilter E taps factor).zip
      ((fs.reverse ++ List.replicate taps (zeroFrame E width)).take taps), x.2.length = width := by
    rintro ⟨a, b⟩ hx
    have hb := List.mem_of_mem_take (List.of_mem_zip hx).2
    rcases List.mem_append.1 hb with hb | hb
    · exact hf b (List.mem_reverse.1 hb)
    · rw [List.eq_of_mem_replicate hb]; simp [zeroFrame]
  have hzf : ∀ x ∈ (interpFilter E taps factor).zip
      ((fs.reverse ++ List.replicate taps (zeroFrame E width)).take taps), x.1.length = factor := by
    rintro ⟨a, b⟩ hx
    have hb := (List.of_mem_zip hx).1
    simp only [interpFilter, List.mem_map] at hb
    obtain ⟨i, -, rfl⟩ := hb
    simp
  obtain ⟨h1, h2, h3⟩ := foldl_fir_get E _ hzf hzw (List.replicate factor (zeroFrame E width)) (by simp)
    (by intro o ho; rw [List.eq_of_mem_replicate ho]; simp [zeroFrame]) E.f32p.zero
  refine ⟨h1, h2, fun k c hk hc => ?_⟩
  refine (h3 k c hk hc).trans ?_
  have hz : ((List.replicate factor (zeroFrame E width)).getD k []).getD c E.f32p.zero = E.f32p.zero := by
    simp [List.getD_eq_getElem?_getD, hk, zeroFrame, hc]
  rw [hz]
  unfold Spec.phase
  -- both sides fold over the taps
  have hlist : (interpFilter E taps factor).zip
      ((fs.reverse ++ List.replicate taps (zeroFrame E width)).take taps) =
      (List.range taps).map fun t =>
        ((List.range factor).map fun f => interpCoeff E factor (t * factor + f),
          (fs.reverse ++ List.replicate taps (zeroFrame E width)).getD t []) := by
    apply List.ext_getElem?
    intro i
    by_cases hi : i < taps
    · have e1 : (interpFilter E taps factor)[i]? =
          some ((List.range factor).map fun f => interpCoeff E factor (i * factor + f)) := by
        simp [interpFilter, hi]
      have e2 : ((fs.reverse ++ List.replicate taps (zeroFrame E width)).take taps)[i]? =
          some ((fs.reverse ++ List.replicate taps (zeroFrame E width)).getD i []) := by
        rw [List.getElem?_take_of_lt hi, List.getD_eq_getElem?_getD,
          List.getElem?_eq_getElem (by simp; omega)]
        rfl
      rw [zip_some e1 e2]
      simp [hi]
    · rw [List.getElem?_eq_none (by simp [interpFilter]; omega), List.getElem?_eq_none (by simp; omega)]
  rw [hlist, List.foldl_map]
  congr 1
  funext acc t
  have e1 : ((List.range factor).map fun f => interpCoeff E factor (t * factor + f)).getD k E.f32p.zero =
      interpCoeff E factor (t * factor + k) := by
    simp [List.getD_eq_getElem?_getD, hk]
  have e2 : ((fs.reverse ++ List.replicate taps (zeroFrame E width)).getD t []).getD c E.f32p.zero =
      Spec.tap E fs t c := by
    unfold Spec.tap
    by_cases ht : t < fs.reverse.length
    · simp only [List.getD_eq_getElem?_getD, List.getElem?_append_left ht, List.getElem?_eq_getElem ht,
        Option.getD_some]
    · rw [List.getElem?_eq_none (by omega : fs.reverse.length ≤ t)]
      simp only [List.getD_eq_getElem?_getD, List.getElem?_append_right (by omega : fs.reverse.length ≤ t),
        List.getElem?_replicate]
      split
      · simp only [Option.getD_some, zeroFrame, List.getElem?_replicate]
        split <;> rfl
      · rfl
  rw [e1, e2]

/-- **C22**: an interpolator built for `taps` taps and `factor` phases (the crate uses 12 and 4, or 24 and 2),
after any number of frames, answers the next frame with `factor` frames whose entries are the polyphase
FIR sums of the last `taps` frames. -/
theorem C22_interpolator (E : Env D S) {taps factor width : Nat} (h0 : 0 < taps) {ip0 : Interp S}
    (h2 : taps * 2 ≤ 48)
    (hnew : Interp.new E taps factor width = .done ip0) (fs : List (List S)) (f : List S)
    (hf : ∀ g ∈ fs ++ [f], g.length = width) :
    ∃ ip ip' outs, Spec.interpRun E ip0 fs = .done ip ∧ ip.interpolate E f = .done (ip', outs) ∧
      outs.length = factor ∧ ∀ k c, k < factor → c < width →
        ∃ o, outs[k]? = some o ∧ o[c]? = some (Spec.phase E taps factor (fs ++ [f]) k c) := by
  have h1 : taps * factor = TAPS := by
    simp only [Interp.new, Run.bind_eq] at hnew
    obtain ⟨u, hu, -⟩ := Run.bind_done hnew
    exact Run.assert_done hu
  rw [Interp.new_eq E h1 h2] at hnew
  cases hnew
  have hinit := Scanner.init_inv E (factor := factor) (width := width) h0 h2
  have hv := foldl_pushP_view (zeroFrame E width) h0 h2 fs
  obtain ⟨p1, p2, p3, p4⟩ := foldl_adv_parts E fs (Interp.init E taps factor width)
  have hinv : (fs.foldl (fun ip f => ip.adv E f) (Interp.init E taps factor width)).buffer.Inv := by
    rw [p4]; exact hv.1
  refine ⟨_, _, _, interpRun_eq E hinit.2.1 fs, Interp.interpolate_eq E hinv f, ?_⟩
  have hv' := foldl_pushP_view (zeroFrame E width) h0 h2 (fs ++ [f])
  have hout : ((fs.foldl (fun ip f => ip.adv E f) (Interp.init E taps factor width)).stepP E f).2 =
      firAccum E factor width (interpFilter E taps factor)
        (((fs ++ [f]).reverse ++ List.replicate taps (zeroFrame E width)).take taps) := by
    have h3 := hv'.2.2
    simp only [List.foldl_append, List.foldl_cons, List.foldl_nil] at h3
    rw [← h3]
    show firAccum E _ _ _ _ = _
    rw [p1, p2, p3, p4]
    rfl
  have hout' := hout
  simp only [Interp.stepP] at hout'
  rw [hout']
  obtain ⟨q1, q2, q3⟩ := firAccum_phase E (taps := taps) (factor := factor) (fs ++ [f]) hf
  refine ⟨q1, fun k c hk hc => ?_⟩
  have e1 := List.getElem?_eq_getElem (l := firAccum E factor width (interpFilter E taps factor)
    (((fs ++ [f]).reverse ++ List.replicate taps (zeroFrame E width)).take taps)) (i := k) (by rw [q1]; exact hk)
  refine ⟨_, e1, ?_⟩
  have hw := q2 _ (List.getElem_mem (by rw [q1]; exact hk : k < _))
  rw [List.getElem?_eq_getElem (by rw [hw]; exact hc)]
  rw [← q3 k c hk hc]
  simp only [List.getD_eq_getElem?_getD, e1, Option.getD_some, List.getElem?_eq_getElem (hw.symm ▸ hc)]

/-- Oversampling documented for a rate: taps and phases. -/
def Spec.oversampling (rate : Nat) : Option (Nat × Nat) :=
  if rate < 96000 then some (12, 4) else if rate < 192000 then some (24, 2) else none

/-- The interpolators of a scanner. -/
def Scanner.interps : Scanner S → List (Interp S)
  | .specialized _ ip => [ip]
  | .generic ips => ips

/-- **C22**: in every reachable analyzer with true peak mode there is no scanner exactly at rates of
192 kHz and above, otherwise every interpolator has the taps, phases and coefficients documented
for the rate; without the mode there is none. -/
theorem C22_oversampling {E : Env D S} {e : Ebu D S} (hr : Reachable E e) :
    match e.filter.tp with
    | none => e.mode.contains Mode.TRUE_PEAK = false ∨ Spec.oversampling e.rate = none
    | some sc => e.mode.contains Mode.TRUE_PEAK = true ∧ ∃ taps factor,
        Spec.oversampling e.rate = some (taps, factor) ∧
        ∀ ip ∈ sc.interps, ip.factor = factor ∧ ip.buffer.n = taps ∧ ip.filter.length = taps ∧
          ∀ t k, t < taps → k < factor →
            (ip.filter.getD t [])[k]? = some (interpCoeff E factor (t * factor + k)) := by
  have hfresh := congrArg Filter.tp hr.inv.fresh
  simp only [Filter.resetP, Filter.init] at hfresh
  have hover : Scanner.initP E e.rate e.channels = (Spec.oversampling e.rate).map fun x =>
      Scanner.initP.mk E e.channels x.1 x.2 := by
    unfold Scanner.initP Spec.oversampling
    split
    · rfl
    · split <;> rfl
  rw [hover] at hfresh
  cases htp : e.filter.tp with
  | none =>
    rw [htp] at hfresh
    simp only
    cases hm : e.mode.contains Mode.TRUE_PEAK with
    | false => exact .inl rfl
    | true =>
      rw [hm, if_pos rfl] at hfresh
      cases ho : Spec.oversampling e.rate with
      | none => exact .inr rfl
      | some x => rw [ho] at hfresh; cases hfresh
  | some sc =>
    rw [htp] at hfresh
    simp only
    cases hm : e.mode.contains Mode.TRUE_PEAK with
    | false => rw [hm] at hfresh; cases hfresh
    | true =>
      refine ⟨rfl, ?_⟩
      rw [hm, if_pos rfl] at hfresh
      cases ho : Spec.oversampling e.rate with
      | none => rw [ho] at hfresh; cases hfresh
      | some x =>
        obtain ⟨taps, factor⟩ := x
        rw [ho] at hfresh
        simp only [Option.map_some, Option.some.injEq] at hfresh
        refine ⟨taps, factor, rfl, fun ip hip => ?_⟩
        have hreset : ip.resetP E = Interp.init E taps factor ip.width := by
          cases sc with
          | specialized ch ip0 =>
            simp only [Scanner.interps, List.mem_singleton] at hip
            subst hip
            simp only [Scanner.resetP, Scanner.initP.mk] at hfresh
            split at hfresh
            · injection hfresh with h1 h2
              have hw : (ip.resetP E).width = (Interp.init E taps factor e.channels).width := by rw [h2]
              have hw' : ip.width = e.channels := hw
              rw [h2, hw']
            · cases hfresh
          | generic ips =>
            simp only [Scanner.interps] at hip
            simp only [Scanner.resetP, Scanner.initP.mk] at hfresh
            split at hfresh
            · cases hfresh
            · injection hfresh with h1
              have hm2 : ip.resetP E ∈ List.replicate e.channels (Interp.init E taps factor 1) := by
                rw [← h1]; exact List.mem_map_of_mem hip
              have h2 := List.eq_of_mem_replicate hm2
              have hw : (ip.resetP E).width = 1 := by rw [h2]; rfl
              have hw' : ip.width = 1 := hw
              rw [h2, hw']
        have hf1 : ip.factor = factor := (congrArg Interp.factor hreset : _)
        have hf2 : ip.buffer.n = taps := congrArg (fun i => i.buffer.n) hreset
        have hf3 : ip.filter = interpFilter E taps factor := congrArg Interp.filter hreset
        refine ⟨hf1, hf2, by rw [hf3]; simp [interpFilter], fun t k ht hk => ?_⟩
        rw [hf3]
        simp [interpFilter, List.getD_eq_getElem?_getD, ht, hk]

/-- The three rate classes. -/
example : Spec.oversampling 48000 = some (12, 4) ∧ Spec.oversampling 96000 = some (24, 2) ∧
    Spec.oversampling 192000 = none := ⟨rfl, rfl, rfl⟩

/-- The hypotheses of `C22_interpolator` are met by the crate's two shapes. -/
example (E : Env D S) : (∃ ip, Interp.new E 12 4 2 = .done ip) ∧ (∃ ip, Interp.new E 24 2 6 = .done ip) :=
  ⟨⟨_, Interp.new_eq E (by decide) (by decide)⟩, ⟨_, Interp.new_eq E (by decide) (by decide)⟩⟩

end Verif
