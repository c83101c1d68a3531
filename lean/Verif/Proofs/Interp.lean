import Verif.Proofs.Samples
/-! # The rolling buffer and the interpolator as total functions -/

set_option linter.unusedSimpArgs false

namespace Verif
variable {D S α : Type}

/-- Invariant of `RollingBuffer`: the second half shadows the first. -/
structure RollingBuffer.Inv (b : RollingBuffer α) : Prop where
  pos : 0 < b.n
  two : b.n * 2 ≤ TAPS
  position : b.position ≤ b.n
  len : b.buf.length = TAPS
  shadow : ∀ i, i < b.n → b.buf[i]? = b.buf[i + b.n]?

/-- `push_front` without faults. -/
def RollingBuffer.pushP (b : RollingBuffer α) (v : α) : RollingBuffer α :=
  let p := if b.position = 0 then b.n - 1 else b.position - 1
  { b with buf := (b.buf.set p v).set (p + b.n) v, position := p }

/-- The view without faults. -/
def RollingBuffer.viewP (b : RollingBuffer α) : List α := (b.buf.drop b.position).take b.n

theorem RollingBuffer.pushFront_eq {b : RollingBuffer α} (h : b.Inv) (v : α) :
    b.pushFront v = .done (b.pushP v) := by
  have h1 := h.pos
  have h2 := h.two
  have h3 := h.position
  have h4 := h.len
  unfold pushFront pushP setUnchecked
  by_cases h0 : b.position = 0
  · simp only [h0, if_true, Run.bind_eq, Run.assert_true h1, Run.done_bind]
    rw [if_pos (by omega), Run.done_bind, if_pos (by rw [List.length_set]; omega), Run.done_bind]
  · simp only [h0, if_false, Run.bind_eq, Run.done_bind]
    rw [if_pos (by omega), Run.done_bind, if_pos (by rw [List.length_set]; omega), Run.done_bind]

theorem RollingBuffer.view_eq {b : RollingBuffer α} (h : b.Inv) : b.view = .done b.viewP := by
  have h1 := h.pos
  have h2 := h.two
  have h3 := h.position
  have h4 := h.len
  have : b.position < b.buf.length ∧ b.position + b.n ≤ b.buf.length := by omega
  simp only [view, Run.bind_eq, Run.assert_true this, Run.done_bind, viewP]

theorem RollingBuffer.pushP_inv {b : RollingBuffer α} (h : b.Inv) (v : α) : (b.pushP v).Inv := by
  have h1 := h.pos
  have h2 := h.two
  have h3 := h.position
  have h4 := h.len
  refine ⟨h1, h2, ?_, ?_, ?_⟩
  · simp only [pushP]; split <;> omega
  · simp only [pushP, List.length_set, h4]
  · intro i hi
    have hs := h.shadow i hi
    simp only [pushP] at hi ⊢
    have hp' : (if b.position = 0 then b.n - 1 else b.position - 1) < b.n := by split <;> omega
    generalize (if b.position = 0 then b.n - 1 else b.position - 1) = p at hp'
    simp only [List.getElem?_set, List.length_set]
    by_cases hp : p = i
    · subst hp
      have e1 : p < b.buf.length := by omega
      have e2 : p + b.n < b.buf.length := by omega
      simp [e1, e2, show ¬ (b.n = 0) by omega]
    · rw [if_neg (show ¬ p + b.n = i + b.n by omega), if_neg hp,
        if_neg (show ¬ p + b.n = i by omega), if_neg (show ¬ p = i + b.n by omega)]
      exact hs

/-- Pushing prepends to the view and drops the oldest element. -/
theorem RollingBuffer.pushP_view {b : RollingBuffer α} (h : b.Inv) (v : α) :
    (b.pushP v).viewP = v :: b.viewP.take (b.n - 1) := by
  have h1 := h.pos
  have h2 := h.two
  have h3 := h.position
  have h4 := h.len
  apply List.ext_getElem?
  intro i
  simp only [viewP, pushP, List.take_take]
  by_cases hi : i < b.n
  · rw [List.getElem?_take_of_lt hi, List.getElem?_drop]
    cases i with
    | zero =>
      simp only [Nat.add_zero, List.getElem?_cons_zero, List.getElem?_set, List.length_set]
      split
      · rw [if_neg (by omega), if_pos True.intro, if_pos (by omega)]
      · rw [if_neg (by omega), if_pos True.intro, if_pos (by omega)]
    | succ i =>
      rw [List.getElem?_cons_succ, List.getElem?_take_of_lt (by omega), List.getElem?_drop]
      by_cases h0 : b.position = 0
      · rw [if_pos h0, h0, List.getElem?_set_ne (by omega), List.getElem?_set_ne (by omega)]
        have := h.shadow i (by omega)
        rw [Nat.zero_add, this]
        congr 1
        omega
      · rw [if_neg h0, List.getElem?_set_ne (by omega), List.getElem?_set_ne (by omega)]
        congr 1
        omega
  · rw [List.getElem?_eq_none (by simp; omega), List.getElem?_eq_none (by simp; omega)]

theorem RollingBuffer.new_eq {n : Nat} (h : n * 2 ≤ TAPS) (d : α) :
    RollingBuffer.new n d = .done ⟨n, List.replicate TAPS d, n⟩ := by
  simp only [RollingBuffer.new, Run.bind_eq, Run.assert_true h, Run.done_bind]

theorem RollingBuffer.new_inv {n : Nat} (h0 : 0 < n) (h : n * 2 ≤ TAPS) (d : α) :
    (⟨n, List.replicate TAPS d, n⟩ : RollingBuffer α).Inv := by
  refine ⟨h0, h, by simp, by simp, ?_⟩
  intro i hi
  simp only at hi
  simp only [List.getElem?_replicate]
  rw [if_pos (by omega), if_pos (by omega)]

theorem RollingBuffer.new_view {n : Nat} (h : n * 2 ≤ TAPS) (d : α) :
    (⟨n, List.replicate TAPS d, n⟩ : RollingBuffer α).viewP = List.replicate n d := by
  simp only [viewP, List.drop_replicate, List.take_replicate]
  congr 1
  omega

theorem RollingBuffer.viewP_length {b : RollingBuffer α} (h : b.Inv) : b.viewP.length = b.n := by
  have h2 := h.two
  have h3 := h.position
  have h4 := h.len
  simp only [viewP, List.length_take, List.length_drop]
  omega

/-- Accumulating the FIR filter over a view of past frames. -/
def firAccum (E : Env D S) (factor width : Nat) (filter : List (List S)) (view : List (List S)) :
    List (List S) :=
  (List.zip filter view).foldl
    (fun out x => List.zipWith (fun o coeff => frameScaleAdd E o x.2 coeff) out x.1)
    (List.replicate factor (zeroFrame E width))

/-- `interpolate` without faults. -/
def Interp.stepP (E : Env D S) (ip : Interp S) (frame : List S) : Interp S × List (List S) :=
  let b := ip.buffer.pushP frame
  ({ ip with buffer := b }, firAccum E ip.factor ip.width ip.filter b.viewP)

theorem Interp.interpolate_eq (E : Env D S) {ip : Interp S} (h : ip.buffer.Inv) (frame : List S) :
    ip.interpolate E frame = .done (ip.stepP E frame) := by
  simp only [interpolate, Run.bind_eq, RollingBuffer.pushFront_eq h, Run.done_bind,
    RollingBuffer.view_eq (RollingBuffer.pushP_inv h frame), stepP, firAccum]

theorem Interp.stepP_inv (E : Env D S) {ip : Interp S} (h : ip.buffer.Inv) (frame : List S) :
    (ip.stepP E frame).1.buffer.Inv := RollingBuffer.pushP_inv h frame

/-- The interpolator built by `InterpF::new`. -/
def Interp.init (E : Env D S) (taps factor width : Nat) : Interp S :=
  ⟨factor, width, interpFilter E taps factor, ⟨taps, List.replicate TAPS (zeroFrame E width), taps⟩⟩

theorem Interp.new_eq (E : Env D S) {taps factor width : Nat} (h : taps * factor = TAPS)
    (h2 : taps * 2 ≤ TAPS) : Interp.new E taps factor width = .done (Interp.init E taps factor width) := by
  simp only [Interp.new, Run.bind_eq, Run.assert_true h, Run.done_bind, RollingBuffer.new_eq h2,
    Interp.init]

/-- `reset` without faults. -/
def Interp.resetP (E : Env D S) (ip : Interp S) : Interp S :=
  { ip with buffer := ⟨ip.buffer.n, List.replicate TAPS (zeroFrame E ip.width), ip.buffer.n⟩ }

theorem Interp.reset_eq (E : Env D S) {ip : Interp S} (h : ip.buffer.Inv) :
    ip.reset E = .done (ip.resetP E) := by
  simp only [Interp.reset, Run.bind_eq, RollingBuffer.new_eq h.two, Run.done_bind, Interp.resetP]

end Verif
