import Verif.Model.MxcsrCalls
import Verif.Proofs.Run
import Verif.Props.C01_C03
/-! # C50: the control register -/

namespace Verif
variable {D S T : Type} {Sm : Type → Type}

/-- Bit 15 of the register: flush results to zero. -/
def Spec.flushes (csr : BitVec 32) : Bool := csr.getLsbD 15

/-- **C50**, any closure: whatever the closure does, even changing the register, the register has its old
value after `with_ftz`, on return and on panic; when the closure starts, the flush bit is set and all other
bits are unchanged. -/
theorem C50_withFtz {α : Type} (body : Csr α) (csr : BitVec 32) :
    (∃ csr', Spec.flushes csr' = true ∧ (∀ i, i ≠ 15 → csr'.getLsbD i = csr.getLsbD i) ∧
      (withFtz body csr).1 = (body csr').1) ∧
    ((withFtz body csr).1 ≠ .hang → (withFtz body csr).2 = csr) := by
  constructor
  · refine ⟨csr ||| FLUSH_ZERO_ON, ?_, ?_, ?_⟩
    · simp [Spec.flushes, FLUSH_ZERO_ON]
    · intro i hi
      rw [BitVec.getLsbD_or]
      have : FLUSH_ZERO_ON.getLsbD i = false := by
        by_cases h : i < 32
        · have : ∀ i : Fin 32, i.1 ≠ 15 → FLUSH_ZERO_ON.getLsbD i.1 = false := by decide
          exact this ⟨i, h⟩ hi
        · exact BitVec.getLsbD_of_ge _ _ (by omega)
      rw [this, Bool.or_false]
    · simp only [withFtz, ftzNew, Csr.bind, getcsr, setcsr]
      rcases body (csr ||| FLUSH_ZERO_ON) with ⟨_ | _ | _, c⟩ <;> rfl
  · simp only [withFtz, ftzNew, Csr.bind, getcsr, setcsr, ftzDrop]
    rcases body (csr ||| FLUSH_ZERO_ON) with ⟨_ | _ | _, c⟩
    · intro _; rfl
    · intro _; rfl
    · intro h; exact absurd rfl h

/-- The computation has the given outcome and, if it terminates, restores the register. -/
def Csr.Is {α : Type} (x : Csr α) (r : Run α) : Prop :=
  ∀ csr, (x csr).1 = r ∧ (r ≠ .hang → (x csr).2 = csr)

theorem Csr.is_lift {α : Type} (r : Run α) : (Csr.lift r).Is r := fun _ => ⟨rfl, fun _ => rfl⟩

theorem Csr.Is.bind {α β : Type} {x : Csr α} {r : Run α} {f : α → Csr β} {g : α → Run β}
    (hx : x.Is r) (hf : ∀ a, (f a).Is (g a)) : (Csr.bind x f).Is (Run.bind r g) := by
  intro csr
  obtain ⟨h1, h2⟩ := hx csr
  unfold Csr.bind
  rcases hxe : x csr with ⟨r', c⟩
  rw [hxe] at h1 h2
  simp only at h1 h2
  subst h1
  cases r' with
  | done a => have := h2 (by intro h; cases h); subst this; exact hf a c
  | panic => exact ⟨rfl, fun _ => h2 (by intro h; cases h)⟩
  | hang => exact ⟨rfl, fun h => absurd rfl h⟩

theorem Csr.is_withFtz {α : Type} {body : Csr α} {r : Run α}
    (h : ∀ csr, Spec.flushes csr = true → (body csr).1 = r) : (withFtz body).Is r := by
  intro csr
  obtain ⟨⟨csr', h1, -, h2⟩, h3⟩ := C50_withFtz body csr
  have := h csr' h1
  rw [← this, ← h2]
  exact ⟨rfl, h3⟩

section
variable {Ea : BitVec 32 → Env D S} {E : Env D S}

theorem Csr.processChunk_is [Samples Sm] (hE : ∀ csr, Spec.flushes csr = true → Ea csr = E)
    (ops : SampleOps D S T) (e : Ebu D S) (src : Sm T) :
    (Csr.processChunk Ea ops e src).Is (e.processChunk E ops src) := by
  refine (Csr.is_withFtz (fun csr h => ?_)).bind fun a => Csr.is_lift _
  show Filter.process (Ea csr) ops e.filter src e.audioData e.audioDataIndex e.channelMap = _
  rw [hE csr h]

theorem Csr.addLoop_is [Samples Sm] (hE : ∀ csr, Spec.flushes csr = true → Ea csr = E)
    (ops : SampleOps D S T) (fuel : Nat) (e : Ebu D S) (src : Sm T) :
    (Csr.addLoop Ea E ops fuel e src).Is (e.addLoop E ops fuel src) := by
  induction fuel generalizing e src with
  | zero => exact Csr.is_lift _
  | succ fuel ih =>
    unfold Csr.addLoop Ebu.addLoop
    by_cases h0 : Samples.frames src = 0
    · simp only [if_pos h0]; exact Csr.is_lift _
    · simp only [if_neg h0]
      by_cases h1 : e.neededFrames ≤ Samples.frames src
      · simp only [if_pos h1]
        refine (Csr.is_lift _).bind fun p => Csr.Is.bind ?_ fun r => ?_
        · exact (Csr.processChunk_is hE ops e p.1).bind fun a => Csr.is_lift _
        · rcases r with ⟨e1, _ | _⟩
          · exact Csr.is_lift _
          · exact ih e1 p.2
      · simp only [if_neg h1]
        refine (Csr.is_lift _).bind fun p => Csr.Is.bind ?_ fun e1 => ih e1 p.2
        exact (Csr.processChunk_is hE ops e p.1).bind fun a => Csr.is_lift _

/-- **C50** for `add_frames`: for every initial register value the call has the outcome of the model in the
environment `E` that the flushing register values select, and if it returns or panics the register is as
before. -/
theorem C50_addFrames [Samples Sm] (hE : ∀ csr, Spec.flushes csr = true → Ea csr = E)
    (ops : SampleOps D S T) (e : Ebu D S) (src : Sm T) (csr : BitVec 32) :
    (Csr.addFrames Ea E ops e src csr).1 = e.addFrames E ops src ∧
    (e.addFrames E ops src ≠ .hang → (Csr.addFrames Ea E ops e src csr).2 = csr) := by
  have h : (Csr.addFrames Ea E ops e src).Is (e.addFrames E ops src) := by
    unfold Csr.addFrames Ebu.addFrames
    by_cases h0 : Samples.frames src = 0
    · simp only [if_pos h0]; exact Csr.is_lift _
    · simp only [if_neg h0]
      by_cases h1 : e.channels = 0
      · simp only [if_pos h1]; exact Csr.is_lift _
      · simp only [if_neg h1]
        refine (Csr.addLoop_is hE ops _ _ src).bind fun r => ?_
        rcases r with ⟨e1, _ | _⟩ <;> exact Csr.is_lift _
  exact h csr

/-- **C50** for `seed_frames`. -/
theorem C50_seedFrames [Samples Sm] (hE : ∀ csr, Spec.flushes csr = true → Ea csr = E)
    (ops : SampleOps D S T) (e : Ebu D S) (src : Sm T) (csr : BitVec 32) :
    (Csr.seedFrames Ea ops e src csr).1 = e.seedFrames E ops src ∧
    (e.seedFrames E ops src ≠ .hang → (Csr.seedFrames Ea ops e src csr).2 = csr) := by
  have h : (Csr.seedFrames Ea ops e src).Is (e.seedFrames E ops src) := by
    refine (Csr.is_withFtz (fun csr h => ?_)).bind fun a => Csr.is_lift _
    show Filter.seed (Ea csr) ops e.filter src e.channelMap = _
    rw [hE csr h]
  exact h csr

end

/-- The environment family of an x86-64 target: flushing iff the bit is set.  Register values with the bit set
select the SSE2 environment, others do not, so the hypothesis of `C50_addFrames` is about something. -/
example : ∃ Ea : BitVec 32 → Env F64 F32, (∀ csr, Spec.flushes csr = true → Ea csr = Demo.env) ∧
    (Ea 0x1f80).noFtz = true := by
  refine ⟨fun csr => if Spec.flushes csr then Demo.env else Demo.envNoSse, fun csr h => ?_, ?_⟩
  · simp only [h, if_true]
  · rfl

/-- A closure that panics after changing the register. -/
example : withFtz (fun _ => ((.panic : Run Unit), 0x12345678)) 0x1f80 = (.panic, 0x1f80) := rfl

end Verif
