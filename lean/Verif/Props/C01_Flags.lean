import Verif.Props.C01_C03
/-! # C01: which flags make a mode -/

namespace Verif
open Spec
variable {D S : Type}

/-- **C01.** The rule of `C01_new` in terms of the documented flags: a mode with any flag but `HISTOGRAM` is accepted, with
whatever flags besides; `HISTOGRAM` alone, and no flag at all, are rejected. -/
theorem C01_flags (E : Env D S) (h64 : 2 ^ 64 - 1 ≤ E.usizeMax) {channels rate : Nat} (h : ValidArgs channels rate) :
    (∀ f ∈ [Mode.M, Mode.S, Mode.I, Mode.LRA, Mode.SAMPLE_PEAK, Mode.TRUE_PEAK], ∀ mode : Mode,
      ∃ e, Ebu.new E channels rate (mode ||| f) = .done (.ok e)) ∧
    Ebu.new E channels rate Mode.HISTOGRAM = .done (.error .invalidMode) ∧
    Ebu.new E channels rate 0 = .done (.error .invalidMode) := by
  refine ⟨fun f hf mode => (C01_new_64 E h64 channels rate _).1.2 ⟨h, ?_⟩, ?_, ?_⟩
  · have key : ∀ f ∈ [Mode.M, Mode.S, Mode.I, Mode.LRA, Mode.SAMPLE_PEAK, Mode.TRUE_PEAK], ∀ mode : BitVec 8,
        Mode.contains (mode ||| f) Mode.M = true := by decide +kernel
    exact key f hf mode
  · exact (C01_new E channels rate _).2.1 h (by decide)
  · exact (C01_new E channels rate _).2.1 h (by decide)

/-- A stereo analyzer at 48 kHz. -/
example : (∃ e, Ebu.new Demo.env 2 48000 (Mode.HISTOGRAM ||| Mode.S) = .done (.ok e)) ∧
    Ebu.new Demo.env 2 48000 Mode.HISTOGRAM = .done (.error .invalidMode) := by
  have hv : ValidArgs 2 48000 := by unfold ValidArgs; omega
  obtain ⟨h1, h2, -⟩ := C01_flags Demo.env (Nat.le_refl _) hv
  exact ⟨h1 _ (by simp) _, h2⟩

end Verif
