import Verif.Model.Mxcsr
import Verif.Model.Api
/-!
# `add_frames` and `seed_frames` with the control register

The same code as in `Model/Ebur128.lean`, with the calls of `ftz::with_ftz` made explicit.  The arithmetic
inside a closure is the one of the register value at that moment (`Ea csr`); the code outside does not
touch the register (sticky exception flags, which nothing reads, are not modelled).
-/

namespace Verif
variable {D S T : Type} {Sm : Type → Type}

/-- Code that does not touch the register. -/
def Csr.lift {α : Type} (r : Run α) : Csr α := fun csr => (r, csr)

/-- `Filter::process` with its `with_ftz` (filter.rs:165-252). -/
def Csr.process [Samples Sm] (Ea : BitVec 32 → Env D S) (ops : SampleOps D S T) (f : Filter D S) (src : Sm T)
    (dest : List D) (destIndex : Nat) (channelMap : List Channel) : Csr (Filter D S × List D) :=
  withFtz fun csr => (f.process (Ea csr) ops src dest destIndex channelMap, csr)

/-- `Filter::seed` with its `with_ftz` (filter.rs:254-305). -/
def Csr.seed [Samples Sm] (Ea : BitVec 32 → Env D S) (ops : SampleOps D S T) (f : Filter D S) (src : Sm T)
    (channelMap : List Channel) : Csr (Filter D S) :=
  withFtz fun csr => (f.seed (Ea csr) ops src channelMap, csr)

/-- ebur128.rs:585-590, 626-631. -/
def Csr.processChunk [Samples Sm] (Ea : BitVec 32 → Env D S) (ops : SampleOps D S T) (e : Ebu D S)
    (chunk : Sm T) : Csr (Ebu D S) :=
  Csr.bind (Csr.process Ea ops e.filter chunk e.audioData e.audioDataIndex e.channelMap) fun r =>
    Csr.lift (Run.done { e with filter := r.1, audioData := r.2 })

/-- ebur128.rs:582-621. -/
def Csr.blockStep [Samples Sm] (Ea : BitVec 32 → Env D S) (E : Env D S) (ops : SampleOps D S T)
    (e : Ebu D S) (current : Sm T) : Csr (Ebu D S × Except Error Unit) :=
  let needed := e.neededFrames
  Csr.bind (Csr.processChunk Ea ops e current) fun e => Csr.lift <| do
    let e := { e with audioDataIndex := e.audioDataIndex + needed }
    let e ← e.recordGating E
    match ← e.recordShortTerm E needed with
    | (e, .error err) => Run.done (e, .error err)
    | (e, .ok ()) => Run.done (e.wrap, .ok ())

/-- ebur128.rs:622-641. -/
def Csr.tailStep [Samples Sm] (Ea : BitVec 32 → Env D S) (ops : SampleOps D S T) (e : Ebu D S)
    (current : Sm T) (numFrames : Nat) : Csr (Ebu D S) :=
  Csr.bind (Csr.processChunk Ea ops e current) fun e => Csr.lift <|
    Run.done { e with
      audioDataIndex := e.audioDataIndex + numFrames
      shortTermFrameCounter :=
        if e.mode.contains Mode.LRA then e.shortTermFrameCounter + numFrames
        else e.shortTermFrameCounter
      neededFrames := e.neededFrames - numFrames }

/-- ebur128.rs:581-642. -/
def Csr.addLoop [Samples Sm] (Ea : BitVec 32 → Env D S) (E : Env D S) (ops : SampleOps D S T) :
    Nat → Ebu D S → Sm T → Csr (Ebu D S × Except Error Unit)
  | 0, _, _ => Csr.lift Run.hang
  | fuel + 1, e, src =>
    let numFrames := Samples.frames src
    if numFrames = 0 then Csr.lift (Run.done (e, .ok ()))
    else if e.neededFrames ≤ numFrames then
      Csr.bind (Csr.lift (Samples.splitAt src e.neededFrames)) fun p =>
        Csr.bind (Csr.blockStep Ea E ops e p.1) fun r =>
          match r with
          | (e, .error err) => Csr.lift (Run.done (e, .error err))
          | (e, .ok ()) => Csr.addLoop Ea E ops fuel e p.2
    else
      Csr.bind (Csr.lift (Samples.splitAt src numFrames)) fun p =>
        Csr.bind (Csr.tailStep Ea ops e p.1 numFrames) fun e => Csr.addLoop Ea E ops fuel e p.2

/-- ebur128.rs:567-661. -/
def Csr.addFrames [Samples Sm] (Ea : BitVec 32 → Env D S) (E : Env D S) (ops : SampleOps D S T)
    (e : Ebu D S) (src : Sm T) : Csr (Ebu D S × Except Error Unit) :=
  if Samples.frames src = 0 then Csr.lift (Run.done (e, .ok ()))
  else if e.channels = 0 then Csr.lift (Run.done (e, .error .noMem))
  else
    let e := { e with filter := e.filter.resetPeaks E }
    Csr.bind (Csr.addLoop Ea E ops (2 * Samples.frames src + 2) e src) fun r =>
      match r with
      | (e, .error err) => Csr.lift (Run.done (e, .error err))
      | (e, .ok ()) => Csr.lift (Run.done (e.updatePeaks E, .ok ()))

/-- ebur128.rs:663-665. -/
def Csr.seedFrames [Samples Sm] (Ea : BitVec 32 → Env D S) (ops : SampleOps D S T) (e : Ebu D S)
    (src : Sm T) : Csr (Ebu D S) :=
  Csr.bind (Csr.seed Ea ops e.filter src e.channelMap) fun f =>
    Csr.lift (Run.done { e with filter := f })

end Verif
