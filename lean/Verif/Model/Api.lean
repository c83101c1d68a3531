import Verif.Model.Ebur128
/-!
# The public mutating API as one step relation

`Op` lists every `&mut self` method of `EbuR128`; `step` dispatches to the model function.
-/

namespace Verif
variable {D S : Type}

/-- The argument of the sixteen `add_frames_*` / `seed_frames_*` methods (ebur128.rs:668-761). -/
inductive Input (D S : Type) where
  | i16 (l : List Int16)
  | i32 (l : List Int32)
  | f32 (l : List S)
  | f64 (l : List D)
  | pi16 (l : List (List Int16))
  | pi32 (l : List (List Int32))
  | pf32 (l : List (List S))
  | pf64 (l : List (List D))

/-- Every `&mut self` method of the public API. -/
inductive Op (D S : Type) where
  | setChannel (n : UInt32) (v : Channel)
  | setChannelMap (m : List Channel)
  | changeParameters (channels rate : UInt32)
  | setMaxWindow (w : UInt32)
  | setMaxHistory (h : UInt32)
  | reset
  | addFrames (x : Input D S)
  | seedFrames (x : Input D S)

/-- `add_frames_*` dispatch (ebur128.rs:668-705). -/
def Ebu.addInput (E : Env D S) (e : Ebu D S) : Input D S → Run (Ebu D S × Except Error Unit)
  | .i16 l => e.addInterleaved E (i16Ops E) l
  | .i32 l => e.addInterleaved E (i32Ops E) l
  | .f32 l => e.addInterleaved E (f32Ops E) l
  | .f64 l => e.addInterleaved E (f64Ops E) l
  | .pi16 l => e.addPlanar E (i16Ops E) l
  | .pi32 l => e.addPlanar E (i32Ops E) l
  | .pf32 l => e.addPlanar E (f32Ops E) l
  | .pf64 l => e.addPlanar E (f64Ops E) l

/-- `seed_frames_*` dispatch (ebur128.rs:709-761). -/
def Ebu.seedInput (E : Env D S) (e : Ebu D S) : Input D S → Run (Ebu D S × Except Error Unit)
  | .i16 l => e.seedInterleaved E (i16Ops E) l
  | .i32 l => e.seedInterleaved E (i32Ops E) l
  | .f32 l => e.seedInterleaved E (f32Ops E) l
  | .f64 l => e.seedInterleaved E (f64Ops E) l
  | .pi16 l => e.seedPlanar E (i16Ops E) l
  | .pi32 l => e.seedPlanar E (i32Ops E) l
  | .pf32 l => e.seedPlanar E (f32Ops E) l
  | .pf64 l => e.seedPlanar E (f64Ops E) l

/-- One public mutating call. -/
def step (E : Env D S) (e : Ebu D S) : Op D S → Run (Ebu D S × Except Error Unit)
  | .setChannel n v => e.setChannel n.toNat v
  | .setChannelMap m => e.setChannelMap m
  | .changeParameters c r => e.changeParameters E c.toNat r.toNat
  | .setMaxWindow w => e.setMaxWindow E w.toNat
  | .setMaxHistory h => Run.done (e.setMaxHistory E h.toNat)
  | .reset => do
    let e ← e.reset E
    Run.done (e, .ok ())
  | .addFrames x => e.addInput E x
  | .seedFrames x => e.seedInput E x

/-- A sequence of calls; return values are ignored by the caller. -/
def runOps (E : Env D S) : Ebu D S → List (Op D S) → Run (Ebu D S)
  | e, [] => Run.done e
  | e, op :: ops => do
    let r ← step E e op
    runOps E r.1 ops

/-- Every `&self` query of the public API returning a level. -/
inductive Query where
  | loudnessGlobal
  | loudnessMomentary
  | loudnessShortterm
  | loudnessWindow (w : UInt32)
  | loudnessRange
  | samplePeak (n : UInt32)
  | prevSamplePeak (n : UInt32)
  | truePeak (n : UInt32)
  | prevTruePeak (n : UInt32)
  | relativeThreshold

/-- One query (ebur128.rs:764-984). -/
def ask (E : Env D S) (e : Ebu D S) : Query → Run (Except Error D)
  | .loudnessGlobal => e.loudnessGlobal E
  | .loudnessMomentary => e.loudnessMomentary E
  | .loudnessShortterm => e.loudnessShortterm E
  | .loudnessWindow w => e.loudnessWindow E w.toNat
  | .loudnessRange => e.loudnessRange E
  | .samplePeak n => e.getSamplePeak n.toNat
  | .prevSamplePeak n => e.getPrevSamplePeak n.toNat
  | .truePeak n => e.getTruePeak E n.toNat
  | .prevTruePeak n => e.getPrevTruePeak E n.toNat
  | .relativeThreshold => Run.done (e.relativeThreshold E)

end Verif
