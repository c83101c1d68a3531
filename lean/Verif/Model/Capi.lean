import Verif.Model.Api
/-!
# `src/capi.rs`: the C interface

`c_ulong` values are naturals (64-bit on LP64 targets); pointers are assumed valid, as the C contract
demands.  Undefined behaviour reachable from C arguments (an `i32` transmuted to `Channel`) is a fault.
-/

namespace Verif
variable {D S : Type}

/-- `struct State` (capi.rs:6-12). -/
structure CState (D S : Type) where
  mode : BitVec 32
  channels : Nat
  samplerate : Nat
  internal : Ebu D S

/-- `as u32` on a `c_ulong` (capi.rs:31, 103). -/
def asU32 (x : Nat) : Nat := x % 2 ^ 32

/-- `impl From<Error> for i32` (capi.rs:61-69). -/
def errCode : Error → Nat
  | .noMem => 1
  | .invalidMode => 2
  | .invalidChannelIndex => 3

/-- `ebur128_init` (capi.rs:22-46); `none` is the null pointer. -/
def cInit (E : Env D S) (channels samplerate : Nat) (mode : BitVec 32) :
    Run (Option (CState D S)) := do
  match ← Ebu.new E channels (asU32 samplerate) (Mode.fromBitsTruncate (mode.truncate 8)) with
  | .error _ => Run.done none
  | .ok e => Run.done (some ⟨mode, channels, samplerate, e⟩)

/-- `ebur128_get_version` (capi.rs:14-20): what it writes to `*major`, `*minor`, `*patch`. -/
def cGetVersion : Nat × Nat × Nat := (1, 2, 6)

/-- The discriminants of `#[repr(u32)] enum Channel` (ebur128.rs:84-149). -/
def channelTable : List Channel :=
  [.unused, .left, .right, .center, .leftSurround, .rightSurround, .dualMono,
   .mpSC, .mmSC, .mp060, .mm060, .mp090, .mm090, .mp135, .mm135, .mp180,
   .up000, .up030, .um030, .up045, .um045, .up090, .um090, .up110, .um110,
   .up135, .um135, .up180, .tp000, .bp000, .bp045, .bm045]

/-- `mem::transmute::<i32, Channel>` (capi.rs:84): undefined outside the table. -/
def transmuteChannel (value : Int) : Run Channel :=
  if value < 0 then Run.panic else Run.index channelTable value.toNat

/-- Return code of a `Result`. -/
def resCode {α : Type} : Except Error α → Nat
  | .error e => errCode e
  | .ok _ => 0

/-- Apply a mutating call to the internal analyzer. -/
def CState.call (s : CState D S) (r : Run (Ebu D S × Except Error Unit)) : Run (CState D S × Nat) := do
  let (e, res) ← r
  Run.done ({ s with internal := e }, resCode res)

/-- `ebur128_set_channel` (capi.rs:73-89). -/
def cSetChannel (s : CState D S) (n : Nat) (value : Int) : Run (CState D S × Nat) := do
  let v ← transmuteChannel value
  s.call (s.internal.setChannel n v)

/-- `ebur128_change_parameters` (capi.rs:91-113). -/
def cChangeParameters (E : Env D S) (s : CState D S) (channels samplerate : Nat) :
    Run (CState D S × Nat) := do
  if s.channels = channels ∧ s.samplerate = samplerate then Run.done (s, 4)
  else do
    let (e, res) ← s.internal.changeParameters E channels (asU32 samplerate)
    match res with
    | .error err => Run.done ({ s with internal := e }, errCode err)
    | .ok () =>
      Run.done ({ s with internal := e, channels := channels, samplerate := samplerate }, 0)

/-- `ebur128_set_max_window` (capi.rs:115-135). -/
def cSetMaxWindow (E : Env D S) (s : CState D S) (window : Nat) : Run (CState D S × Nat) := do
  if 2 ^ 32 - 1 < window then Run.done (s, errCode .noMem)
  else if s.internal.window = window then Run.done (s, 4)
  else s.call (s.internal.setMaxWindow E window)

/-- `ebur128_set_max_history` (capi.rs:137-157). -/
def cSetMaxHistory (E : Env D S) (s : CState D S) (history : Nat) : Run (CState D S × Nat) := do
  if 2 ^ 32 - 1 < history then Run.done (s, errCode .noMem)
  else if s.internal.history = history then Run.done (s, 4)
  else s.call (Run.done (s.internal.setMaxHistory E history))

/-- `ebur128_add_frames_{short,int,float,double}` (capi.rs:159-245). `mem` is the memory at `src`; reading
beyond it is the caller's undefined behaviour, modelled as a fault. -/
def cAddFrames {T : Type} (E : Env D S) (ops : SampleOps D S T) (s : CState D S) (mem : List T)
    (frames : Nat) : Run (CState D S × Nat) := do
  if E.usizeMax < frames * s.channels then Run.done (s, errCode .noMem)
  else do
    Run.assert (frames * s.channels ≤ mem.length)
    s.call (s.internal.addInterleaved E ops (mem.take (frames * s.channels)))

/-- Queries write `*out` only on success: the new content of `*out` and the return code
(capi.rs:247-449). -/
def cQuery (r : Run (Except Error D)) (out : D) : Run (D × Nat) := do
  match ← r with
  | .error err => Run.done (out, errCode err)
  | .ok v => Run.done (v, 0)

/-- `ebur128_loudness_global` (capi.rs:247-259). -/
def cLoudnessGlobal (E : Env D S) (s : CState D S) (out : D) := cQuery (s.internal.loudnessGlobal E) out
/-- `ebur128_loudness_global_multiple` (capi.rs:261-279). -/
def cLoudnessGlobalMultiple (E : Env D S) (ss : List (CState D S)) (out : D) :=
  cQuery (loudnessGlobalMultiple E (ss.map CState.internal)) out
/-- `ebur128_loudness_momentary` (capi.rs:281-293). -/
def cLoudnessMomentary (E : Env D S) (s : CState D S) (out : D) :=
  cQuery (s.internal.loudnessMomentary E) out
/-- `ebur128_loudness_shortterm` (capi.rs:295-307). -/
def cLoudnessShortterm (E : Env D S) (s : CState D S) (out : D) :=
  cQuery (s.internal.loudnessShortterm E) out
/-- `ebur128_loudness_window` (capi.rs:309-329). -/
def cLoudnessWindow (E : Env D S) (s : CState D S) (window : Nat) (out : D) : Run (D × Nat) :=
  if 2 ^ 32 - 1 < window then Run.done (out, errCode .noMem)
  else cQuery (s.internal.loudnessWindow E window) out
/-- `ebur128_loudness_range` (capi.rs:331-343). -/
def cLoudnessRange (E : Env D S) (s : CState D S) (out : D) := cQuery (s.internal.loudnessRange E) out
/-- `ebur128_loudness_range_multiple` (capi.rs:345-363). -/
def cLoudnessRangeMultiple (E : Env D S) (ss : List (CState D S)) (out : D) :=
  cQuery (ebuLoudnessRangeMultiple E (ss.map CState.internal)) out
/-- `ebur128_sample_peak` (capi.rs:365-381). -/
def cSamplePeak (s : CState D S) (n : Nat) (out : D) := cQuery (s.internal.getSamplePeak n) out
/-- `ebur128_prev_sample_peak` (capi.rs:383-399). -/
def cPrevSamplePeak (s : CState D S) (n : Nat) (out : D) := cQuery (s.internal.getPrevSamplePeak n) out
/-- `ebur128_true_peak` (capi.rs:401-417). -/
def cTruePeak (E : Env D S) (s : CState D S) (n : Nat) (out : D) := cQuery (s.internal.getTruePeak E n) out
/-- `ebur128_prev_true_peak` (capi.rs:419-435). -/
def cPrevTruePeak (E : Env D S) (s : CState D S) (n : Nat) (out : D) :=
  cQuery (s.internal.getPrevTruePeak E n) out
/-- `ebur128_relative_threshold` (capi.rs:437-449). -/
def cRelativeThreshold (E : Env D S) (s : CState D S) (out : D) :=
  cQuery (Run.done (s.internal.relativeThreshold E)) out

/-- Every mutating function of the interface; `unsigned long` and `size_t` values are naturals. -/
inductive COp (D S : Type) where
  | setChannel (n : UInt32) (value : Int)
  | changeParameters (channels : UInt32) (samplerate : Nat)
  | setMaxWindow (w : Nat)
  | setMaxHistory (h : Nat)
  | addShort (mem : List Int16) (frames : Nat)
  | addInt (mem : List Int32) (frames : Nat)
  | addFloat (mem : List S) (frames : Nat)
  | addDouble (mem : List D) (frames : Nat)

/-- One mutating call: the new state and the return code. -/
def cstep (E : Env D S) (s : CState D S) : COp D S → Run (CState D S × Nat)
  | .setChannel n v => cSetChannel s n.toNat v
  | .changeParameters c r => cChangeParameters E s c.toNat r
  | .setMaxWindow w => cSetMaxWindow E s w
  | .setMaxHistory h => cSetMaxHistory E s h
  | .addShort mem frames => cAddFrames E (i16Ops E) s mem frames
  | .addInt mem frames => cAddFrames E (i32Ops E) s mem frames
  | .addFloat mem frames => cAddFrames E (f32Ops E) s mem frames
  | .addDouble mem frames => cAddFrames E (f64Ops E) s mem frames

/-- A sequence of mutating calls. -/
def cRun (E : Env D S) : CState D S → List (COp D S) → Run (CState D S)
  | s, [] => Run.done s
  | s, op :: ops => do
    let r ← cstep E s op
    cRun E r.1 ops

/-- Every query of the interface on one state (`loudness_window` separately because its argument is an
`unsigned long`): the new content of `*out` and the return code. -/
def cAsk (E : Env D S) (s : CState D S) (out : D) : Query → Run (D × Nat)
  | .loudnessGlobal => cLoudnessGlobal E s out
  | .loudnessMomentary => cLoudnessMomentary E s out
  | .loudnessShortterm => cLoudnessShortterm E s out
  | .loudnessWindow w => cLoudnessWindow E s w.toNat out
  | .loudnessRange => cLoudnessRange E s out
  | .samplePeak n => cSamplePeak s n.toNat out
  | .prevSamplePeak n => cPrevSamplePeak s n.toNat out
  | .truePeak n => cTruePeak E s n.toNat out
  | .prevTruePeak n => cPrevTruePeak E s n.toNat out
  | .relativeThreshold => cRelativeThreshold E s out

end Verif
