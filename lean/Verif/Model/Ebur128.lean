import Verif.Model.Filter
import Verif.Model.History
/-!
# `src/ebur128.rs`: the analyzer
-/

namespace Verif

/-- `bitflags! struct Mode: u8` (ebur128.rs:53-75). -/
abbrev Mode := BitVec 8

namespace Mode
/-- ebur128.rs:60 -/
def M : Mode := 0b00000001
/-- ebur128.rs:62 -/
def S : Mode := 0b00000010 ||| M
/-- ebur128.rs:65 -/
def I : Mode := 0b00000100 ||| M
/-- ebur128.rs:67 -/
def LRA : Mode := 0b00001000 ||| S
/-- ebur128.rs:69 -/
def SAMPLE_PEAK : Mode := 0b00010000 ||| M
/-- ebur128.rs:71 -/
def TRUE_PEAK : Mode := 0b00110001
/-- ebur128.rs:73 -/
def HISTOGRAM : Mode := 0b01000000

/-- `Mode::contains` (bitflags): all bits of `f` are set. -/
def contains (m f : Mode) : Bool := (m &&& f) == f

/-- `Mode::from_bits_truncate` (bitflags): keep the known bits. -/
def fromBitsTruncate (b : BitVec 8) : Mode := b &&& 0b01111111
end Mode

variable {D S T : Type} {Sm : Type → Type}

/-- `struct EbuR128` (ebur128.rs:152-195). -/
structure Ebu (D S : Type) where
  mode : Mode
  rate : Nat
  channels : Nat
  audioData : List D
  audioDataIndex : Nat
  neededFrames : Nat
  channelMap : List Channel
  samplesIn100ms : Nat
  filter : Filter D S
  blockEnergyHistory : History D
  shortTermBlockEnergyHistory : History D
  shortTermFrameCounter : Nat
  samplePeak : List D
  truePeak : List D
  window : Nat
  history : Nat

/-- `default_channel_map` (ebur128.rs:223-256). -/
def defaultChannelMap (channels : Nat) : List Channel :=
  match channels with
  | 4 => [.left, .right, .leftSurround, .rightSurround]
  | 5 => [.left, .right, .center, .leftSurround, .rightSurround]
  | n =>
    let setChannels := min n 6
    List.take setChannels [.left, .right, .center, .unused, .leftSurround, .rightSurround] ++
      List.drop setChannels (List.replicate n .unused)

/-- `MAX_RATE` (ebur128.rs:258). -/
def MAX_RATE : Nat := 2822400
/-- `MAX_CHANNELS` (ebur128.rs:259). -/
def MAX_CHANNELS : Nat := 64

/-- `vec![x; n]` of 8-byte elements: panics ("capacity overflow") when the byte size exceeds
`isize::MAX`.  Running out of memory (an abort) is not modelled. -/
def vec8 (E : Env D S) (x : D) (n : Nat) : Run (List D) :=
  if 8 * n ≤ E.usizeMax / 2 then .done (List.replicate n x) else .panic

/-- `allocate_audio_data` (ebur128.rs:264-285). -/
def allocateAudioData (E : Env D S) (channels rate window : Nat) : Run (Except Error (List D)) := do
  let samplesIn100ms := (rate + 5) / 10
  if E.usizeMax < rate * window then Run.done (.error .noMem)
  else
    let frames := rate * window / 1000
    if frames % samplesIn100ms ≠ 0 ∧ E.usizeMax < frames + samplesIn100ms then
      Run.done (.error .noMem)
    else
      let frames :=
        if frames % samplesIn100ms ≠ 0 then frames + samplesIn100ms - frames % samplesIn100ms
        else frames
      if E.usizeMax < frames * channels then Run.done (.error .noMem)
      else do
        let data ← vec8 E E.f64.zero (frames * channels)
        Run.done (.ok data)

/-- `EbuR128::new` (ebur128.rs:288-352). -/
def Ebu.new (E : Env D S) (channels rate : Nat) (mode : Mode) : Run (Except Error (Ebu D S)) := do
  if channels = 0 ∨ MAX_CHANNELS < channels then Run.done (.error .noMem)
  else if ¬(16 ≤ rate ∧ rate ≤ MAX_RATE) then Run.done (.error .noMem)
  else
    let history := E.usizeMax
    let samplesIn100ms := (rate + 5) / 10
    if !mode.contains Mode.S && !mode.contains Mode.M then Run.done (.error .invalidMode)
    else
      let window := if mode.contains Mode.S then 3000 else 400
      match ← allocateAudioData E channels rate window with
      | .error e => Run.done (.error e)
      | .ok audioData => do
        let filter ← Filter.new E rate channels (mode.contains Mode.SAMPLE_PEAK)
          (mode.contains Mode.TRUE_PEAK)
        Run.done (.ok {
          mode := mode
          rate := rate
          channels := channels
          audioData := audioData
          audioDataIndex := 0
          neededFrames := samplesIn100ms * 4
          channelMap := defaultChannelMap channels
          samplesIn100ms := samplesIn100ms
          filter := filter
          blockEnergyHistory := History.new (mode.contains Mode.HISTOGRAM) (history / 100)
          shortTermBlockEnergyHistory := History.new (mode.contains Mode.HISTOGRAM) (history / 3000)
          shortTermFrameCounter := 0
          samplePeak := List.replicate channels E.f64.zero
          truePeak := List.replicate channels E.f64.zero
          window := window
          history := history })

/-- `set_channel` (ebur128.rs:395-406). -/
def Ebu.setChannel (e : Ebu D S) (n : Nat) (value : Channel) : Run (Ebu D S × Except Error Unit) :=
  if e.channels ≤ n then Run.done (e, .error .invalidChannelIndex)
  else if value = .dualMono ∧ (e.channels ≠ 1 ∨ n ≠ 0) then
    Run.done (e, .error .invalidChannelIndex)
  else if n < e.channelMap.length then
    Run.done ({ e with channelMap := e.channelMap.set n value }, .ok ())
  else Run.panic

/-- `set_channel_map` (ebur128.rs:419-432); `copy_from_slice` panics on different lengths. -/
def Ebu.setChannelMap (e : Ebu D S) (map : List Channel) : Run (Ebu D S × Except Error Unit) :=
  if map.length ≠ e.channels then Run.done (e, .error .invalidChannelIndex)
  else if map.zipIdx.any (fun (v, n) => v = .dualMono ∧ (e.channels ≠ 1 ∨ n ≠ 0)) then
    Run.done (e, .error .invalidChannelIndex)
  else if e.channelMap.length = map.length then
    Run.done ({ e with channelMap := map }, .ok ())
  else Run.panic

/-- `change_parameters` (ebur128.rs:438-480). -/
def Ebu.changeParameters (E : Env D S) (e : Ebu D S) (channels rate : Nat) :
    Run (Ebu D S × Except Error Unit) := do
  if channels = 0 ∨ MAX_CHANNELS < channels then Run.done (e, .error .noMem)
  else if ¬(16 ≤ rate ∧ rate ≤ MAX_RATE) then Run.done (e, .error .noMem)
  else if e.rate = rate ∧ e.channels = channels then Run.done (e, .ok ())
  else
    match ← allocateAudioData E channels rate e.window with
    | .error err => Run.done (e, .error err)
    | .ok audioData => do
      let e := { e with audioData := audioData }
      let e :=
        if e.channels ≠ channels then
          { e with
            channels := channels
            channelMap := defaultChannelMap channels
            samplePeak := List.replicate channels E.f64.zero
            truePeak := List.replicate channels E.f64.zero }
        else e
      let e :=
        if e.rate ≠ rate then { e with rate := rate, samplesIn100ms := (rate + 5) / 10 } else e
      let filter ← Filter.new E rate channels (e.mode.contains Mode.SAMPLE_PEAK)
        (e.mode.contains Mode.TRUE_PEAK)
      Run.done ({ e with
        filter := filter
        neededFrames := e.samplesIn100ms * 4
        audioDataIndex := 0
        shortTermFrameCounter := 0 }, .ok ())

/-- The clamp of `set_max_window` and `set_max_history` (ebur128.rs:488-494, 525-531). -/
def clampMs (mode : Mode) (x : Nat) : Nat :=
  if mode.contains Mode.S then max x 3000
  else if mode.contains Mode.M then max x 400
  else x

/-- `set_max_window` (ebur128.rs:487-511). -/
def Ebu.setMaxWindow (E : Env D S) (e : Ebu D S) (window : Nat) :
    Run (Ebu D S × Except Error Unit) := do
  let window := clampMs e.mode window
  if window = e.window then Run.done (e, .ok ())
  else
    match ← allocateAudioData E e.channels e.rate window with
    | .error err => Run.done (e, .error err)
    | .ok audioData =>
      Run.done ({ e with
        audioData := audioData
        window := window
        neededFrames := e.samplesIn100ms * 4
        audioDataIndex := 0
        shortTermFrameCounter := 0 }, .ok ())

/-- `set_max_history` (ebur128.rs:524-544). -/
def Ebu.setMaxHistory (E : Env D S) (e : Ebu D S) (history : Nat) : Ebu D S × Except Error Unit :=
  let history := clampMs e.mode history
  if e.history = history then (e, .ok ())
  else
    ({ e with
      history := history
      blockEnergyHistory := e.blockEnergyHistory.setMaxSize E (history / 100)
      shortTermBlockEnergyHistory := e.shortTermBlockEnergyHistory.setMaxSize E (history / 3000) },
     .ok ())

/-- `reset` (ebur128.rs:547-563). -/
def Ebu.reset (E : Env D S) (e : Ebu D S) : Run (Ebu D S) := do
  let filter ← e.filter.reset E
  Run.done { e with
    audioData := e.audioData.map fun _ => E.f64.zero
    neededFrames := e.samplesIn100ms * 4
    audioDataIndex := 0
    shortTermFrameCounter := 0
    truePeak := e.truePeak.map fun _ => E.f64.zero
    samplePeak := e.samplePeak.map fun _ => E.f64.zero
    filter := filter
    blockEnergyHistory := e.blockEnergyHistory.reset
    shortTermBlockEnergyHistory := e.shortTermBlockEnergyHistory.reset }

/-- `energy_in_interval` (ebur128.rs:799-810). -/
def Ebu.energyInInterval (E : Env D S) (e : Ebu D S) (intervalFrames : Nat) : Run (Except Error D) := do
  Run.assert (e.channels ≠ 0)
  if e.audioData.length / e.channels < intervalFrames then Run.done (.error .invalidMode)
  else do
    let r ← calcGatingBlock E intervalFrames e.audioData e.audioDataIndex e.channelMap
    Run.done (.ok r)

/-- `energy_shortterm` (ebur128.rs:823-825). -/
def Ebu.energyShortterm (E : Env D S) (e : Ebu D S) : Run (Except Error D) :=
  e.energyInInterval E (e.samplesIn100ms * 30)

/-- The part of `add_frames` after `process` of a completing block, measuring the gating block
(ebur128.rs:597-605). -/
def Ebu.recordGating (E : Env D S) (e : Ebu D S) : Run (Ebu D S) := do
  if e.mode.contains Mode.I then do
    let energy ← calcGatingBlock E (e.samplesIn100ms * 4) e.audioData e.audioDataIndex e.channelMap
    let h ← e.blockEnergyHistory.add E energy
    Run.done { e with blockEnergyHistory := h }
  else Run.done e

/-- The short-term part (ebur128.rs:607-614); `consumed` is the old `needed_frames`. -/
def Ebu.recordShortTerm (E : Env D S) (e : Ebu D S) (consumed : Nat) :
    Run (Ebu D S × Except Error Unit) := do
  if e.mode.contains Mode.LRA then
    let e := { e with shortTermFrameCounter := e.shortTermFrameCounter + consumed }
    if e.shortTermFrameCounter = e.samplesIn100ms * 30 then
      match ← e.energyShortterm E with
      | .error err => Run.done (e, .error err)
      | .ok energy => do
        let h ← e.shortTermBlockEnergyHistory.add E energy
        Run.done ({ e with
          shortTermBlockEnergyHistory := h
          shortTermFrameCounter := e.samplesIn100ms * 20 }, .ok ())
    else Run.done (e, .ok ())
  else Run.done (e, .ok ())

/-- Wrap of the ring buffer and the next block length (ebur128.rs:616-621). -/
def Ebu.wrap (e : Ebu D S) : Ebu D S :=
  { e with
    audioDataIndex :=
      if e.audioDataIndex = e.audioData.length / e.channels then 0 else e.audioDataIndex
    neededFrames := e.samplesIn100ms }

/-- Running the filter over a chunk and writing it into the ring (ebur128.rs:585-590, 626-631). -/
def Ebu.processChunk [Samples Sm] (E : Env D S) (ops : SampleOps D S T) (e : Ebu D S) (chunk : Sm T) :
    Run (Ebu D S) := do
  let (filter, audioData) ← e.filter.process E ops chunk e.audioData e.audioDataIndex e.channelMap
  Run.done { e with filter := filter, audioData := audioData }

/-- One iteration with at least `needed_frames` frames left (ebur128.rs:582-621). -/
def Ebu.blockStep [Samples Sm] (E : Env D S) (ops : SampleOps D S T) (e : Ebu D S) (current : Sm T) :
    Run (Ebu D S × Except Error Unit) := do
  let needed := e.neededFrames
  let e ← e.processChunk E ops current
  let e := { e with audioDataIndex := e.audioDataIndex + needed }
  let e ← e.recordGating E
  match ← e.recordShortTerm E needed with
  | (e, .error err) => Run.done (e, .error err)
  | (e, .ok ()) => Run.done (e.wrap, .ok ())

/-- One iteration with fewer than `needed_frames` frames left (ebur128.rs:622-641). -/
def Ebu.tailStep [Samples Sm] (E : Env D S) (ops : SampleOps D S T) (e : Ebu D S) (current : Sm T)
    (numFrames : Nat) : Run (Ebu D S) := do
  let e ← e.processChunk E ops current
  Run.done { e with
    audioDataIndex := e.audioDataIndex + numFrames
    shortTermFrameCounter :=
      if e.mode.contains Mode.LRA then e.shortTermFrameCounter + numFrames
      else e.shortTermFrameCounter
    neededFrames := e.neededFrames - numFrames }

/-- The `while` loop of `add_frames` (ebur128.rs:581-642). -/
def Ebu.addLoop [Samples Sm] (E : Env D S) (ops : SampleOps D S T) :
    Nat → Ebu D S → Sm T → Run (Ebu D S × Except Error Unit)
  | 0, _, _ => Run.hang
  | fuel + 1, e, src => do
    let numFrames := Samples.frames src
    if numFrames = 0 then Run.done (e, .ok ())
    else if e.neededFrames ≤ numFrames then do
      let (current, next) ← Samples.splitAt src e.neededFrames
      match ← e.blockStep E ops current with
      | (e, .error err) => Run.done (e, .error err)
      | (e, .ok ()) => Ebu.addLoop E ops fuel e next
    else do
      let (current, next) ← Samples.splitAt src numFrames
      let e ← e.tailStep E ops current numFrames
      Ebu.addLoop E ops fuel e next

/-- The final peak update (ebur128.rs:644-660). -/
def Ebu.updatePeaks (E : Env D S) (e : Ebu D S) : Ebu D S :=
  { e with
    samplePeak := updatePeak e.samplePeak e.filter.samplePeak
    truePeak := updatePeak e.truePeak e.filter.truePeak }
where
  /-- `zip` over both slices; entries beyond the shorter one are kept. -/
  updatePeak (total prev : List D) : List D :=
    List.zipWith (maxBy E.f64.lt) total prev ++ total.drop prev.length

/-- Generic `add_frames` (ebur128.rs:567-661).  The loop bound `2 * frames + 2` is generous; running out
of it is reported as `hang`. -/
def Ebu.addFrames [Samples Sm] (E : Env D S) (ops : SampleOps D S T) (e : Ebu D S) (src : Sm T) :
    Run (Ebu D S × Except Error Unit) := do
  if Samples.frames src = 0 then Run.done (e, .ok ())
  else if e.channels = 0 then Run.done (e, .error .noMem)
  else do
    let e := { e with filter := e.filter.resetPeaks E }
    match ← Ebu.addLoop E ops (2 * Samples.frames src + 2) e src with
    | (e, .error err) => Run.done (e, .error err)
    | (e, .ok ()) => Run.done (e.updatePeaks E, .ok ())

/-- Generic `seed_frames` (ebur128.rs:663-665). -/
def Ebu.seedFrames [Samples Sm] (E : Env D S) (ops : SampleOps D S T) (e : Ebu D S) (src : Sm T) :
    Run (Ebu D S) := do
  let f ← e.filter.seed E ops src e.channelMap
  Run.done { e with filter := f }

/-- `add_frames_{i16,i32,f32,f64}` (ebur128.rs:668-685). -/
def Ebu.addInterleaved (E : Env D S) (ops : SampleOps D S T) (e : Ebu D S) (frames : List T) :
    Run (Ebu D S × Except Error Unit) :=
  match Interleaved.new frames e.channels with
  | .error err => Run.done (e, .error err)
  | .ok src => e.addFrames E ops src

/-- `add_frames_planar_{i16,i32,f32,f64}` (ebur128.rs:688-705). -/
def Ebu.addPlanar (E : Env D S) (ops : SampleOps D S T) (e : Ebu D S) (frames : List (List T)) :
    Run (Ebu D S × Except Error Unit) :=
  match Planar.new frames with
  | .error err => Run.done (e, .error err)
  | .ok src => e.addFrames E ops src

/-- `seed_frames_{i16,i32,f32,f64}` (ebur128.rs:709-733). -/
def Ebu.seedInterleaved (E : Env D S) (ops : SampleOps D S T) (e : Ebu D S) (frames : List T) :
    Run (Ebu D S × Except Error Unit) :=
  match Interleaved.new frames e.channels with
  | .error err => Run.done (e, .error err)
  | .ok src => do
    let e ← e.seedFrames E ops src
    Run.done (e, .ok ())

/-- `seed_frames_planar_{i16,i32,f32,f64}` (ebur128.rs:737-761). -/
def Ebu.seedPlanar (E : Env D S) (ops : SampleOps D S T) (e : Ebu D S) (frames : List (List T)) :
    Run (Ebu D S × Except Error Unit) :=
  match Planar.new frames with
  | .error err => Run.done (e, .error err)
  | .ok src => do
    let e ← e.seedFrames E ops src
    Run.done (e, .ok ())

/-- `loudness_global` (ebur128.rs:764-770). -/
def Ebu.loudnessGlobal (E : Env D S) (e : Ebu D S) : Run (Except Error D) := do
  if !e.mode.contains Mode.I then Run.done (.error .invalidMode)
  else do
    let r ← gatedLoudnessMultiple E [e.blockEnergyHistory]
    Run.done (.ok r)

/-- `loudness_global_multiple` (ebur128.rs:781-797). -/
def loudnessGlobalMultiple (E : Env D S) (es : List (Ebu D S)) : Run (Except Error D) := do
  if es.any fun e => !e.mode.contains Mode.I then Run.done (.error .invalidMode)
  else do
    let r ← gatedLoudnessMultiple E (es.map Ebu.blockEnergyHistory)
    Run.done (.ok r)

/-- `if energy <= 0.0 { -inf } else { energy_to_loudness(energy) }` (ebur128.rs:816-820, 831-835,
849-853). -/
def windowLoudness (E : Env D S) (energy : D) : D :=
  if E.f64.le energy E.f64.zero then E.f64.neg E.f64.inf else energyToLoudness E energy

/-- `loudness_momentary` (ebur128.rs:813-821). -/
def Ebu.loudnessMomentary (E : Env D S) (e : Ebu D S) : Run (Except Error D) := do
  match ← e.energyInInterval E (e.samplesIn100ms * 4) with
  | .error err => Run.done (.error err)
  | .ok energy => Run.done (.ok (windowLoudness E energy))

/-- `loudness_shortterm` (ebur128.rs:828-836). -/
def Ebu.loudnessShortterm (E : Env D S) (e : Ebu D S) : Run (Except Error D) := do
  match ← e.energyShortterm E with
  | .error err => Run.done (.error err)
  | .ok energy => Run.done (.ok (windowLoudness E energy))

/-- `loudness_window` (ebur128.rs:842-854). -/
def Ebu.loudnessWindow (E : Env D S) (e : Ebu D S) (window : Nat) : Run (Except Error D) := do
  if E.usizeMax < e.rate * window then Run.done (.error .invalidMode)
  else
    match ← e.energyInInterval E (e.rate * window / 1000) with
    | .error err => Run.done (.error err)
    | .ok energy => Run.done (.ok (windowLoudness E energy))

/-- `loudness_range` (ebur128.rs:859-865) with `History::loudness_range` (history.rs:419-423; the
`unwrap` panics on an error). -/
def Ebu.loudnessRange (E : Env D S) (e : Ebu D S) : Run (Except Error D) := do
  if !e.mode.contains Mode.LRA then Run.done (.error .invalidMode)
  else
    match ← loudnessRangeMultiple E [e.shortTermBlockEnergyHistory] with
    | .error _ => Run.panic
    | .ok r => Run.done (.ok r)

/-- `loudness_range_multiple` (ebur128.rs:871-888). -/
def ebuLoudnessRangeMultiple (E : Env D S) (es : List (Ebu D S)) : Run (Except Error D) := do
  if es.any fun e => !e.mode.contains Mode.LRA then Run.done (.error .invalidMode)
  else loudnessRangeMultiple E (es.map Ebu.shortTermBlockEnergyHistory)

/-- `sample_peak` (ebur128.rs:893-903). -/
def Ebu.getSamplePeak (e : Ebu D S) (n : Nat) : Run (Except Error D) := do
  if !e.mode.contains Mode.SAMPLE_PEAK then Run.done (.error .invalidMode)
  else if e.channels ≤ n then Run.done (.error .invalidChannelIndex)
  else do
    let v ← Run.index e.samplePeak n
    Run.done (.ok v)

/-- `prev_sample_peak` (ebur128.rs:909-919). -/
def Ebu.getPrevSamplePeak (e : Ebu D S) (n : Nat) : Run (Except Error D) := do
  if !e.mode.contains Mode.SAMPLE_PEAK then Run.done (.error .invalidMode)
  else if e.channels ≤ n then Run.done (.error .invalidChannelIndex)
  else do
    let v ← Run.index e.filter.samplePeak n
    Run.done (.ok v)

/-- `true_peak` (ebur128.rs:931-945). -/
def Ebu.getTruePeak (E : Env D S) (e : Ebu D S) (n : Nat) : Run (Except Error D) := do
  if !e.mode.contains Mode.TRUE_PEAK then Run.done (.error .invalidMode)
  else if e.channels ≤ n then Run.done (.error .invalidChannelIndex)
  else do
    let s ← Run.index e.samplePeak n
    let t ← Run.index e.truePeak n
    Run.done (.ok (if E.f64.lt t s then s else t))

/-- `prev_true_peak` (ebur128.rs:958-975). -/
def Ebu.getPrevTruePeak (E : Env D S) (e : Ebu D S) (n : Nat) : Run (Except Error D) := do
  if !e.mode.contains Mode.TRUE_PEAK then Run.done (.error .invalidMode)
  else if e.channels ≤ n then Run.done (.error .invalidChannelIndex)
  else do
    let s ← Run.index e.filter.samplePeak n
    let t ← Run.index e.filter.truePeak n
    Run.done (.ok (if E.f64.lt t s then s else t))

/-- `relative_threshold` (ebur128.rs:978-984). -/
def Ebu.relativeThreshold (E : Env D S) (e : Ebu D S) : Except Error D :=
  if !e.mode.contains Mode.I then .error .invalidMode
  else .ok (e.blockEnergyHistory.relativeThreshold E)

/-- `gating_block_count_and_energy` (ebur128.rs:987-991). -/
def Ebu.gatingBlockCountAndEnergy (E : Env D S) (e : Ebu D S) : Run (Option (Nat × D)) := do
  match ← gatingMultiple E [e.blockEnergyHistory] with
  | .ok r => Run.done (some r)
  | .error _ => Run.done none

end Verif
