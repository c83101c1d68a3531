import Verif.Model.Api
/-!
# `examples/normalize.rs` and `examples/replaygain.rs`

The two programs that ship with the crate, from the samples of a WAV file to the samples written (`normalize`) or the
numbers printed (`replaygain`).  Reading and writing files, the command line and the printing are left out; a WAV file is
its channel count, its rate and its 16-bit samples.  The programs compute outside the crate, where subnormals are not
flushed, so their own arithmetic is plain IEEE (`Fl`).  `powf` of `f32` is a parameter.  Every `expect` is a panic.
-/

namespace Verif

/-- `Mode::all()` (bitflags; ebur128.rs:53-75): every flag, the histogram included. -/
def Mode.all : Mode := Mode.M ||| Mode.S ||| Mode.I ||| Mode.LRA ||| Mode.SAMPLE_PEAK ||| Mode.TRUE_PEAK ||| Mode.HISTOGRAM

namespace Examples

/-- A decoded 16-bit WAV file. -/
structure Wav where
  channels : UInt16
  rate : UInt32
  data : List Int16

/-- `slice.chunks(n)` for `n > 0`: the last chunk may be shorter. -/
def pieces {T : Type} (n : Nat) (l : List T) : List (List T) :=
  if _h : n = 0 ∨ l = [] then [] else l.take n :: pieces n (l.drop n)
termination_by l.length
decreasing_by
  have : 0 < l.length := List.length_pos_iff.2 fun h => _h (.inr h)
  have : n ≠ 0 := fun h => _h (.inl h)
  simp only [List.length_drop]; omega

/-- `Result::expect`. -/
def expect {α : Type} : Except Error α → Run α
  | .ok x => Run.done x
  | .error _ => Run.panic

/-- `s as f32 / i16::MAX as f32` (normalize.rs:27, replaygain.rs:79). -/
def sampleOf (s : Int16) : F32 := Fl.div (Fl.ofInt Fmt.b32 s.toInt) (Fl.ofInt Fmt.b32 32767)

/-- One round of the loop (normalize.rs:33-36, replaygain.rs:85-88). -/
def feedChunk (E : Env F64 F32) (e : Ebu F64 F32) (chunk : List F32) : Run (Ebu F64 F32) := do
  let (e, r) ← step E e (.addFrames (.f32 chunk))
  expect r
  let _ ← expect (← e.loudnessGlobal E)
  Run.done e

/-- The part the programs share: create the analyzer, feed it one second at a time, ask for the loudness
(normalize.rs:19-41, replaygain.rs:71-93). -/
def analyse (E : Env F64 F32) (w : Wav) : Run (Ebu F64 F32 × F64) := do
  let e ← expect (← Ebu.new E w.channels.toNat w.rate.toNat Mode.all)
  let samples := w.data.map sampleOf
  let size := w.rate.toNat * w.channels.toNat
  Run.assert (size ≤ E.usizeMax)
  Run.assert (size ≠ 0)
  let e ← Run.foldL (feedChunk E) e (pieces size samples)
  let l ← expect (← e.loudnessGlobal E)
  Run.done (e, l)

/-- `10f32.powf(((target_loudness - global_loudness) / 20.0) as f32)` (normalize.rs:44). -/
def gain (powf : F32 → F32 → F32) (l : F64) : F32 :=
  powf (Fl.lit Fmt.b32 10 1)
    (Fl.cast Fmt.b32 (Fl.div (Fl.sub (Fl.lit Fmt.b64 (-23) 1) l) (Fl.lit Fmt.b64 20 1)))

/-- `f32::clamp(-1.0, 1.0)`. -/
def clamp (x : F32) : F32 :=
  let lo := Fl.lit Fmt.b32 (-1) 1
  let hi := Fl.lit Fmt.b32 1 1
  let x := if Fl.lt x lo then lo else x
  if Fl.lt hi x then hi else x

/-- `x as i16`: truncation, saturating, NaN to 0. -/
def toI16 : F32 → Int
  | .nan => 0
  | .num s k _ =>
    if k = Fmt.b32.infK then (if s then -32768 else 32767)
    else max (-32768) (min 32767 (Int.tdiv (Fl.smag Fmt.b32 s k) (2 ^ Fmt.b32.u)))

/-- The sample written for one read (normalize.rs:58-60). -/
def scale (g : F32) (s : Int16) : Int :=
  toI16 (Fl.mul (clamp (Fl.mul (sampleOf s) g)) (Fl.ofInt Fmt.b32 32767))

/-- `examples/normalize.rs`: the samples written. -/
def normalize (E : Env F64 F32) (powf : F32 → F32 → F32) (w : Wav) : Run (List Int) := do
  let (_, l) ← analyse E w
  Run.done (w.data.map (scale (gain powf l)))

/-- `f64::max`: a NaN gives the other value. -/
def maxF (a b : F64) : F64 := if a.isNan then b else if Fl.lt a b then b else a

/-- `TrackData` (replaygain.rs:12-17). -/
structure Track where
  loudness : F64
  peak : F64
  blocks : Nat
  energy : F64

/-- `analyze_file` (replaygain.rs:68-108). -/
def analyzeFile (E : Env F64 F32) (w : Wav) : Run Track := do
  let (e, l) ← analyse E w
  let peak ← Run.foldL (fun a (c : Nat) => do
    let b ← expect (← e.getSamplePeak c)
    Run.done (maxF a b)) (Fl.zero false) (List.range w.channels.toNat)
  match ← e.gatingBlockCountAndEnergy E with
  | none => Run.panic
  | some (n, x) => Run.done ⟨l, peak, n, x⟩

/-- `REPLAYGAIN2_REFERENCE_LUFS - loudness` (replaygain.rs:10, 36, 60). -/
def rgGain (l : F64) : F64 := Fl.sub (Fl.lit Fmt.b64 (-18) 1) l

/-- What `examples/replaygain.rs` prints: gain and peak of every file, then of the album (replaygain.rs:19-66).  The `u64`
count of blocks is a natural number here. -/
def replaygain (E : Env F64 F32) (ws : List Wav) : Run (List (F64 × F64) × F64 × F64) := do
  let (out, peak, n, x) ← Run.foldL (fun (acc : List (F64 × F64) × F64 × Nat × F64) w => do
    let d ← analyzeFile E w
    Run.done (acc.1 ++ [(rgGain d.loudness, d.peak)], maxF acc.2.1 d.peak, acc.2.2.1 + d.blocks,
      Fl.add acc.2.2.2 d.energy)) ([], Fl.zero false, 0, Fl.zero false) ws
  Run.done (out, rgGain (energyToLoudness E (Fl.div x (Fl.ofInt Fmt.b64 n))), peak)

end Examples
end Verif
