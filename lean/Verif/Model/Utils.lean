import Verif.Model.Env
/-!
# `src/utils.rs`: loudness conversion, sample layouts, sample types, frame accumulation
-/

namespace Verif
variable {D S T : Type}

/-- `Error` (ebur128.rs:32-39). -/
inductive Error where
  | noMem
  | invalidMode
  | invalidChannelIndex
deriving DecidableEq, Repr

/-- `energy_to_loudness` (utils.rs:25-37), the non-test variant `10.0 * log10(energy) - 0.691`. -/
def energyToLoudness (E : Env D S) (energy : D) : D :=
  E.f64.sub (E.f64.mul (E.f64.lit 10 1) (E.libm.log10 energy)) (E.f64.lit 691 1000)

/-- `slice.chunks_exact(n)` (the remainder is dropped); panics for `n = 0`, which callers check. -/
def chunksExact (n : Nat) (l : List T) : List (List T) :=
  if _h : n = 0 ∨ l.length < n then [] else l.take n :: chunksExact n (l.drop n)
termination_by l.length
decreasing_by
  rw [List.length_drop]
  omega

/-- trait `Samples` (utils.rs:40-66).  A closure-taking method is modelled by the sequence of values
the closure is called with, in order. -/
class Samples (Sm : Type → Type) where
  /-- `foreach_sample` / `foreach_sample_zipped`: the samples of one channel. -/
  foreachSample : {T : Type} → Sm T → Nat → Run (List T)
  /-- `foreach_frame::<F>` with `F::CHANNELS = n`. -/
  foreachFrame : {T : Type} → Sm T → Nat → Run (List (List T))
  frames : {T : Type} → Sm T → Nat
  channels : {T : Type} → Sm T → Nat
  splitAt : {T : Type} → Sm T → Nat → Run (Sm T × Sm T)

/-- `struct Interleaved` (utils.rs:69-74). -/
structure Interleaved (T : Type) where
  data : List T
  channels : Nat

/-- `Interleaved::new` (utils.rs:78-88). -/
def Interleaved.new (data : List T) (channels : Nat) : Except Error (Interleaved T) :=
  if channels = 0 then .error .noMem
  else if data.length % channels ≠ 0 then .error .noMem
  else .ok ⟨data, channels⟩

/-- `impl Samples for Interleaved` (utils.rs:91-149).  `f[channel]` cannot fail after the assertion
since every exact chunk has `channels` elements; `F::from_samples(..).unwrap()` likewise. -/
instance : Samples Interleaved where
  foreachSample s c := do
    Run.assert (c < s.channels)
    Run.forL (fun chunk => Run.index chunk c) (chunksExact s.channels s.data)
  foreachFrame s n := do
    Run.assert (n = s.channels)
    Run.done (chunksExact s.channels s.data)
  frames s := s.data.length / s.channels
  channels s := s.channels
  splitAt s n := do
    Run.assert (n * s.channels ≤ s.data.length)
    Run.done (⟨s.data.take (n * s.channels), s.channels⟩, ⟨s.data.drop (n * s.channels), s.channels⟩)

/-- `struct Planar` (utils.rs:152-156). -/
structure Planar (T : Type) where
  data : List (List T)
  start : Nat
  stop : Nat

/-- `Planar::new` (utils.rs:160-174). -/
def Planar.new (data : List (List T)) : Except Error (Planar T) :=
  match data with
  | [] => .error .noMem
  | d0 :: _ =>
    if data.any (fun d => d0.length ≠ d.length) then .error .noMem
    else .ok ⟨data, 0, d0.length⟩

/-- A sub-slice `l[start..stop]`; panics when the range is invalid. -/
def Run.slice (l : List T) (start stop : Nat) : Run (List T) :=
  if start ≤ stop ∧ stop ≤ l.length then .done ((l.drop start).take (stop - start)) else .panic

/-- `impl Samples for Planar` (utils.rs:177-237). -/
instance : Samples Planar where
  foreachSample s c := do
    Run.assert (c < s.data.length)
    let ch ← Run.index s.data c
    Run.slice ch s.start s.stop
  foreachFrame s n := do
    Run.assert (n = s.data.length)
    Run.forL (fun i => Run.forL (fun ch => Run.index ch (s.start + i)) s.data)
      (List.range (s.stop - s.start))
  frames s := s.stop - s.start
  channels s := s.data.length
  splitAt s n := do
    Run.assert (s.start + n ≤ s.stop)
    Run.done (⟨s.data, s.start, s.start + n⟩, ⟨s.data, s.start + n, s.stop⟩)

/-- trait `Sample` (utils.rs:239-245) together with the `dasp_sample` conversions used by the filter:
`to_sample::<f64>()` (filter.rs:221) and `to_sample::<f32>()` (true_peak.rs:87,105). -/
structure SampleOps (D S T : Type) where
  /-- `MAX_AMPLITUDE`. -/
  maxAmp : D
  /-- `as_f64_raw`. -/
  raw : T → D
  toF64 : T → D
  toF32 : T → S

/-- `impl Sample for f32` (utils.rs:247-254); `dasp`: identity and `as f64`. -/
def f32Ops (E : Env D S) : SampleOps D S S where
  maxAmp := E.f64p.lit 1 1
  raw s := E.widen s
  toF64 s := E.widen s
  toF32 s := s

/-- `impl Sample for f64` (utils.rs:255-262); `dasp`: `as f32` and identity. -/
def f64Ops (E : Env D S) : SampleOps D S D where
  maxAmp := E.f64p.lit 1 1
  raw s := s
  toF64 s := s
  toF32 s := E.narrowP s

/-- `impl Sample for i16` (utils.rs:263-270); `dasp`: `s as f64 / 32768.0`, `s as f32 / 32768.0`. -/
def i16Ops (E : Env D S) : SampleOps D S Int16 where
  maxAmp := E.f64p.lit 32768 1
  raw s := E.f64p.ofInt s.toInt
  toF64 s := E.f64p.div (E.f64p.ofInt s.toInt) (E.f64p.lit 32768 1)
  toF32 s := E.f32p.div (E.f32p.ofInt s.toInt) (E.f32p.lit 32768 1)

/-- `impl Sample for i32` (utils.rs:271-278); `dasp`: `s as f64 / 2147483648.0` etc. -/
def i32Ops (E : Env D S) : SampleOps D S Int32 where
  maxAmp := E.f64p.lit 2147483648 1
  raw s := E.f64p.ofInt s.toInt
  toF64 s := E.f64p.div (E.f64p.ofInt s.toInt) (E.f64p.lit 2147483648 1)
  toF32 s := E.f32p.div (E.f32p.ofInt s.toInt) (E.f32p.lit 2147483648 1)

/-- `FrameAccumulator::scale_add` (utils.rs:292-296) on a frame `[f32; N]`. -/
def frameScaleAdd (E : Env D S) (acc other : List S) (coeff : S) : List S :=
  List.zipWith (fun a o => E.scaleAdd a o coeff) acc other

/-- `if b > a { b } else { a }` (utils.rs:302-304, ebur128.rs:646-648 and others). -/
def maxBy (lt : D → D → Bool) (a b : D) : D := if lt a b then b else a

/-- `FrameAccumulator::retain_max_samples` (utils.rs:298-306). -/
def retainMaxSamples (E : Env D S) (this other : List S) : List S :=
  List.zipWith (maxBy E.f32p.lt) this other

end Verif
