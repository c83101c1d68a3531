import Verif.Model.TruePeak
/-!
# `src/filter.rs`: K-weighting filter, peak measurement, block energy
-/

namespace Verif
variable {D S T : Type} {Sm : Type → Type}

/-- `enum Channel` (ebur128.rs:84-149). -/
inductive Channel where
  | unused | left | right | center | leftSurround | rightSurround | dualMono
  | mpSC | mmSC | mp060 | mm060 | mp090 | mm090 | mp135 | mm135 | mp180
  | up000 | up030 | um030 | up045 | um045 | up090 | um090 | up110 | um110
  | up135 | um135 | up180 | tp000 | bp000 | bp045 | bm045
deriving DecidableEq, Repr

/-- `[f64; 5]`. -/
structure V5 (D : Type) where
  v0 : D
  v1 : D
  v2 : D
  v3 : D
  v4 : D
deriving DecidableEq

/-- Apply a function to each element. -/
def V5.map (f : D → D) (v : V5 D) : V5 D := ⟨f v.v0, f v.v1, f v.v2, f v.v3, f v.v4⟩

/-- `struct Filter` (filter.rs:28-46). -/
structure Filter (D S : Type) where
  channels : Nat
  b : V5 D
  a : V5 D
  filterState : List (V5 D)
  calculateSamplePeak : Bool
  samplePeak : List D
  tp : Option (Scanner S)
  truePeak : List D

/-- `filter_coefficients` (filter.rs:64-110): `(b, a)`. -/
def filterCoefficients (E : Env D S) (rate : D) : V5 D × V5 D :=
  let A := E.f64
  let one := A.lit 1 1
  let two := A.lit 2 1
  let zero := A.zero
  let f0 := A.lit 1681974450955533 (10 ^ 12)
  let G := A.lit 3999843853973347 (10 ^ 15)
  let Q := A.lit 7071752369554196 (10 ^ 16)
  let K := E.libm.tan (A.div (A.mul (piLit A) f0) rate)
  let Vh := E.libm.powf (A.lit 10 1) (A.div G (A.lit 20 1))
  let Vb := E.libm.powf Vh (A.lit 4996667741545416 (10 ^ 16))
  let KK := A.mul K K
  let a0 := A.add (A.add one (A.div K Q)) KK
  let VbKQ := A.div (A.mul Vb K) Q
  let pb0 := A.div (A.add (A.add Vh VbKQ) KK) a0
  let pb1 := A.div (A.mul two (A.sub KK Vh)) a0
  let pb2 := A.div (A.add (A.sub Vh VbKQ) KK) a0
  let pa0 := one
  let pa1 := A.div (A.mul two (A.sub KK one)) a0
  let pa2 := A.div (A.add (A.sub one (A.div K Q)) KK) a0
  let f0' := A.lit 3813547087602444 (10 ^ 14)
  let Q' := A.lit 5003270373238773 (10 ^ 16)
  let K' := E.libm.tan (A.div (A.mul (piLit A) f0') rate)
  let KK' := A.mul K' K'
  let d' := A.add (A.add one (A.div K' Q')) KK'
  let rb0 := one
  let rb1 := A.neg two
  let rb2 := one
  let ra0 := one
  let ra1 := A.div (A.mul two (A.sub KK' one)) d'
  let ra2 := A.div (A.add (A.sub one (A.div K' Q')) KK') d'
  let _ := zero
  ( ⟨A.mul pb0 rb0,
     A.add (A.mul pb0 rb1) (A.mul pb1 rb0),
     A.add (A.add (A.mul pb0 rb2) (A.mul pb1 rb1)) (A.mul pb2 rb0),
     A.add (A.mul pb1 rb2) (A.mul pb2 rb1),
     A.mul pb2 rb2⟩,
    ⟨A.mul pa0 ra0,
     A.add (A.mul pa0 ra1) (A.mul pa1 ra0),
     A.add (A.add (A.mul pa0 ra2) (A.mul pa1 ra1)) (A.mul pa2 ra0),
     A.add (A.mul pa1 ra2) (A.mul pa2 ra1),
     A.mul pa2 ra2⟩ )

/-- `[0.0; 5]`. -/
def zeroV5 (E : Env D S) : V5 D := ⟨E.f64.zero, E.f64.zero, E.f64.zero, E.f64.zero, E.f64.zero⟩

/-- `Filter::new` (filter.rs:113-140). -/
def Filter.new (E : Env D S) (rate channels : Nat) (calcSamplePeak calcTruePeak : Bool) :
    Run (Filter D S) := do
  Run.assert (0 < rate)
  Run.assert (0 < channels)
  let ba := filterCoefficients E (E.f64.ofInt rate)
  let tp ← if calcTruePeak then Scanner.new E rate channels else Run.done none
  Run.done {
    channels := channels
    b := ba.1
    a := ba.2
    filterState := List.replicate channels (zeroV5 E)
    calculateSamplePeak := calcSamplePeak
    samplePeak := List.replicate channels E.f64.zero
    tp := tp
    truePeak := List.replicate channels E.f64.zero }

/-- `Filter::reset_peaks` (filter.rs:142-145). -/
def Filter.resetPeaks (E : Env D S) (f : Filter D S) : Filter D S :=
  { f with
    samplePeak := f.samplePeak.map fun _ => E.f64.zero
    truePeak := f.truePeak.map fun _ => E.f64.zero }

/-- `Filter::reset` (filter.rs:147-155). -/
def Filter.reset (E : Env D S) (f : Filter D S) : Run (Filter D S) := do
  let f := f.resetPeaks E
  let f := { f with filterState := f.filterState.map fun _ => zeroV5 E }
  match f.tp with
  | some tp => do
    let tp ← tp.reset E
    Run.done { f with tp := some tp }
  | none => Run.done f

/-- The recursive part of the filter for one sample: `filter_state[0]` (filter.rs:221-225, 285-289). -/
def filterIn (A : Arith D) (a : V5 D) (st : V5 D) (x : D) : D :=
  A.sub (A.sub (A.sub (A.sub x (A.mul a.v1 st.v1)) (A.mul a.v2 st.v2)) (A.mul a.v3 st.v3))
    (A.mul a.v4 st.v4)

/-- The output for one sample (filter.rs:226-230); `s0` is the new `filter_state[0]`. -/
def filterOut (A : Arith D) (b : V5 D) (st : V5 D) (s0 : D) : D :=
  A.add (A.add (A.add (A.add (A.mul b.v0 s0) (A.mul b.v1 st.v1)) (A.mul b.v2 st.v2))
    (A.mul b.v3 st.v3)) (A.mul b.v4 st.v4)

/-- State shift (filter.rs:232-235). -/
def filterShift (st : V5 D) (s0 : D) : V5 D := ⟨s0, s0, st.v1, st.v2, st.v3⟩

/-- The sample loop of `Filter::process` for one channel (filter.rs:220-236): new state and outputs. -/
def runFilter (A : Arith D) (b a : V5 D) : V5 D → List D → V5 D × List D
  | st, [] => (st, [])
  | st, x :: xs =>
    let s0 := filterIn A a st x
    let y := filterOut A b st s0
    let r := runFilter A b a (filterShift st s0) xs
    (r.1, y :: r.2)

/-- The sample loop of `Filter::seed` for one channel (filter.rs:284-295). -/
def runSeed (A : Arith D) (a : V5 D) : V5 D → List D → V5 D
  | st, [] => st
  | st, x :: xs => runSeed A a (filterShift st (filterIn A a st x)) xs

/-- `f64::EPSILON`. -/
def epsilon (A : Arith D) : D := A.lit 1 (2 ^ 52)

/-- Software flush of the filter state when there is no hardware flush-to-zero
(filter.rs:238-244, 297-303). -/
def flushState (E : Env D S) (st : V5 D) : V5 D :=
  if E.noFtz then
    st.map fun v => if E.f64p.lt (E.f64p.abs v) (epsilon E.f64p) then E.f64p.zero else v
  else st

/-- Overwrite `row[i..]` with `ys` (as many as there are). -/
def writeAt (row : List D) (i : Nat) (ys : List D) : List D :=
  row.take i ++ ys ++ row.drop (i + ys.length)

/-- Largest absolute raw sample value of one channel (filter.rs:182-191). -/
def chanMax (E : Env D S) (ops : SampleOps D S T) (xs : List T) : D :=
  xs.foldl (fun m s => maxBy E.f64p.lt m (E.f64p.abs (ops.raw s))) E.f64p.zero

/-- Sample peak of one channel (filter.rs:181-196). -/
def peakChannel [Samples Sm] (E : Env D S) (ops : SampleOps D S T) (src : Sm T)
    (pc : D × Nat) : Run D := do
  Run.assert (pc.2 < Samples.channels src)
  let xs ← Samples.foreachSample src pc.2
  let m := E.f64p.div (chanMax E ops xs) ops.maxAmp
  Run.done (maxBy E.f64p.lt pc.1 m)

/-- One iteration of the channel loop of `Filter::process` (filter.rs:203-245): the new state and the new
row of `dest`. -/
def processChannel [Samples Sm] (E : Env D S) (ops : SampleOps D S T) (f : Filter D S) (src : Sm T)
    (destIndex : Nat) (arg : (Channel × List D) × Nat) : Run (V5 D × List D) := do
  let ((ch, row), c) := arg
  let st ← Run.index f.filterState c
  if ch = .unused then Run.done (st, row)
  else
    Run.assert (c < Samples.channels src)
    let xs ← Samples.foreachSample src c
    let r := runFilter E.f64p f.b f.a st ((xs.map ops.toF64).take (row.length - destIndex))
    Run.done (flushState E r.1, writeAt row destIndex r.2)

/-- The sample peak loop of `Filter::process` (filter.rs:178-197). -/
def Filter.processPeaks [Samples Sm] (E : Env D S) (ops : SampleOps D S T) (f : Filter D S)
    (src : Sm T) : Run (List D) :=
  if f.calculateSamplePeak then do
    Run.assert (f.samplePeak.length = f.channels)
    Run.forL (peakChannel E ops src) f.samplePeak.zipIdx
  else Run.done f.samplePeak

/-- `Filter::process` (filter.rs:165-252): the new filter and the new `dest`. -/
def Filter.process [Samples Sm] (E : Env D S) (ops : SampleOps D S T) (f : Filter D S) (src : Sm T)
    (dest : List D) (destIndex : Nat) (channelMap : List Channel) : Run (Filter D S × List D) := do
  Run.assert (f.channels ≠ 0 ∧ dest.length % f.channels = 0)
  Run.assert (channelMap.length = f.channels)
  Run.assert (Samples.channels src = f.channels)
  Run.assert (f.filterState.length = f.channels)
  let samplePeak ← f.processPeaks E ops src
  let destStride := dest.length / f.channels
  Run.assert (destIndex + Samples.frames src ≤ destStride)
  -- `chunks_exact_mut(0)` panics
  Run.assert (destStride ≠ 0)
  let res ← Run.forL (processChannel E ops f src destIndex)
    (List.zip channelMap (chunksExact destStride dest)).zipIdx
  let f := { f with samplePeak := samplePeak, filterState := res.map Prod.fst }
  let dest := (res.map Prod.snd).flatten
  match f.tp with
  | some tp => do
    Run.assert (f.truePeak.length = f.channels)
    let (tp, truePeak) ← tp.checkTruePeak E ops src f.truePeak
    Run.done ({ f with tp := some tp, truePeak := truePeak }, dest)
  | none => Run.done (f, dest)

/-- One iteration of the channel loop of `Filter::seed` (filter.rs:270-296). -/
def seedChannel [Samples Sm] (E : Env D S) (ops : SampleOps D S T) (f : Filter D S) (src : Sm T)
    (arg : Channel × Nat) : Run (V5 D) := do
  let (ch, c) := arg
  let st ← Run.index f.filterState c
  if ch = .unused then Run.done st
  else
    Run.assert (c < Samples.channels src)
    let xs ← Samples.foreachSample src c
    Run.done (flushState E (runSeed E.f64p f.a st (xs.map ops.toF64)))

/-- `Filter::seed` (filter.rs:254-305). -/
def Filter.seed [Samples Sm] (E : Env D S) (ops : SampleOps D S T) (f : Filter D S) (src : Sm T)
    (channelMap : List Channel) : Run (Filter D S) := do
  Run.assert (channelMap.length = f.channels)
  Run.assert (Samples.channels src = f.channels)
  Run.assert (f.filterState.length = f.channels)
  let res ← Run.forL (seedChannel E ops f src) channelMap.zipIdx
  let f := { f with filterState := res }
  match f.tp with
  | some tp => do
    Run.assert (f.truePeak.length = f.channels)
    let tp ← tp.seed E ops src
    Run.done { f with tp := some tp }
  | none => Run.done f

/-- `channel_sum += *frame * *frame` over a slice (filter.rs:337-348). -/
def sumSquares (A : Arith D) (acc : D) (l : List D) : D :=
  l.foldl (fun s x => A.add s (A.mul x x)) acc

/-- Channel weighting of the block energy (filter.rs:351-363). -/
def weightChannel (A : Arith D) (ch : Channel) (s : D) : D :=
  match ch with
  | .leftSurround | .rightSurround | .mp060 | .mm060 | .mp090 | .mm090 => A.mul s (A.lit 141 100)
  | .dualMono => A.mul s (A.lit 2 1)
  | _ => s

/-- Energy of one channel's row over the `fpb` frames before `idx` (filter.rs:330-363). The slice bounds
are checked as Rust does (`row.len() - fpb + idx` with overflow checks). -/
def channelEnergy (A : Arith D) (fpb idx : Nat) (ch : Channel) (row : List D) : Run D := do
  Run.assert (idx ≤ row.length)
  if idx < fpb then
    Run.assert (fpb ≤ row.length)
    let s := sumSquares A A.zero (row.take idx)
    let s := sumSquares A s (row.drop (row.length - fpb + idx))
    Run.done (weightChannel A ch s)
  else
    let s := sumSquares A A.zero ((row.take idx).drop (idx - fpb))
    Run.done (weightChannel A ch s)

/-- `Filter::calc_gating_block` (filter.rs:307-373). -/
def calcGatingBlock (E : Env D S) (fpb : Nat) (audioData : List D) (idx : Nat)
    (channelMap : List Channel) : Run D := do
  let A := E.f64
  let channels := channelMap.length
  Run.assert (channels ≠ 0 ∧ audioData.length % channels = 0)
  let stride := audioData.length / channels
  Run.assert (idx ≤ stride)
  Run.assert (stride ≠ 0)
  let sum ← Run.foldL
    (fun (sum : D) (arg : Channel × List D) =>
      if arg.1 = .unused then Run.done sum
      else do
        let s ← channelEnergy A fpb idx arg.1 arg.2
        Run.done (A.add sum s))
    A.zero (List.zip channelMap (chunksExact stride audioData))
  Run.done (A.div sum (A.ofInt fpb))

end Verif
