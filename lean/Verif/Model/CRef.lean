import Verif.Model.Filter
import Verif.Model.History
/-!
# `tests/c`: the C reference

`tests/c` holds the functions of the C library libebur128 that the crate was ported from (see
`tests/c/version.txt`); the crate's `c-tests` feature compares the two on random inputs.  They are modelled
here line by line, independently of the model of the Rust code: arrays are lists, a read or write outside
an array (undefined behaviour) is a fault, loops are loops over indices, and `unsigned` and `size_t`
counters are unbounded.  Multiplications and additions are not contracted into fused operations.
`static double` initialisers are compile-time constants.  Allocation failures and `free` are not modelled.
-/

namespace Verif.CRef
variable {D S T σ : Type}

/-- `for (i = lo; i < hi; ++i)`. -/
def loop (lo hi : Nat) (s : σ) (f : σ → Nat → Run σ) : Run σ := Run.foldL f s (List.range' lo (hi - lo))

/-- `EBUR128_MAX` (filter.c:19, true_peak.c:13). -/
def cmax (A : Arith D) (a b : D) : D := if A.lt b a then a else b

/-! ### `tests/c/calc_gating_block.c` -/

/-- `channel_sum += audio_data[i * channels + c] * audio_data[i * channels + c]` for `i` from `lo` below
`hi` (calc_gating_block.c:18-21, 22-27, 29-33). -/
def sumRange (A : Arith D) (data : List D) (channels c lo hi : Nat) (acc : D) : Run D :=
  loop lo hi acc fun s i => do
    let x ← Run.index data (i * channels + c)
    let y ← Run.index data (i * channels + c)
    Run.done (A.add s (A.mul x y))

/-- One iteration of the channel loop (calc_gating_block.c:12-46).  When
`frames - (fpb - idx / channels)` wraps around, the second loop of the first branch does nothing. -/
def blockChannel (A : Arith D) (fpb : Nat) (data : List D) (frames idx : Nat) (map : List Nat)
    (channels : Nat) (sum : D) (c : Nat) : Run D := do
  let m ← Run.index map c
  if m = 0 then Run.done sum
  else do
    let s ←
      if idx < fpb * channels then do
        let s ← sumRange A data channels c 0 (idx / channels) A.zero
        if frames < fpb - idx / channels then Run.done s
        else sumRange A data channels c (frames - (fpb - idx / channels)) frames s
      else sumRange A data channels c (idx / channels - fpb) (idx / channels) A.zero
    let s :=
      if m = 4 ∨ m = 5 ∨ m = 9 ∨ m = 10 ∨ m = 11 ∨ m = 12 then A.mul s (A.lit 141 100)
      else if m = 6 then A.mul s (A.lit 2 1)
      else s
    Run.done (A.add sum s)

/-- `calc_gating_block_c` (calc_gating_block.c:8-50). -/
def calcGatingBlock (A : Arith D) (fpb : Nat) (data : List D) (frames idx : Nat) (map : List Nat)
    (channels : Nat) : Run D := do
  let sum ← loop 0 channels A.zero (blockChannel A fpb data frames idx map channels)
  Run.done (A.div sum (A.ofInt fpb))

/-! ### `tests/c/interp.c` -/

/-- `M_PI`. -/
def mPi (A : Arith D) : D := A.lit 314159265358979323846 (10 ^ 20)

/-- `interpolator_c` with its `interp_filter`s (interp.c:16-30).  A subfilter is the list of its `count`
used entries, each an `index` and a `coeff`. -/
structure Interp (D S : Type) where
  factor : Nat
  taps : Nat
  channels : Nat
  delay : Nat
  filter : List (List (Nat × D))
  z : List (List S)
  zi : Nat

/-- The coefficient computed for tap `j` (interp.c:73-79). -/
def interpCoeff (E : Env D S) (taps factor j : Nat) : D :=
  let A := E.f64
  let m := A.sub (A.ofInt j) (A.div (A.ofInt (taps - 1 : Nat)) (A.lit 2 1))
  let c := if A.lt (A.lit 1 1000000) (A.abs m) then
      A.div (E.libm.sin (A.div (A.mul m (mPi A)) (A.ofInt factor)))
        (A.div (A.mul m (mPi A)) (A.ofInt factor))
    else A.lit 1 1
  A.mul c (A.mul (A.lit 5 10) (A.sub (A.lit 1 1)
    (E.libm.cos (A.div (A.mul (A.mul (A.lit 2 1) (mPi A)) (A.ofInt j)) (A.ofInt (taps - 1 : Nat))))))

/-- One iteration of the coefficient loop (interp.c:71-88). -/
def interpTap (E : Env D S) (taps factor delay : Nat) (filter : List (List (Nat × D))) (j : Nat) :
    Run (List (List (Nat × D))) := do
  let c := interpCoeff E taps factor j
  if E.f64.lt (E.f64.lit 1 1000000) (E.f64.abs c) then do
    let f := j % factor
    let sub ← Run.index filter f
    Run.assert (sub.length < delay)
    setUnchecked filter f (sub ++ [(j / factor, c)])
  else Run.done filter

/-- `interp_create_c` (interp.c:32-107). -/
def Interp.create (E : Env D S) (taps factor channels : Nat) : Run (Interp D S) := do
  let delay := (taps + factor - 1) / factor
  let filter ← loop 0 taps (List.replicate factor []) (interpTap E taps factor delay)
  Run.done ⟨factor, taps, channels, delay, filter,
    List.replicate channels (List.replicate delay E.f32p.zero), 0⟩

/-- One output sample (interp.c:143-152). -/
def Interp.dot (E : Env D S) (z : List S) (zi delay : Nat) (sub : List (Nat × D)) : Run S := do
  let acc ← Run.foldL (fun acc (t : Nat × D) => do
      let i := if zi < t.1 then zi + delay - t.1 else zi - t.1
      let x ← Run.index z i
      Run.done (E.f64p.add acc (E.f64p.mul (E.widen x) t.2))) E.f64p.zero sub
  Run.done (E.narrowP acc)

/-- One frame of `interp_process_c` (interp.c:137-160): the new interpolator and the `factor` output
samples of each channel, channel by channel (the C code stores sample `f` of channel `chan` at
`out[f * channels + chan]`). -/
def Interp.frame (E : Env D S) (ip : Interp D S) (inp : List S) : Run (Interp D S × List (List S)) := do
  let r ← Run.forL (fun chan => do
      let z ← Run.index ip.z chan
      let x ← Run.index inp chan
      let z ← setUnchecked z ip.zi x
      let out ← Run.forL (Interp.dot E z ip.zi ip.delay) ip.filter
      Run.done (z, out)) (List.range ip.channels)
  let zi := ip.zi + 1
  Run.done ({ ip with z := r.map Prod.fst, zi := if zi = ip.delay then 0 else zi }, r.map Prod.snd)

/-! ### `tests/c/true_peak.c` -/

/-- `true_peak` (true_peak.c:15-23). -/
structure TruePeak (D S : Type) where
  interp : Interp D S
  channels : Nat
  inputFrames : Nat

/-- `true_peak_create_c` (true_peak.c:25-51); `none` is `NULL`. -/
def TruePeak.create (E : Env D S) (rate channels : Nat) : Run (Option (TruePeak D S)) :=
  let samples := (rate + 5) / 10
  if rate < 96000 then do
    let ip ← Interp.create E 49 4 channels
    Run.done (some ⟨ip, channels, samples * 4⟩)
  else if rate < 192000 then do
    let ip ← Interp.create E 49 2 channels
    Run.done (some ⟨ip, channels, samples * 4⟩)
  else Run.done none

/-- The parameters of the macros `EBUR128_FILTER` and `EBUR128_CHECK_TRUE_PEAK`: `(double) src[i]` and
`scaling_factor` (filter.c:160-161, true_peak.c:64-65). -/
structure CSample (D T : Type) where
  toDouble : T → D
  scale : D

/-- `EBUR128_MAX(-((double) (min_scale)), (double) (max_scale))`. -/
def scaling (A : Arith D) (lo hi : D) : D := cmax A (A.neg lo) hi

/-- `short, SHRT_MIN, SHRT_MAX` (filter.c:212, true_peak.c:91). -/
def cShort (E : Env D S) : CSample D Int16 where
  toDouble s := E.f64p.ofInt s.toInt
  scale := scaling E.f64 (E.f64.ofInt (-32768)) (E.f64.ofInt 32767)

/-- `int, INT_MIN, INT_MAX` (filter.c:213, true_peak.c:92). -/
def cInt (E : Env D S) : CSample D Int32 where
  toDouble s := E.f64p.ofInt s.toInt
  scale := scaling E.f64 (E.f64.ofInt (-2147483648)) (E.f64.ofInt 2147483647)

/-- `float, -1.0f, 1.0f` (filter.c:214, true_peak.c:93). -/
def cFloat (E : Env D S) : CSample D S where
  toDouble s := E.widen s
  scale := scaling E.f64 (E.f64.neg (E.f64.lit 1 1)) (E.f64.lit 1 1)

/-- `double, -1.0, 1.0` (filter.c:215, true_peak.c:94). -/
def cDouble (E : Env D S) : CSample D D where
  toDouble s := s
  scale := scaling E.f64 (E.f64.neg (E.f64.lit 1 1)) (E.f64.lit 1 1)

/-- `if (EBUR128_MAX(val, -val) > peak) peak = EBUR128_MAX(val, -val)` (true_peak.c:84-86). -/
def keepMax (A : Arith D) (peak val : D) : D :=
  if A.lt peak (cmax A val (A.neg val)) then cmax A val (A.neg val) else peak

/-- `true_peak_check_*_c` (true_peak.c:63-89).  More frames than the input buffer holds overrun it.
The loops that convert, interpolate and compare are run frame by frame. -/
def TruePeak.check (E : Env D S) (cs : CSample D T) (tp : TruePeak D S) (frames : Nat) (src : List T)
    (peaks : List D) : Run (TruePeak D S × List D) := do
  Run.assert (frames ≤ tp.inputFrames)
  let r ← loop 0 frames (tp.interp, peaks) fun st i => do
    let inp ← Run.forL (fun c => do
        let s ← Run.index src (i * tp.channels + c)
        Run.done (E.narrowP (E.f64p.div (cs.toDouble s) cs.scale))) (List.range tp.channels)
    let (ip, out) ← st.1.frame E inp
    Run.done (ip, List.zipWith (fun pk (o : List S) =>
      o.foldl (fun pk y => keepMax E.f64p pk (E.widen y)) pk) st.2 out)
  Run.done ({ tp with interp := r.1 }, r.2)

/-! ### `tests/c/filter.c` -/

/-- `filter` (filter.c:24-43). -/
structure Filter (D S : Type) where
  channels : Nat
  b : V5 D
  a : V5 D
  v : List (V5 D)
  calculateSamplePeak : Bool
  samplePeak : List D
  tp : Option (TruePeak D S)
  truePeak : List D

/-- The coefficients `b` and `a` (filter.c:52-94). -/
def coefficients (E : Env D S) (rate : Nat) : V5 D × V5 D :=
  let A := E.f64
  let one := A.lit 1 1
  let two := A.lit 2 1
  let f0 := A.lit 1681974450955533 (10 ^ 12)
  let G := A.lit 3999843853973347 (10 ^ 15)
  let Q := A.lit 7071752369554196 (10 ^ 16)
  let K := E.libm.tan (A.div (A.mul (mPi A) f0) (A.ofInt rate))
  let Vh := E.libm.powf (A.lit 10 1) (A.div G (A.lit 20 1))
  let Vb := E.libm.powf Vh (A.lit 4996667741545416 (10 ^ 16))
  let a0 := A.add (A.add one (A.div K Q)) (A.mul K K)
  let pb0 := A.div (A.add (A.add Vh (A.div (A.mul Vb K) Q)) (A.mul K K)) a0
  let pb1 := A.div (A.mul two (A.sub (A.mul K K) Vh)) a0
  let pb2 := A.div (A.add (A.sub Vh (A.div (A.mul Vb K) Q)) (A.mul K K)) a0
  let pa1 := A.div (A.mul two (A.sub (A.mul K K) one)) a0
  let pa2 := A.div (A.add (A.sub one (A.div K Q)) (A.mul K K)) a0
  let f1 := A.lit 3813547087602444 (10 ^ 14)
  let Q1 := A.lit 5003270373238773 (10 ^ 16)
  let L := E.libm.tan (A.div (A.mul (mPi A) f1) (A.ofInt rate))
  let d := A.add (A.add one (A.div L Q1)) (A.mul L L)
  let ra1 := A.div (A.mul two (A.sub (A.mul L L) one)) d
  let ra2 := A.div (A.add (A.sub one (A.div L Q1)) (A.mul L L)) d
  let rb1 := A.neg two
  ( ⟨A.mul pb0 one, A.add (A.mul pb0 rb1) (A.mul pb1 one),
      A.add (A.add (A.mul pb0 one) (A.mul pb1 rb1)) (A.mul pb2 one),
      A.add (A.mul pb1 one) (A.mul pb2 rb1), A.mul pb2 one⟩,
    ⟨A.mul one one, A.add (A.mul one ra1) (A.mul pa1 one),
      A.add (A.add (A.mul one ra2) (A.mul pa1 ra1)) (A.mul pa2 one),
      A.add (A.mul pa1 ra2) (A.mul pa2 ra1), A.mul pa2 ra2⟩ )

/-- `filter_create_c` (filter.c:45-113). -/
def Filter.create (E : Env D S) (rate channels : Nat) (samplePeak truePeak : Bool) :
    Run (Filter D S) := do
  let ba := coefficients E rate
  let zero := E.f64.zero
  let tp ← if truePeak then TruePeak.create E rate channels else Run.done none
  Run.done ⟨channels, ba.1, ba.2, List.replicate channels ⟨zero, zero, zero, zero, zero⟩, samplePeak,
    List.replicate channels zero, tp, List.replicate channels zero⟩

/-- The sample peak of one channel (filter.c:168-180). -/
def samplePeakChannel (E : Env D S) (cs : CSample D T) (channels frames : Nat) (src : List T)
    (sp : List D) (c : Nat) : Run (List D) := do
  let A := E.f64p
  let max ← loop 0 frames A.zero fun max i => do
    let s ← Run.index src (i * channels + c)
    let cur := cs.toDouble s
    Run.done (if A.lt max (cmax A cur (A.neg cur)) then cmax A cur (A.neg cur) else max)
  let max := A.div max cs.scale
  let old ← Run.index sp c
  if A.lt old max then setUnchecked sp c max else Run.done sp

/-- One sample of one channel (filter.c:189-206). -/
def filterSample (E : Env D S) (cs : CSample D T) (f : Filter D S) (src : List T) (c : Nat)
    (st : V5 D × List D) (i : Nat) : Run (V5 D × List D) := do
  let A := E.f64p
  let s ← Run.index src (i * f.channels + c)
  let x := A.div (cs.toDouble s) cs.scale
  let v := st.1
  let v0 := A.sub (A.sub (A.sub (A.sub x (A.mul f.a.v1 v.v1)) (A.mul f.a.v2 v.v2))
    (A.mul f.a.v3 v.v3)) (A.mul f.a.v4 v.v4)
  let y := A.add (A.add (A.add (A.add (A.mul f.b.v0 v0) (A.mul f.b.v1 v.v1)) (A.mul f.b.v2 v.v2))
    (A.mul f.b.v3 v.v3)) (A.mul f.b.v4 v.v4)
  let audio ← setUnchecked st.2 (i * f.channels + c) y
  Run.done (⟨v0, v0, v.v1, v.v2, v.v3⟩, audio)

/-- `DBL_MIN`. -/
def dblMin (A : Arith D) : D := A.lit 1 (2 ^ 1022)

/-- `FLUSH_MANUALLY` (filter.c:145, 150-154): empty with SSE2. -/
def flushManually (E : Env D S) (v : V5 D) : V5 D :=
  if E.noFtz then
    let fl := fun x => if E.f64p.lt (E.f64p.abs x) (dblMin E.f64p) then E.f64p.zero else x
    ⟨v.v0, fl v.v1, fl v.v2, fl v.v3, fl v.v4⟩
  else v

/-- One channel of the filter loop (filter.c:185-208). -/
def filterChannel (E : Env D S) (cs : CSample D T) (f : Filter D S) (frames : Nat) (src : List T)
    (map : List Nat) (st : List (V5 D) × List D) (c : Nat) : Run (List (V5 D) × List D) := do
  let m ← Run.index map c
  if m = 0 then Run.done st
  else do
    let v ← Run.index st.1 c
    let r ← loop 0 frames (v, st.2) (filterSample E cs f src c)
    let vs ← setUnchecked st.1 c (flushManually E r.1)
    Run.done (vs, r.2)

/-- `filter_process_*_c` (filter.c:158-210): the new filter and the new `audio_data`. -/
def Filter.process (E : Env D S) (cs : CSample D T) (f : Filter D S) (frames : Nat) (src : List T)
    (audio : List D) (map : List Nat) : Run (Filter D S × List D) := do
  let sp ← if f.calculateSamplePeak then
      loop 0 f.channels f.samplePeak (samplePeakChannel E cs f.channels frames src)
    else Run.done f.samplePeak
  let (tp, truePeak) ← match f.tp with
    | some tp => do
      let r ← tp.check E cs frames src f.truePeak
      Run.done (some r.1, r.2)
    | none => Run.done (none, f.truePeak)
  let r ← loop 0 f.channels (f.v, audio) (filterChannel E cs f frames src map)
  Run.done ({ f with v := r.1, samplePeak := sp, tp := tp, truePeak := truePeak }, r.2)

/-- `filter_reset_peaks_c` (filter.c:130-137). -/
def Filter.resetPeaks (E : Env D S) (f : Filter D S) : Filter D S :=
  { f with
    samplePeak := List.replicate f.channels E.f64.zero
    truePeak := List.replicate f.channels E.f64.zero }

/-! ### `tests/c/history.c` -/

/-- The file-scope variables of history.c:16-20, `energyToLoudness` being
`ebur128_energy_to_loudness` (history.c:32-34) and `qsort` the C library's sort with
`history_double_cmp` (history.c:206-210). -/
structure Globals (D : Type) where
  minusTwentyDecibels : D
  relativeGateFactor : D
  energies : List D
  boundaries : List D
  energyToLoudness : D → D
  qsort : List D → List D

/-- The variables after `history_init_c` (history.c:53-68), for the `log` and the `qsort` of the C
library. -/
def Globals.init (E : Env D S) (log : D → D) (qsort : List D → List D) : Globals D :=
  let A := E.f64
  let ten := A.lit 10 1
  let level := fun i x =>
    E.libm.powf ten (A.div (A.add (A.sub (A.div (A.ofInt i) ten) x) (A.lit 691 1000)) ten)
  { minusTwentyDecibels := E.libm.powf ten (A.div (A.neg (A.lit 20 1)) ten)
    relativeGateFactor := E.libm.powf ten (A.div (A.neg ten) ten)
    energies := (List.range 1000).map fun (i : Nat) => level i (A.lit 6995 100)
    boundaries :=
      E.libm.powf ten (A.div (A.add (A.neg (A.lit 70 1)) (A.lit 691 1000)) ten) ::
        (List.range' 1 1000).map fun (i : Nat) => level i (A.lit 70 1)
    energyToLoudness := fun e => A.sub (A.mul ten (A.div (log e) (log ten))) (A.lit 691 1000)
    qsort := qsort }

/-- `history` (history.c:22-30). -/
structure History (D : Type) where
  useHistogram : Bool
  list : List D
  max : Nat
  hist : List Nat

/-- The `do … while` loop of `find_histogram_index` (history.c:41-48). -/
def findLoop (A : Arith D) (G : Globals D) (energy : D) : Nat → Nat → Nat → Run Nat
  | 0, _, _ => .hang
  | fuel + 1, min, max => do
    let mid := (min + max) / 2
    let b ← Run.index G.boundaries mid
    let (min, max) := if A.le b energy then (mid, max) else (min, mid)
    if max - min ≠ 1 then findLoop A G energy fuel min max else Run.done min

/-- `find_histogram_index` (history.c:36-51). -/
def findIndex (A : Arith D) (G : Globals D) (energy : D) : Run Nat := findLoop A G energy 1000 0 1000

/-- `history_create_c` (history.c:70-91). -/
def History.create (useHistogram : Bool) (max : Nat) : History D :=
  ⟨useHistogram, [], max, if useHistogram then List.replicate 1000 0 else []⟩

/-- `history_add_c` (history.c:93-111).  With a full list of no blocks the removed head is a null
pointer. -/
def History.add (A : Arith D) (G : Globals D) (h : History D) (energy : D) : Run (History D) := do
  let b0 ← Run.index G.boundaries 0
  if A.le b0 energy then
    if h.useHistogram then do
      let i ← findIndex A G energy
      let n ← Run.index h.hist i
      let hist ← setUnchecked h.hist i (n + 1)
      Run.done { h with hist := hist }
    else if h.list.length = h.max then do
      Run.assert (h.list ≠ [])
      Run.done { h with list := h.list.drop 1 ++ [energy] }
    else Run.done { h with list := h.list ++ [energy] }
  else Run.done h

/-- `history_set_max_size_c` (history.c:113-121): remove blocks from the front while there are more than
`max`. -/
def History.setMaxSize (h : History D) (max : Nat) : History D :=
  { h with max := max, list := h.list.drop (h.list.length - max) }

/-- `history_calc_relative_threshold` (history.c:123-139), from 0: the counter and the sum. -/
def History.calcRelativeThreshold (A : Arith D) (G : Globals D) (h : History D) : Run (Nat × D) :=
  if h.useHistogram then
    loop 0 1000 (0, A.zero) fun acc i => do
      let n ← Run.index h.hist i
      let e ← Run.index G.energies i
      Run.done (acc.1 + n, A.add acc.2 (A.mul (A.ofInt n) e))
  else Run.done (h.list.foldl (fun acc z => (acc.1 + 1, A.add acc.2 z)) (0, A.zero))

/-- `start_index` and `index` (history.c:156-163, 242-249). -/
def startIndex (A : Arith D) (G : Globals D) (x : D) : Run Nat := do
  let b0 ← Run.index G.boundaries 0
  if A.lt x b0 then Run.done 0
  else do
    let i ← findIndex A G x
    let e ← Run.index G.energies i
    Run.done (if A.lt e x then i + 1 else i)

/-- `history_gated_loudness_c` (history.c:141-187). -/
def History.gatedLoudness (A : Arith D) (G : Globals D) (h : History D) : Run D := do
  let (n, sum) ← h.calcRelativeThreshold A G
  if n = 0 then Run.done (A.neg A.inf)
  else do
    let thr := A.mul (A.div sum (A.ofInt n)) G.relativeGateFactor
    let start ← startIndex A G thr
    let (n, sum) ←
      if h.useHistogram then
        loop start 1000 (0, A.zero) fun acc j => do
          let n ← Run.index h.hist j
          let e ← Run.index G.energies j
          Run.done (acc.1 + n, A.add acc.2 (A.mul (A.ofInt n) e))
      else Run.done (h.list.foldl (fun (acc : Nat × D) z =>
        if A.le thr z then (acc.1 + 1, A.add acc.2 z) else acc) (0, A.zero))
    if n = 0 then Run.done (A.neg A.inf)
    else Run.done (G.energyToLoudness (A.div sum (A.ofInt n)))

/-- `history_relative_threshold_c` (history.c:189-204). -/
def History.relativeThreshold (A : Arith D) (G : Globals D) (h : History D) : Run D := do
  let (n, sum) ← h.calcRelativeThreshold A G
  if n = 0 then Run.done (A.neg (A.lit 70 1))
  else Run.done (G.energyToLoudness (A.mul (A.div sum (A.ofInt n)) G.relativeGateFactor))

/-- `while (stl_size <= p) stl_size += hist_[j++]` (history.c:264-266, 268-270): the new `stl_size` and
`j`; `bins` are the bins from `j` on. -/
def walk (p : Nat) : List Nat → Nat → Nat → Run (Nat × Nat)
  | [], size, j => if size ≤ p then .panic else .done (size, j)
  | b :: bins, size, j => if size ≤ p then walk p bins (size + b) (j + 1) else .done (size, j)

/-- `(size_t) ((n - 1) * p + 0.5)` with `n1 = n - 1` and the literal `p = num / den`
(history.c:259-260, 306-307). -/
def rank (A : Arith D) (sizeMax n1 : Nat) (num : Int) (den : Nat) : Nat :=
  A.toUint sizeMax (A.add (A.mul (A.ofInt n1) (A.lit num den)) (A.lit 5 10))

/-- The histogram branch of `history_loudness_range_c` (history.c:223-274). -/
def histRange (A : Arith D) (G : Globals D) (sizeMax : Nat) (hist : List Nat) : Run D := do
  let r ← loop 0 1000 ((0 : Nat), A.zero) fun acc j => do
    let n ← Run.index hist j
    let e ← Run.index G.energies j
    Run.done (acc.1 + n, A.add acc.2 (A.mul (A.ofInt n) e))
  if r.1 = 0 then Run.done A.zero
  else do
    let power := A.div r.2 (A.ofInt r.1)
    let integrated := A.mul G.minusTwentyDecibels power
    let index ← startIndex A G integrated
    let size ← loop index 1000 (0 : Nat) fun acc j => do
      let n ← Run.index hist j
      Run.done (acc + n)
    if size = 0 then Run.done A.zero
    else do
      let low := rank A sizeMax (size - 1) 1 10
      let high := rank A sizeMax (size - 1) 95 100
      let w ← walk low (hist.drop index) 0 index
      let l ← Run.index G.energies (w.2 - 1)
      let w ← walk high (hist.drop w.2) w.1 w.2
      let u ← Run.index G.energies (w.2 - 1)
      Run.done (A.sub (G.energyToLoudness u) (G.energyToLoudness l))

/-- The list branch of `history_loudness_range_c` (history.c:276-313). -/
def listRange (A : Arith D) (G : Globals D) (sizeMax : Nat) (list : List D) : Run D :=
  if list.length = 0 then Run.done A.zero
  else
    let v := G.qsort list
    let power := A.div (v.foldl A.add A.zero) (A.ofInt list.length)
    let integrated := A.mul G.minusTwentyDecibels power
    let g := v.dropWhile fun x => A.lt x integrated
    if g.length = 0 then Run.done A.zero
    else do
      let u ← Run.index g (rank A sizeMax (g.length - 1) 95 100)
      let l ← Run.index g (rank A sizeMax (g.length - 1) 1 10)
      Run.done (A.sub (G.energyToLoudness u) (G.energyToLoudness l))

/-- `history_loudness_range_c` (history.c:212-314). -/
def History.loudnessRange (A : Arith D) (G : Globals D) (sizeMax : Nat) (h : History D) : Run D :=
  if h.useHistogram then histRange A G sizeMax h.hist else listRange A G sizeMax h.list

end Verif.CRef
