import Verif.Model.Utils
import Verif.Model.Tables
/-!
# `src/history.rs`: block energy histories, gating and loudness range
-/

namespace Verif
variable {D S : Type}

/-- `HISTOGRAM_ENERGIES` (history.rs:29). -/
def energies (E : Env D S) : List D := energiesN.map fun (n : Nat) => E.f64.lit n (10 ^ 36)

/-- `HISTOGRAM_BOUNDARIES` (history.rs:28). -/
def boundaries (E : Env D S) : List D := boundariesN.map fun (n : Nat) => E.f64.lit n (10 ^ 36)

/-- The `loop` of `find_histogram_index` (history.rs:36-47). -/
def findLoop (E : Env D S) (energy : D) : Nat → Nat → Nat → Run Nat
  | 0, _, _ => .hang
  | fuel + 1, min, max => do
    let mid := (min + max) / 2
    let bnd ← Run.index (boundaries E) mid
    let (min, max) := if E.f64.le bnd energy then (mid, max) else (min, mid)
    if max - min = 1 then Run.done min else findLoop E energy fuel min max

/-- `find_histogram_index` (history.rs:31-50). -/
def findHistogramIndex (E : Env D S) (energy : D) : Run Nat := findLoop E energy 1000 0 1000

/-- `enum History` (history.rs:241-244) with `Histogram` (history.rs:54) and `Queue` (history.rs:160-163;
`with_capacity` is not modelled). Counters are unbounded. -/
inductive History (D : Type) where
  | queue (q : List D) (max : Nat)
  | histogram (h : List Nat)

/-- `History::new` (history.rs:256-262). -/
def History.new (useHistogram : Bool) (max : Nat) : History D :=
  if useHistogram then .histogram (List.replicate 1000 0) else .queue [] max

/-- `Queue::add` (history.rs:173-179). -/
def queueAdd (q : List D) (max : Nat) (energy : D) : List D :=
  (if max = q.length then q.drop 1 else q) ++ [energy]

/-- `Histogram::add` (history.rs:61-64). -/
def histAdd (E : Env D S) (h : List Nat) (energy : D) : Run (List Nat) := do
  let idx ← findHistogramIndex E energy
  let n ← Run.index h idx
  Run.done (h.set idx (n + 1))

/-- `History::add` (history.rs:264-273). -/
def History.add (E : Env D S) (hist : History D) (energy : D) : Run (History D) := do
  let b0 ← Run.index (boundaries E) 0
  if E.f64.lt energy b0 then Run.done hist
  else
    match hist with
    | .histogram h => do
      let h ← histAdd E h energy
      Run.done (.histogram h)
    | .queue q max => Run.done (.queue (queueAdd q max energy) max)

/-- `History::set_max_size` and `Queue::set_max_size` (history.rs:275-280, 181-188). -/
def History.setMaxSize (E : Env D S) (hist : History D) (max : Nat) : History D :=
  match hist with
  | .histogram h => .histogram h
  | .queue q _ =>
    if q.length < max then .queue (q ++ List.replicate (max - q.length) E.f64.zero) max
    else .queue q max

/-- `History::reset` (history.rs:282-287). -/
def History.reset : History D → History D
  | .histogram h => .histogram (h.map fun _ => 0)
  | .queue _ max => .queue [] max

/-- `iter().sum::<f64>()`. -/
def sumD (A : Arith D) (l : List D) : D := l.foldl A.add A.zero

/-- `History::calc_relative_threshold` (history.rs:289-294), `Histogram::calc_relative_threshold`
(history.rs:70-80), `Queue::calc_relative_threshold` (history.rs:194-196). -/
def History.calcRelativeThreshold (E : Env D S) : History D → Nat × D
  | .histogram h =>
    (List.zip h (energies E)).foldl
      (fun acc (count, energy) => (acc.1 + count, E.f64.add acc.2 (E.f64.mul (E.f64.ofInt count) energy)))
      (0, E.f64.zero)
  | .queue q _ => (q.length, sumD E.f64 q)

/-- `enum HistoryError` (history.rs:222-226). -/
inductive HistoryError where
  | noBlocksAboveThreshold
  | relativeThresholdIsNan
deriving DecidableEq, Repr

/-- `f64::powf(10.0, x / 10.0)` for the gates `-10.0` and `-20.0`
(history.rs:105, 204, 320-321, 411-412). -/
def gateFactor (E : Env D S) (x : Int) : D :=
  E.libm.powf (E.f64.lit 10 1) (E.f64.div (E.f64.lit x 1) (E.f64.lit 10 1))

/-- Index of the first bin not below `x` as computed in history.rs:325-334 and history.rs:108-117. -/
def startIndex (E : Env D S) (x : D) : Run Nat := do
  let b0 ← Run.index (boundaries E) 0
  if E.f64.lt x b0 then Run.done 0
  else do
    let i ← findHistogramIndex E x
    let e ← Run.index (energies E) i
    Run.done (if E.f64.lt e x then i + 1 else i)

/-- The elements one history contributes (history.rs:336-366). -/
def History.gated (E : Env D S) (start : Nat) (thr : D) : History D → Run (List (Nat × D))
  | .histogram h => do
    Run.assert (start ≤ h.length)
    Run.done ((List.zip (h.drop start) ((energies E).drop start)).map fun (count, energy) =>
      (count, E.f64.mul (E.f64.ofInt count) energy))
  | .queue q _ => Run.done ((q.filter fun e => E.f64.le thr e).map fun e => (1, e))

/-- `History::iter_gating_block_count_and_energy` (history.rs:301-367), as the list of items. -/
def iterGating (E : Env D S) (s : List (History D)) :
    Run (Except HistoryError (List (Nat × D))) := do
  let (counter, thr) := s.foldl
    (fun acc h =>
      let r := h.calcRelativeThreshold E
      (acc.1 + r.1, E.f64.add acc.2 r.2)) ((0 : Nat), E.f64.zero)
  if counter = 0 then Run.done (.error .noBlocksAboveThreshold)
  else if E.f64.isNan thr then Run.done (.error .relativeThresholdIsNan)
  else do
    let thr := E.f64.mul (E.f64.div thr (E.f64.ofInt counter)) (gateFactor E (-10))
    let start ← startIndex E thr
    let items ← Run.forL (History.gated E start thr) s
    Run.done (.ok items.flatten)

/-- `History::gating_block_count_and_energy_multiple` (history.rs:383-398). -/
def gatingMultiple (E : Env D S) (s : List (History D)) : Run (Except HistoryError (Nat × D)) := do
  match ← iterGating E s with
  | .error e => Run.done (.error e)
  | .ok items =>
    let r := items.foldl (fun acc (x : Nat × D) => (acc.1 + x.1, E.f64.add acc.2 x.2))
      ((0 : Nat), E.f64.zero)
    if r.1 = 0 then Run.done (.error .noBlocksAboveThreshold)
    else Run.done (.ok r)

/-- `History::gated_loudness_multiple` (history.rs:369-377); `gated_loudness` (history.rs:296-298) is
the one-element case. -/
def gatedLoudnessMultiple (E : Env D S) (s : List (History D)) : Run D := do
  match ← gatingMultiple E s with
  | .ok (n, e) => Run.done (energyToLoudness E (E.f64.div e (E.f64.ofInt n)))
  | .error .noBlocksAboveThreshold => Run.done (E.f64.neg E.f64.inf)
  | .error .relativeThresholdIsNan => Run.done E.f64.nan

/-- `History::relative_threshold` (history.rs:400-417). -/
def History.relativeThreshold (E : Env D S) (h : History D) : D :=
  let r := h.calcRelativeThreshold E
  if r.1 = 0 then E.f64.lit (-70) 1
  else if E.f64.isNan r.2 then E.f64.nan
  else
    energyToLoudness E (E.f64.mul (E.f64.div r.2 (E.f64.ofInt r.1)) (gateFactor E (-10)))

/-- Running sums (`h_sum`, history.rs:83-96). -/
def prefixSums : Nat → List Nat → List Nat
  | _, [] => []
  | acc, x :: xs => (acc + x) :: prefixSums (acc + x) xs

/-- `u64::MAX`. -/
def u64Max : Nat := 2 ^ 64 - 1

/-- `((n - 1) as f64 * p + 0.5) as u64` for a percentile literal `p = num / den`. -/
def percentile (E : Env D S) (max : Nat) (n : Nat) (num : Int) (den : Nat) : Nat :=
  E.f64.toUint max (E.f64.add (E.f64.mul (E.f64.ofInt n) (E.f64.lit num den)) (E.f64.lit 5 10))

/-- `iter().rposition(|&v| v <= p).map_or(0, |j| j + 1)` (history.rs:134-140, 146-152): one past the last
position whose value is at most `p`. -/
def rposSucc (l : List Nat) (p : Nat) : Nat :=
  (l.reverse.dropWhile fun v => decide (p < v)).length

/-- Locating a percentile in the cumulative histogram (history.rs:131-141, 143-153). -/
def percentileEnergy (E : Env D S) (hSum : List Nat) (index p : Nat) : Run D := do
  Run.assert (index ≤ hSum.length)
  let j := match E.bs.run (hSum.drop index) (p + 1) with
    | .ok j => j
    | .error j => j
  Run.assert (index + j ≤ hSum.length)
  let j := rposSucc (hSum.take (index + j)) p
  Run.index (energies E) j

/-- `Histogram::loudness_range` (history.rs:82-156). -/
def histLoudnessRange (E : Env D S) (h : List Nat) : Run D := do
  let hSum := prefixSums 0 h
  let size := h.sum
  let power := (List.zip h (energies E)).foldl
    (fun acc (count, energy) => E.f64.add acc (E.f64.mul (E.f64.ofInt count) energy)) E.f64.zero
  if size = 0 then Run.done E.f64.zero
  else if E.f64.isNan power then Run.done E.f64.nan
  else do
    let power := E.f64.div power (E.f64.ofInt size)
    let integrated := E.f64.mul (gateFactor E (-20)) power
    let index ← startIndex E integrated
    let before := if index = 0 then 0 else (hSum[index - 1]?).getD 0
    let size := size - before
    if size = 0 then Run.done E.f64.zero
    else do
      let pLow := percentile E u64Max (size - 1) 1 10 + before
      let pHigh := percentile E u64Max (size - 1) 95 100 + before
      let lEn ← percentileEnergy E hSum index pLow
      let hEn ← percentileEnergy E hSum index pHigh
      Run.done (E.f64.sub (energyToLoudness E hEn) (energyToLoudness E lEn))

/-- `Queue::loudness_range` (history.rs:198-219) on the sorted energies. -/
def queueLoudnessRange (E : Env D S) (q : List D) : Run D := do
  if q = [] then Run.done E.f64.zero
  else do
    let power := E.f64.div (sumD E.f64 q) (E.f64.ofInt q.length)
    let integrated := E.f64.mul (gateFactor E (-20)) power
    let relgated := (q.takeWhile fun v => E.f64.lt v integrated).length
    let relgatedSize := q.length - relgated
    if relgatedSize = 0 then Run.done E.f64.zero
    else do
      let n := relgatedSize - 1
      let hEn ← Run.index q (relgated + percentile E E.usizeMax n 95 100)
      let lEn ← Run.index q (relgated + percentile E E.usizeMax n 1 10)
      Run.done (E.f64.sub (energyToLoudness E hEn) (energyToLoudness E lEn))

/-- The comparison closure of the sort (history.rs:479-487): `a <= b` in the total preorder with NaN last. -/
def sortLe (A : Arith D) (a b : D) : Bool :=
  if A.le a b || A.le b a then A.le a b else !A.isNan a || A.isNan b

/-- `History::loudness_range_multiple` (history.rs:425-495).  `sort_unstable_by` is modelled by a merge
sort with the same comparison; `contains_nan` (set by the closure when it meets a NaN) by "at least two
elements and one is NaN", since a sort must compare every element of a list of two or more. -/
def loudnessRangeMultiple (E : Env D S) (s : List (History D)) : Run (Except Error D) := do
  match s with
  | [] => Run.done (.ok E.f64.zero)
  | .histogram h :: rest =>
    match rest with
    | [] => do
      let r ← histLoudnessRange E h
      Run.done (.ok r)
    | _ => do
      match combineHists s with
      | none => Run.done (.error .invalidMode)
      | some c => do
        let r ← histLoudnessRange E c
        Run.done (.ok r)
  | .queue _ _ :: _ =>
    match combineQueues s with
    | none => Run.done (.error .invalidMode)
    | some c =>
      if 2 ≤ c.length ∧ c.any E.f64.isNan then Run.done (.ok E.f64.nan)
      else do
        let r ← queueLoudnessRange E (c.mergeSort (sortLe E.f64))
        Run.done (.ok r)
where
  /-- history.rs:434-450. -/
  combineHists (s : List (History D)) : Option (List Nat) :=
    s.foldl (fun acc h =>
      match acc, h with
      | some c, .histogram h => some (List.zipWith (· + ·) c h)
      | _, _ => none) (some (List.replicate 1000 0))
  /-- history.rs:456-477. -/
  combineQueues (s : List (History D)) : Option (List D) :=
    s.foldl (fun acc h =>
      match acc, h with
      | some c, .queue q _ => some (c ++ q)
      | _, _ => none) (some [])

end Verif
