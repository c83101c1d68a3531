import Verif.Proofs.Start
import Verif.Proofs.Query
import Verif.Props.C09
/-!
# C13 to C15: which frames the blocks and windows consist of

The statements are about any history of `add_frames_*` / `seed_frames_*` calls, of any sample types, after a
starting point (`Started`), on targets with hardware flush-to-zero.
-/

set_option linter.unusedSimpArgs false

namespace Verif
variable {D S : Type}
open Spec

/-- The K-weighted signal of channel `c` at the measured frames. -/
noncomputable def Spec.signal (E : Env D S) (rate channels : Nat) (ops : List (Op D S)) (c : Nat) : List D :=
  outs E.f64p (filterCoefficients E (E.f64.ofInt rate)).1 (filterCoefficients E (E.f64.ofInt rate)).2
    E.f64.zero (heard E channels ops) c

/-- Number of frames measured. -/
noncomputable def Spec.measured (E : Env D S) (channels : Nat) (ops : List (Op D S)) : Nat :=
  count (heard E channels ops)

/-- The loudness of an energy: `10 log10(x) - 0.691`, and minus infinity for nothing. -/
def Spec.level (E : Env D S) (x : D) : D :=
  if E.f64.le x E.f64.zero then E.f64.neg E.f64.inf
  else E.f64.sub (E.f64.mul (E.f64.lit 10 1) (E.libm.log10 x)) (E.f64.lit 691 1000)

theorem foldL_add (E : Env D S) {h : History D} (hi : h.Inv) (xs : List D) :
    Run.foldL (History.add E) h xs = .done (xs.foldl (History.addP E) h) := by
  induction xs generalizing h with
  | nil => rfl
  | cons x xs ih =>
    simp only [Run.foldL, Run.bind_eq, History.add_eq E hi, Run.done_bind, List.foldl_cons]
    exact ih (History.addP_inv E hi x)

/-- **C13.** The history of the integrated loudness has been offered exactly the energies of the blocks of
`4 s` frames ending at `4 s, 5 s, 6 s, …` (`s` frames are 100 ms), in this order; without mode I nothing. -/
theorem C13_blocks {E : Env D S} (hz : E.noFtz = false) {e0 e : Ebu D S} (h : Started E e0)
    (hg : Adequate e0.mode e0.rate e0.window) {ops : List (Op D S)} (hops : ∀ op ∈ ops, Feed op)
    (hrun : runOps E e0 ops = .done e) :
    (e0.mode.contains Mode.I = true →
      Run.foldL (History.add E) e0.blockEnergyHistory
        ((blockEnds (hop e0.rate) (measured E e0.channels ops)).map fun m =>
          energy E (capacity e0.rate e0.window) (4 * hop e0.rate) m e0.channelMap
            (signal E e0.rate e0.channels ops)) = .done e.blockEnergyHistory) ∧
    (e0.mode.contains Mode.I = false → e.blockEnergyHistory = e0.blockEnergyHistory) := by
  have hi := h.reachable.inv
  obtain ⟨ht, hi', -⟩ := h.tracks hz hg hops hrun
  have hh := ht.hist
  have hs : e0.samplesIn100ms = hop e0.rate := hi.s100
  constructor
  · intro hm
    rw [if_pos hm] at hh
    rw [foldL_add E hi.hist, hh]
    unfold blocksOf outsOf
    rw [hi.coef.1, hi.coef.2, hs, hi.ring_eq, Nat.mul_comm (hop e0.rate)]
    rfl
  · intro hm
    rw [if_neg (by simp [hm])] at hh
    exact hh

/-- **C14.** The history of the loudness range has been offered exactly the energies of the blocks of
`30 s` frames ending at `30 s, 40 s, 50 s, …`; without mode LRA nothing. -/
theorem C14_blocks {E : Env D S} (hz : E.noFtz = false) {e0 e : Ebu D S} (h : Started E e0)
    (hg : Adequate e0.mode e0.rate e0.window) {ops : List (Op D S)} (hops : ∀ op ∈ ops, Feed op)
    (hrun : runOps E e0 ops = .done e) :
    (e0.mode.contains Mode.LRA = true →
      Run.foldL (History.add E) e0.shortTermBlockEnergyHistory
        ((shortEnds (hop e0.rate) (measured E e0.channels ops)).map fun m =>
          energy E (capacity e0.rate e0.window) (30 * hop e0.rate) m e0.channelMap
            (signal E e0.rate e0.channels ops)) = .done e.shortTermBlockEnergyHistory) ∧
    (e0.mode.contains Mode.LRA = false →
      e.shortTermBlockEnergyHistory = e0.shortTermBlockEnergyHistory) := by
  have hi := h.reachable.inv
  obtain ⟨ht, hi', -⟩ := h.tracks hz hg hops hrun
  have hh := ht.short
  have hs : e0.samplesIn100ms = hop e0.rate := hi.s100
  constructor
  · intro hm
    rw [if_pos hm] at hh
    rw [foldL_add E hi.stHist, hh]
    unfold shortsOf outsOf
    rw [hi.coef.1, hi.coef.2, hs, hi.ring_eq, Nat.mul_comm (hop e0.rate)]
    rfl
  · intro hm
    rw [if_neg (by simp [hm])] at hh
    exact hh

/-- **C15.** The momentary, short-term and window loudness are those of exactly the last `4 s`, `30 s` and
`rate * w / 1000` frames, silence before the start; the latter two fail iff the buffer is smaller. -/
theorem C15_windows {E : Env D S} (hz : E.noFtz = false) {e0 e : Ebu D S} (h : Started E e0)
    (hg : Adequate e0.mode e0.rate e0.window) {ops : List (Op D S)} (hops : ∀ op ∈ ops, Feed op)
    (hrun : runOps E e0 ops = .done e) :
    let L := capacity e0.rate e0.window
    let lev := fun N => level E (energy E L N (measured E e0.channels ops) e0.channelMap
      (signal E e0.rate e0.channels ops))
    ask E e .loudnessMomentary = .done (.ok (lev (4 * hop e0.rate))) ∧
    ask E e .loudnessShortterm = .done (if L < 30 * hop e0.rate then .error .invalidMode
      else .ok (lev (30 * hop e0.rate))) ∧
    ∀ w : UInt32, ask E e (.loudnessWindow w) =
      .done (if E.usizeMax < e0.rate * w.toNat ∨ L < e0.rate * w.toNat / 1000 then .error .invalidMode
        else .ok (lev (e0.rate * w.toNat / 1000))) := by
  intro L lev
  have hi := h.reachable.inv
  obtain ⟨ht, hi', hg'⟩ := h.tracks hz hg hops hrun
  have hs : e.samplesIn100ms = hop e0.rate := ht.same.s100.trans hi.s100
  have hr0 : e0.ring = L := hi.ring_eq
  have hr : e.ring = L := ht.same.ring.trans hr0
  have hlev : ∀ N, N ≤ L → windowLoudness E (e.energyP E N) = lev N := by
    intro N hN
    rw [ht.energy hi' (by rw [hr0]; exact hN), hr0]
    unfold outsOf
    rw [hi.coef.1, hi.coef.2]
    rfl
  refine ⟨?_, ?_, fun w => ?_⟩
  · have h4 := hg.1
    simp only [ask, Ebu.loudnessMomentary_eq hi', hs, hr, Nat.mul_comm (hop e0.rate) 4]
    rw [if_neg (by omega), hlev _ h4]
  · simp only [ask, Ebu.loudnessShortterm_eq hi', hs, hr, Nat.mul_comm (hop e0.rate) 30]
    split
    · rfl
    · rw [hlev _ (by omega)]
  · simp only [ask, Ebu.loudnessWindow_eq hi', ht.same.rate, hr]
    split
    · rfl
    · rw [hlev _ (by omega)]

/-- The energies above sum the squares of exactly the last `N` values: the order of the ring buffer is a
permutation of them, and there are `N` of them. -/
theorem C15_exactly (L N n : Nat) (z : D) (ys : List D) :
    (readOrder L n (lastN z N ys)).Perm (lastN z N ys) ∧ (lastN z N ys).length = N ∧
    (N ≤ ys.length → lastN z N ys = ys.drop (ys.length - N)) ∧
    (ys.length ≤ N → lastN z N ys = List.replicate (N - ys.length) z ++ ys) := by
  refine ⟨readOrder_perm _ _ _, lastN_length .., fun h => ?_, fun h => ?_⟩
  · unfold lastN
    rw [List.drop_append, List.drop_eq_nil_of_le (by simp; omega)]
    simp
  · unfold lastN
    rw [List.drop_append_of_le_length (by simp; omega), List.drop_replicate]

/-! ## Examples -/

/-- Block ends at 48 kHz after 0.61 s; short-term block ends after 5.1 s. -/
example : blockEnds 4800 29280 = [19200, 24000, 28800] ∧ shortEnds 4800 244800 = [144000, 192000, 240000] := by
  decide +kernel

/-- The histories of the theorems exist, with seeded, interleaved and planar input. -/
example : ∃ e0 e : Ebu F64 F32, Started Demo.env e0 ∧ Adequate e0.mode e0.rate e0.window ∧
    e0.mode.contains Mode.I = true ∧ e0.mode.contains Mode.LRA = true ∧ e0.channels = 2 ∧
    runOps Demo.env e0 [.seedFrames (.f64 [Fl.zero false, Fl.zero true]),
      .addFrames (.i16 (List.replicate 200000 7)), .addFrames (.f32 [Fl.zero false, Fl.inf true])]
      = .done e := by
  obtain ⟨e0, he, hr, hc, hra, hm, hw⟩ := demo_new (channels := 2) (rate := 48000)
    (mode := Mode.I ||| Mode.LRA) (by omega) (by decide)
  obtain ⟨e, h⟩ := C09_plain (Nat.le_refl _) he (by omega) [.seedFrames (.f64 [Fl.zero false, Fl.zero true]),
      .addFrames (.i16 (List.replicate 200000 7)), .addFrames (.f32 [Fl.zero false, Fl.inf true])] (by
    intro op hop
    simp only [List.mem_cons, List.not_mem_nil, or_false] at hop
    rcases hop with rfl | rfl | rfl <;> trivial)
  exact ⟨e0, e, .new he, hr.inv.adequate (by omega), by rw [hm]; decide, by rw [hm]; decide, hc, h⟩

/-- The recorded block energies of a run. -/
def Demo.blocks (rate : Nat) (mode : Mode) (ops : List (Op F64 F32)) : Option (List F64 × List F64) :=
  match Ebu.new Demo.env 1 rate mode with
  | .done (.ok e0) =>
    match runOps Demo.env e0 ops with
    | .done e =>
      match e.blockEnergyHistory, e.shortTermBlockEnergyHistory with
      | .queue a _, .queue b _ => some (a, b)
      | _, _ => none
    | _ => none
  | _ => none

/-- A run at 20 Hz (`s = 2`): 61 frames in three calls give 27 gating blocks (ends 8, 10, …, 60) and one
short-term block. -/
example : (Demo.blocks 20 (Mode.I ||| Mode.LRA) [.addFrames (.i16 (List.replicate 3 5000)),
    .addFrames (.i16 (List.replicate 50 5000)), .addFrames (.pi16 [List.replicate 8 (-3)])]).map
      (fun x => (x.1.length, x.2.length)) = some (27, 1) ∧
    (blockEnds (hop 20) 61).length = 27 ∧ (shortEnds (hop 20) 61).length = 1 := by
  decide +kernel

end Verif
