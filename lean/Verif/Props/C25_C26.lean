import Verif.Proofs.Couple
import Verif.Proofs.Runs
import Verif.Props.C13_C15
import Verif.Spec.Exact
/-!
# C25 and C26: unused channels and channel weights
-/

set_option linter.unusedSimpArgs false

namespace Verif
variable {D S : Type}
open Spec

/-! ## C25 -/

/-- Channel `c` of a channel map takes part in the measurement. -/
def Spec.Used (cm : List Channel) (c : Nat) : Prop := ∃ ch, cm[c]? = some ch ∧ ch ≠ .unused

/-- Two calls of the same kind that deliver as many frames and the same values on the used channels.  The
sample types and layouts may differ, and nothing is said about the other channels. -/
def Spec.SameOnUsed (E : Env D S) (n : Nat) (cm : List Channel) : Op D S → Op D S → Prop :=
  Matching E n n (fun c c' => c = c' ∧ Used cm c) (· = ·)

theorem rel5_eq {s s' : V5 D} : Rel5 (· = ·) s s' ↔ s = s' := by
  constructor
  · intro h
    cases s; cases s'
    obtain ⟨h0, h1, h2, h3, h4⟩ := h
    cases h0; cases h1; cases h2; cases h3; cases h4
    rfl
  · rintro rfl; exact ⟨rfl, rfl, rfl, rfl, rfl⟩

theorem channelSum_congr (A : Arith D) (cm : List Channel) {f g : Nat → D} (h : ∀ c, Used cm c → f c = g c) :
    channelSum A cm f = channelSum A cm g := by
  unfold channelSum
  have key : ∀ (l : List (Channel × Nat)) (s : D), (∀ x ∈ l, x.1 ≠ .unused → f x.2 = g x.2) →
      l.foldl (fun s x => if x.1 = .unused then s else A.add s (weighted A x.1 (f x.2))) s =
      l.foldl (fun s x => if x.1 = .unused then s else A.add s (weighted A x.1 (g x.2))) s := by
    intro l
    induction l with
    | nil => intro s _; rfl
    | cons x l ih =>
      intro s hl
      simp only [List.foldl_cons]
      rw [ih _ (fun y hy => hl y (by simp [hy]))]
      by_cases hu : x.1 = .unused
      · simp only [if_pos hu]
      · simp only [if_neg hu, hl x (by simp) hu]
  refine key _ _ (fun x hx hu => h _ ⟨x.1, ?_, hu⟩)
  exact List.mem_zipIdx_iff_getElem?.1 hx

/-- Equality on the used channels is a coupling, in any arithmetic. -/
theorem coupling_used (E : Env D S) (cm : List Channel) :
    Coupling E cm cm (fun c c' => c = c' ∧ Used cm c) (· = ·) where
  used := by
    rintro c c' ⟨rfl, h⟩
    exact ⟨h, h⟩
  filter := by
    intro b a st st' xs xs' h hx
    rw [rel5_eq] at h
    rw [List.forall₂_eq_eq_eq] at hx
    subst h hx
    exact ⟨rel5_eq.2 rfl, by rw [List.forall₂_eq_eq_eq]⟩
  flush := by
    intro st st' h
    rw [rel5_eq] at h
    subst h
    exact rel5_eq.2 rfl
  square := by
    rintro x y rfl
    rfl
  sum := fun w w' h => channelSum_congr _ _ fun c hc => h c c ⟨rfl, hc⟩

theorem Coupled.same (e : Ebu D S) : Coupled (fun c c' => c = c' ∧ Used e.channelMap c) (· = ·) e e where
  mode := rfl
  rate := rfl
  s100 := rfl
  idx := rfl
  needed := rfl
  stc := rfl
  window := rfl
  hist := rfl
  short := rfl
  coefB := rfl
  coefA := rfl
  state := by
    rintro c c' ⟨rfl, -⟩ s s' h1 h2
    rw [h1] at h2
    cases h2
    exact rel5_eq.2 rfl
  row := by
    rintro c c' ⟨rfl, -⟩ s s' h1 h2
    rw [h1] at h2
    cases h2
    rw [List.forall₂_eq_eq_eq]

/-- **C25.** From any state, two histories of calls that agree on the used channels lead to the same answers
to every loudness query and to the same recorded blocks, whatever the other channels carry.  On every target,
in any arithmetic. -/
theorem C25_unused {E : Env D S} {e e1 e2 : Ebu D S} (hr : Reachable E e)
    (ha : Adequate e.mode e.rate e.window) {ops ops' : List (Op D S)}
    (hm : List.Forall₂ (SameOnUsed E e.channels e.channelMap) ops ops')
    (h1 : runOps E e ops = .done e1) (h2 : runOps E e ops' = .done e2) :
    (∀ q, LoudnessQuery q → ask E e1 q = ask E e2 q) ∧
    e1.gatingBlockCountAndEnergy E = e2.gatingBlockCountAndEnergy E ∧
    e1.blockEnergyHistory = e2.blockEnergyHistory ∧
    e1.shortTermBlockEnergyHistory = e2.shortTermBlockEnergyHistory := by
  obtain ⟨h, c1, c2, r1, r2⟩ := Coupled.run (coupling_used E e.channelMap) (Coupled.same e) hr hr ha hm h1 h2
  have hc : Coupling E e1.channelMap e2.channelMap (fun c c' => c = c' ∧ Used e.channelMap c) (· = ·) := by
    rw [c1.map, c2.map]; exact coupling_used E e.channelMap
  obtain ⟨g1, g2⟩ := h.answers hc r1.inv r2.inv
  exact ⟨g1, g2, h.hist.symm, h.short.symm⟩

/-- The multi-analyzer queries only read the recorded blocks and the mode, so they agree as well. -/
theorem C25_multiple {E : Env D S} {e e1 e2 : Ebu D S} (hr : Reachable E e)
    (ha : Adequate e.mode e.rate e.window) {ops ops' : List (Op D S)}
    (hm : List.Forall₂ (SameOnUsed E e.channels e.channelMap) ops ops')
    (h1 : runOps E e ops = .done e1) (h2 : runOps E e ops' = .done e2) (pre post : List (Ebu D S)) :
    loudnessGlobalMultiple E (pre ++ e1 :: post) = loudnessGlobalMultiple E (pre ++ e2 :: post) ∧
    ebuLoudnessRangeMultiple E (pre ++ e1 :: post) = ebuLoudnessRangeMultiple E (pre ++ e2 :: post) := by
  obtain ⟨h, c1, c2, r1, r2⟩ := Coupled.run (coupling_used E e.channelMap) (Coupled.same e) hr hr ha hm h1 h2
  have hm' := h.mode
  have h3 := h.hist
  have h4 := h.short
  constructor
  · simp only [loudnessGlobalMultiple, List.any_append, List.any_cons, List.map_append, List.map_cons, hm', h3]
  · simp only [ebuLoudnessRangeMultiple, List.any_append, List.any_cons, List.map_append, List.map_cons, hm', h4]

/-! ### Example: a stereo analyzer with its second channel unused -/

/-- State after a run of an analyzer with `n` channels. -/
def Demo.afterN (E : Env F64 F32) (n rate : Nat) (mode : Mode) (ops : List (Op F64 F32)) : Option (Ebu F64 F32) :=
  match runOps E (Ebu.init E n rate mode) ops with
  | .done e => some e
  | _ => none

/-- Bits of the momentary and the global loudness. -/
def Demo.loudBits (E : Env F64 F32) (e : Ebu F64 F32) : Option Nat × Option Nat :=
  (Demo.bitsOf (ask E e .loudnessMomentary), Demo.bitsOf (ask E e .loudnessGlobal))

def Demo.leftOnly : List (Op F64 F32) :=
  [.setChannel 1 .unused, .addFrames (.f64 (List.replicate 10 [Fl.lit _ 1 2, Fl.lit _ 1 3]).flatten)]
/-- The unused channel carries NaN, the samples arrive as planar `i16`. -/
def Demo.leftNan : List (Op F64 F32) :=
  [.setChannel 1 .unused, .addFrames (.f64 (List.replicate 10 [Fl.lit _ 1 2, .nan]).flatten)]
def Demo.leftPlanar : List (Op F64 F32) :=
  [.setChannel 1 .unused, .addFrames (.pi16 [List.replicate 10 16384, List.replicate 10 (-7)])]
/-- The used channel differs in one sample. -/
def Demo.leftOther : List (Op F64 F32) :=
  [.setChannel 1 .unused, .addFrames (.pi16 [List.replicate 9 16384 ++ [0], List.replicate 10 (-7)])]

/-- The report on a history of a stereo analyzer. -/
def Demo.stereoReport (ops : List (Op F64 F32)) : Option (Option Nat × Option Nat) :=
  (Demo.afterN (Demo.envReal false) 2 18 Mode.I ops).map (Demo.loudBits (Demo.envReal false))

/-- Both loudness values are numbers. -/
def Demo.bothKnown : Option (Option Nat × Option Nat) → Bool
  | some (some _, some _) => true
  | _ => false

/-- The three histories agree on the used channel and give one result; the fourth does not. -/
theorem Demo.unused_report :
    Demo.stereoReport Demo.leftOnly = Demo.stereoReport Demo.leftNan ∧
    Demo.stereoReport Demo.leftOnly = Demo.stereoReport Demo.leftPlanar ∧
    Demo.stereoReport Demo.leftOnly ≠ Demo.stereoReport Demo.leftOther ∧
    Demo.bothKnown (Demo.stereoReport Demo.leftOnly) = true := by
  decide +kernel

/-- The hypotheses of `C25_unused` are met by the first two. -/
example (x y z : F64) : List.Forall₂ (SameOnUsed (Demo.envReal false) 2 [.left, .unused])
    [.addFrames (.f64 [x, y])] [.addFrames (.f64 [x, z])] := by
  refine List.Forall₂.cons (.add (by simp [WellFormed]) fun _ => ?_) .nil
  have h : ∀ y, inputFrames (Demo.envReal false) 2 (.f64 [x, y]) = [[x, y]] := by
    intro y
    simp only [inputFrames, groups, List.map_cons, List.map_nil, List.length_cons, List.length_nil]
    rfl
  rw [h, h]
  refine List.Forall₂.cons ?_ .nil
  rintro c c' ⟨rfl, ch, h1, h2⟩ u v h3 h4
  match c, h1, h3, h4 with
  | 0, _, h3, h4 =>
    simp only [List.getElem?_cons_zero, Option.some.injEq] at h3 h4
    rw [← h3, ← h4]
  | 1, h1, _, _ =>
    simp only [List.getElem?_cons_succ, List.getElem?_cons_zero, Option.some.injEq] at h1
    exact absurd h1.symm h2

/-! ## C26 -/

/-- The channel types with a weight of 1.41: surround and 60 or 90 degrees to either side. -/
def Spec.surrounds : List Channel := [.leftSurround, .rightSurround, .mp060, .mm060, .mp090, .mm090]

/-- **C26, the table.** Over all 32 channel types. -/
theorem C26_weights (A : Arith D) (ch : Channel) (s : D) :
    weightChannel A ch s = if ch ∈ surrounds then A.mul s (A.lit 141 100)
      else if ch = .dualMono then A.mul s (A.lit 2 1) else s := by
  cases ch <;> rfl

/-- **C26, the code.** The energy of the last `N` frames the code computes is the sum over the used channels,
in order, of the weighted sums of squares of the values in the window, divided by `N`. -/
theorem C26_energy {E : Env D S} {e : Ebu D S} (hr : Reachable E e) {N : Nat} (hN : N ≤ e.ring) :
    calcGatingBlock E N e.audioData e.audioDataIndex e.channelMap =
      .done (E.f64.div (channelSum E.f64 e.channelMap fun c =>
        sumSq E.f64 (ringWindow N e.audioDataIndex (e.rows.getD c []))) (E.f64.ofInt N)) := by
  have hi := hr.inv
  rw [Ebu.calc_eq hi hN]
  unfold Ebu.energyP
  rw [energyP_spec (hi.rows_spec.1.trans hi.map.symm)]
  intro c ch row _ _ hrow
  rw [List.getD_eq_getElem?_getD, hrow]
  rfl

/-- The weight as a real number. -/
noncomputable def Spec.realWeight (ch : Channel) : ℝ :=
  if ch = .unused then 0 else if ch ∈ surrounds then 1.41 else if ch = .dualMono then 2 else 1

/-- Mean square. -/
noncomputable def Spec.meanSquare (l : List ℝ) : ℝ := (l.map fun x => x ^ 2).sum / l.length

theorem exact_sumSq (l : List ℝ) : sumSq exactArith l = (l.map fun x => x ^ 2).sum := by
  unfold sumSq
  have key : ∀ (l : List ℝ) (s : ℝ), l.foldl (fun s x => exactArith.add s (exactArith.mul x x)) s =
      s + (l.map fun x => x ^ 2).sum := by
    intro l
    induction l with
    | nil => intro s; simp
    | cons x l ih =>
      intro s
      rw [List.foldl_cons, ih, List.map_cons, List.sum_cons]
      show s + x * x + _ = _
      ring
  rw [key]
  show (0 : ℝ) + _ = _
  ring

theorem exact_weighted (ch : Channel) (h : ch ≠ .unused) (s : ℝ) :
    weighted exactArith ch s = realWeight ch * s := by
  rw [← weightChannel_eq, C26_weights]
  unfold realWeight
  rw [if_neg h]
  split
  · show s * (((141 : Int) : ℝ) / ((100 : Nat) : ℝ)) = _
    norm_num; ring
  · split
    · show s * (((2 : Int) : ℝ) / ((1 : Nat) : ℝ)) = _
      norm_num; ring
    · ring

theorem exact_channelSum (cm : List Channel) (f : Nat → ℝ) :
    channelSum exactArith cm f = (cm.zipIdx.map fun x => realWeight x.1 * f x.2).sum := by
  unfold channelSum
  have key : ∀ (l : List (Channel × Nat)) (s : ℝ),
      l.foldl (fun s x => if x.1 = .unused then s else exactArith.add s (weighted exactArith x.1 (f x.2))) s =
      s + (l.map fun x => realWeight x.1 * f x.2).sum := by
    intro l
    induction l with
    | nil => intro s; simp
    | cons x l ih =>
      intro s
      rw [List.foldl_cons, ih, List.map_cons, List.sum_cons]
      by_cases hu : x.1 = .unused
      · rw [if_pos hu]
        unfold realWeight
        rw [if_pos hu]; ring
      · rw [if_neg hu, exact_weighted _ hu]
        show s + _ + _ = _
        ring
  rw [key]
  show (0 : ℝ) + _ = _
  ring

theorem exact_energy_eq (bs : BSearch) (u : Nat) (L N n : Nat) (cm : List Channel) (ys : Nat → List ℝ) :
    energy (exactEnv bs u) L N n cm ys =
      (cm.zipIdx.map fun x => realWeight x.1 * meanSquare (lastN 0 N ((ys x.2).take n))).sum := by
  unfold energy
  show channelSum exactArith cm _ / ((N : Int) : ℝ) = _
  rw [exact_channelSum, div_eq_mul_inv, ← List.sum_map_mul_right]
  congr 1
  apply List.map_congr_left
  intro x _
  show realWeight x.1 * sumSq exactArith (readOrder L n (lastN (0 : ℝ) N ((ys x.2).take n))) * _ = _
  rw [exact_sumSq]
  have hp := readOrder_perm L n (lastN (0 : ℝ) N ((ys x.2).take n))
  rw [(hp.map fun x => x ^ 2).sum_eq]
  unfold meanSquare
  rw [lastN_length]
  push_cast
  ring

/-- **C26, in exact arithmetic.** The momentary, short-term and window loudness is
`10 log10(Σ weight · mean square) - 0.691`, the sum over all channels with the weights of the standard and weight
zero for unused channels, the mean squares over the last `N` values of the K-weighted channel signals. -/
theorem C26_exact (bs : BSearch) (u : Nat) {e0 e : Ebu ℝ ℝ} (h : Started (exactEnv bs u) e0)
    (hg : Adequate e0.mode e0.rate e0.window) {ops : List (Op ℝ ℝ)} (hops : ∀ op ∈ ops, Feed op)
    (hrun : runOps (exactEnv bs u) e0 ops = .done e) :
    let E := exactEnv bs u
    let power := fun N => (e0.channelMap.zipIdx.map fun x => realWeight x.1 *
      meanSquare (lastN 0 N (signal E e0.rate e0.channels ops x.2))).sum
    (0 < power (4 * hop e0.rate) → ask E e .loudnessMomentary =
      .done (.ok (10 * Real.logb 10 (power (4 * hop e0.rate)) - 0.691))) ∧
    (0 < power (30 * hop e0.rate) → 30 * hop e0.rate ≤ capacity e0.rate e0.window →
      ask E e .loudnessShortterm = .done (.ok (10 * Real.logb 10 (power (30 * hop e0.rate)) - 0.691))) ∧
    ∀ w : UInt32, e0.rate * w.toNat ≤ u → e0.rate * w.toNat / 1000 ≤ capacity e0.rate e0.window →
      0 < power (e0.rate * w.toNat / 1000) → ask E e (.loudnessWindow w) =
        .done (.ok (10 * Real.logb 10 (power (e0.rate * w.toNat / 1000)) - 0.691)) := by
  intro E power
  obtain ⟨h1, h2, h3⟩ := C15_windows (E := E) rfl h hg hops hrun
  have hlev : ∀ N, 0 < power N → level E (energy E (capacity e0.rate e0.window) N
      (measured E e0.channels ops) e0.channelMap (signal E e0.rate e0.channels ops)) =
      10 * Real.logb 10 (power N) - 0.691 := by
    intro N hN
    have he : energy E (capacity e0.rate e0.window) N (measured E e0.channels ops) e0.channelMap
        (signal E e0.rate e0.channels ops) = power N := by
      rw [exact_energy_eq]
      show (List.map _ _).sum = (List.map _ _).sum
      congr 1
      apply List.map_congr_left
      intro x _
      congr 3
      apply List.take_of_length_le
      unfold signal measured
      rw [outs_length]
    rw [he]
    unfold level
    have : E.f64.le (power N) E.f64.zero = false := by
      show @decide (power N ≤ 0) (Classical.propDecidable _) = false
      simp [hN]
    rw [this]
    show ((10 : Int) : ℝ) / ((1 : Nat) : ℝ) * Real.logb 10 (power N) - ((691 : Int) : ℝ) / ((1000 : Nat) : ℝ) = _
    norm_num
  dsimp only at h1 h2 h3
  refine ⟨fun hp => ?_, fun hp hc => ?_, fun w hw hc hp => ?_⟩
  · rw [h1, hlev _ hp]
  · rw [h2, if_neg (by omega), hlev _ hp]
  · rw [h3 w, if_neg (by
      rintro (hh | hh)
      · exact absurd hh (Nat.not_lt.2 hw)
      · omega), hlev _ hp]

/-- Each kind of weight occurs. -/
example : realWeight .left = 1 ∧ realWeight .mp060 = 1.41 ∧ realWeight .mm135 = 1 ∧ realWeight .dualMono = 2 ∧
    realWeight .unused = 0 := by
  refine ⟨?_, ?_, ?_, ?_, ?_⟩ <;> simp [realWeight, surrounds]

end Verif
