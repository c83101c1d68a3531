import Verif.Proofs.Programme
import Verif.Props.C46
import Verif.Props.C39
/-!
# C69: how the blocks of a programme determine its integrated loudness

The statements are about any set of analyzers, in queue or histogram mode, in exact arithmetic: about one analyzer in a
list of one (C39), and about an album in a list of its tracks.
-/

set_option linter.unusedSimpArgs false

namespace Verif
open Spec
variable {bs : BSearch} {u : Nat}

/-- All blocks the analyzers have recorded for the integrated loudness. -/
noncomputable def Spec.recorded (es : List (Ebu ℝ ℝ)) : List ℝ := es.flatMap fun e => blocks e.blockEnergyHistory

/-- Analyzers that have come about by calls, all with mode I. -/
def Spec.Measuring (bs : BSearch) (u : Nat) (es : List (Ebu ℝ ℝ)) : Prop :=
  ∀ e ∈ es, Reachable (exactEnv bs u) e ∧ e.mode.contains Mode.I = true

/-- Stored energies are at least the absolute gate, or zeros a larger history was filled up with (C08). -/
theorem exact_stored {e : Ebu ℝ ℝ} (hr : Reachable (exactEnv bs u) e) {q : List ℝ} {max : Nat}
    (hq : e.blockEnergyHistory = .queue q max) : ∀ x ∈ q, absoluteGate ≤ x ∨ x = 0 := by
  obtain ⟨c, r, md, e0, ops, h1, h2⟩ := hr
  let P : Nat → History ℝ → Prop := fun _ h => ∀ q max, h = .queue q max → ∀ x ∈ q, absoluteGate ≤ x ∨ x = 0
  have hadd : ∀ m' h h' x, P m' h → h.add (exactEnv bs u) x = .done h' → Measured (exactEnv bs u) x → P m' h' := by
    intro _ h h' x hp ha _ q max hq y hy
    subst hq
    cases h with
    | histogram c =>
      simp only [History.add, Run.bind_eq, index_b0, Run.done_bind] at ha
      split at ha
      · cases ha
      · obtain ⟨_, _, hh⟩ := Run.bind_done ha
        cases hh
    | queue q' max' =>
      rw [History.add_eq (exactEnv bs u) (hist := .queue q' max') trivial x] at ha
      unfold History.addP at ha
      rw [exact_gate] at ha
      by_cases hlt : (exactEnv bs u).f64.lt x absoluteGate = true
      · rw [if_pos hlt] at ha; cases ha; exact hp _ _ rfl y hy
      · rw [if_neg hlt] at ha
        cases ha
        rw [queueAdd, List.mem_append] at hy
        rcases hy with hy | hy
        · apply hp _ _ rfl y
          split at hy
          · exact List.mem_of_mem_drop hy
          · exact hy
        · rw [List.mem_singleton] at hy
          subst hy
          rw [exact_lt] at hlt
          exact .inl (not_lt.1 hlt)
  have hreset : ∀ m' (h : History ℝ), P m' h → P m' h.reset := by
    intro _ h _ q max hq y hy
    cases h with
    | histogram c => cases hq
    | queue q' max' => cases hq; simp at hy
  have hmax : ∀ k m' m'' (h : History ℝ), P m' h → m' ≠ m'' → P m'' (h.setMaxSize (exactEnv bs u) (m'' / k)) := by
    intro k _ m'' h hp _ q max hq y hy
    cases h with
    | histogram c => cases hq
    | queue q' max' =>
      unfold History.setMaxSize at hq
      simp only at hq
      split at hq
      · cases hq
        rw [List.mem_append] at hy
        rcases hy with hy | hy
        · exact hp _ _ rfl y hy
        · rw [List.eq_of_mem_replicate hy]; exact .inr rfl
      · cases hq; exact hp _ _ rfl y hy
  obtain ⟨rfl, -⟩ := Ebu.new_ok h1
  have hi := (reachable_new h1).inv2
  have init : ∀ m' b n, P m' (History.new b n) := by
    intro _ b n q max hq y hy
    unfold History.new at hq
    split at hq
    · cases hq
    · cases hq; simp at hy
  obtain ⟨k1, k2⟩ := runOps_hist P P hadd hadd hi (init 0 _ _) (init 0 _ _) ops (.inl ⟨hreset, hreset⟩)
    (.inl ⟨hmax 100, hmax 3000⟩) h2
  exact k1 q max hq

theorem blocks_nonneg {e : Ebu ℝ ℝ} (hr : Reachable (exactEnv bs u) e) : ∀ x ∈ blocks e.blockEnergyHistory, 0 ≤ x := by
  intro x hx
  cases h : e.blockEnergyHistory with
  | queue q max =>
    rw [h] at hx
    rcases exact_stored hr h x hx with hg | rfl
    · exact le_trans absoluteGate_pos.le hg
    · exact le_rfl
  | histogram c =>
    rw [h] at hx
    have hx' : x ∈ expand centreR (fun i => c.getD i 0) allBins := hx
    unfold expand at hx'
    obtain ⟨i, -, hi⟩ := List.mem_flatMap.1 hx'
    rw [List.eq_of_mem_replicate hi]
    unfold centreR
    positivity

theorem exact_lufs (x : ℝ) : lufsD (exactEnv bs u) x = lufs x := by
  unfold lufsD lufs
  simp only [exactEnv, exactArith]
  push_cast
  ring

/-- **C69.** The integrated loudness of the analyzers together is the loudness of the gated mean of their blocks; the
relative threshold of one of them is 10 LU below the mean of its blocks. -/
theorem C69_integrated {es : List (Ebu ℝ ℝ)} (he : Measuring bs u es) (h : ∃ x ∈ recorded es, 0 < x) :
    Powers (recorded es) ∧ loudnessGlobalMultiple (exactEnv bs u) es = .done (.ok (lufs (programmeR (recorded es)))) := by
  have hP : Powers (recorded es) := by
    refine ⟨?_, h⟩
    intro x hx
    obtain ⟨e, hm, hx⟩ := List.mem_flatMap.1 hx
    exact blocks_nonneg (he e hm).1 x hx
  refine ⟨hP, ?_⟩
  rw [loudnessGlobalMultiple_eq fun e hm => (he e hm).1.inv, if_pos fun e hm => (he e hm).2]
  congr 2
  have hi : ∀ h ∈ es.map Ebu.blockEnergyHistory, h.Inv := by
    intro x hx
    obtain ⟨e, hm, rfl⟩ := List.mem_map.1 hx
    exact (he e hm).1.inv.hist
  have hrec : (es.map Ebu.blockEnergyHistory).flatMap blocks = recorded es := by
    rw [List.flatMap_map]; rfl
  have hpass : passing (exactEnv bs u) (recorded es) = keptR (recorded es) := by
    unfold passing keptR
    congr 1
    funext x
    rw [Bool.eq_iff_iff, exact_le, decide_eq_true_eq]
    unfold gateLevel
    rw [exact_tenth_eq, exact_mean]
    show _ * (1 / 10) ≤ x ↔ meanR _ / 10 ≤ x
    unfold meanR
    rw [mul_one_div]
  unfold gatedLoudnessP
  rw [exact_several hi 0, hrec]
  have := gated_outcome (gating_queue_any (E := exactEnv bs u) exact_tenth (q := recorded es) 0 (zero_add _) rfl)
  unfold gatedLoudnessP at this
  rw [this, if_neg (by rw [hpass, List.length_eq_zero_iff]; exact hP.kept_ne), hpass]
  show lufsD (exactEnv bs u) (mean (exactEnv bs u).f64 (keptR (recorded es))) = _
  rw [exact_lufs, exact_mean]
  rfl

theorem lufs_mono {x y : ℝ} (hx : 0 < x) (h : x ≤ y) : lufs x ≤ lufs y := by
  unfold lufs
  have := Real.logb_le_logb_of_le (b := 10) (by norm_num) hx h
  linarith

theorem lufs_le_iff {x y : ℝ} (hx : 0 < x) (hy : 0 < y) : lufs x ≤ lufs y ↔ x ≤ y := by
  unfold lufs
  rw [← Real.logb_le_logb (b := 10) (by norm_num) hx hy]
  constructor <;> intro h <;> linarith

theorem lufs_tenth {x : ℝ} (hx : 0 < x) : lufs (x / 10) = lufs x - 10 := by
  unfold lufs
  rw [Real.logb_div hx.ne' (by norm_num), Real.logb_self_eq_one (by norm_num)]
  ring

/-- **C69.** The integrated loudness is at most that of the loudest block and at least that of a block that is not below
the gate, and at least that of the mean of all blocks. -/
theorem C69_between {es : List (Ebu ℝ ℝ)} (he : Measuring bs u es) (h : ∃ x ∈ recorded es, 0 < x) :
    ∃ v, loudnessGlobalMultiple (exactEnv bs u) es = .done (.ok v) ∧ lufs (meanR (recorded es)) ≤ v ∧
      (∃ x ∈ recorded es, v ≤ lufs x) ∧ ∃ x ∈ recorded es, lufs (meanR (recorded es)) - 10 ≤ lufs x ∧ lufs x ≤ v := by
  obtain ⟨hP, hv⟩ := C69_integrated he h
  refine ⟨_, hv, lufs_mono hP.mean_pos hP.mean_le, ?_, ?_⟩
  · obtain ⟨x, hx, hm⟩ := meanR_mem_le hP.kept_ne
    exact ⟨x, (List.mem_filter.1 hx).1, lufs_mono hP.pos hm⟩
  · obtain ⟨x, hx, hm⟩ := meanR_mem_ge hP.kept_ne
    have hx' := List.mem_filter.1 hx
    have hg : meanR (recorded es) / 10 ≤ x := by simpa using hx'.2
    have hp : 0 < meanR (recorded es) / 10 := by have := hP.mean_pos; positivity
    refine ⟨x, hx'.1, ?_, lufs_mono (lt_of_lt_of_le hp hg) hm⟩
    rw [← lufs_tenth hP.mean_pos]
    exact lufs_mono hp hg

/-- **C69.** The relative threshold of an analyzer in queue mode is at least 10 LU below its integrated loudness. -/
theorem C69_threshold {e : Ebu ℝ ℝ} (hr : Reachable (exactEnv bs u) e) (hI : e.mode.contains Mode.I = true)
    {q : List ℝ} {max : Nat} (hq : e.blockEnergyHistory = .queue q max) (h : ∃ x ∈ q, 0 < x) :
    ∃ v t, e.loudnessGlobal (exactEnv bs u) = .done (.ok v) ∧ e.relativeThreshold (exactEnv bs u) = .ok t ∧ t + 10 ≤ v := by
  have hrec : recorded [e] = q := by
    unfold recorded
    rw [List.flatMap_cons, List.flatMap_nil, List.append_nil, hq]
    rfl
  have he : Measuring bs u [e] := fun x hx => by rw [List.mem_singleton.1 hx]; exact ⟨hr, hI⟩
  obtain ⟨hP, hv⟩ := C69_integrated he (by rw [hrec]; exact h)
  rw [C39_one hr, hrec] at hv
  rw [hrec] at hP
  refine ⟨_, _, hv, exact_threshold hI hq hP.ne, ?_⟩
  have : gateLevel (exactEnv bs u) q = meanR q / 10 := by
    unfold gateLevel
    rw [exact_tenth_eq, exact_mean]
    show _ * (1 / 10) = meanR _ / 10
    unfold meanR
    rw [mul_one_div]
  rw [this, exact_lufs, lufs_tenth hP.mean_pos, sub_add_cancel]
  exact lufs_mono hP.mean_pos hP.mean_le

/-- **C69.** Only the blocks count: not their order, not the analyzers that recorded them, not the order of the analyzers,
and not how often the whole is repeated. -/
theorem C69_order {es es' : List (Ebu ℝ ℝ)} (he : Measuring bs u es) (he' : Measuring bs u es')
    (h : ∃ x ∈ recorded es, 0 < x) {k : Nat} (hk : 0 < k)
    (hp : (recorded es').Perm (List.replicate k (recorded es)).flatten) :
    loudnessGlobalMultiple (exactEnv bs u) es' = loudnessGlobalMultiple (exactEnv bs u) es := by
  have h' : ∃ x ∈ recorded es', 0 < x := by
    obtain ⟨x, hx, h0⟩ := h
    exact ⟨x, hp.mem_iff.2 (List.mem_flatten.2 ⟨_, List.mem_replicate.2 ⟨hk.ne', rfl⟩, hx⟩), h0⟩
  rw [(C69_integrated he h).2, (C69_integrated he' h').2, programmeR_perm hp, programmeR_repeat _ hk]

/-- **C69.** One block more: if it is as loud as the programme or louder, the integrated loudness does not fall; if it is
no louder than the mean of the blocks, that is 10 LU above the relative threshold, the integrated loudness does not rise. -/
theorem C69_more {es es' : List (Ebu ℝ ℝ)} (he : Measuring bs u es) (he' : Measuring bs u es')
    (h : ∃ x ∈ recorded es, 0 < x) {b : ℝ} (hb : 0 < b) (hp : (recorded es').Perm (b :: recorded es)) :
    ∃ v v', loudnessGlobalMultiple (exactEnv bs u) es = .done (.ok v) ∧
      loudnessGlobalMultiple (exactEnv bs u) es' = .done (.ok v') ∧
      (v ≤ lufs b → v ≤ v') ∧ (lufs b ≤ lufs (meanR (recorded es)) → v' ≤ v) := by
  obtain ⟨hP, hv⟩ := C69_integrated he h
  obtain ⟨hP', hv'⟩ := C69_integrated he' ⟨b, hp.mem_iff.2 (List.mem_cons_self ..), hb⟩
  refine ⟨_, _, hv, hv', ?_, ?_⟩
  · intro hl
    rw [programmeR_perm hp]
    exact lufs_mono hP.pos (hP.cons_louder ((lufs_le_iff hP.pos hb).1 hl))
  · intro hl
    rw [programmeR_perm hp]
    exact lufs_mono (hP.cons hb.le).pos (hP.cons_softer hb.le ((lufs_le_iff hb hP.mean_pos).1 hl))

/-- **C69.** Two programmes together are at least as loud as the softer of their ungated means. -/
theorem C69_together {es es' : List (Ebu ℝ ℝ)} (he : Measuring bs u es) (he' : Measuring bs u es')
    (h : ∃ x ∈ recorded es, 0 < x) (h' : ∃ x ∈ recorded es', 0 < x) :
    ∃ v, loudnessGlobalMultiple (exactEnv bs u) (es ++ es') = .done (.ok v) ∧
      min (lufs (meanR (recorded es))) (lufs (meanR (recorded es'))) ≤ v := by
  obtain ⟨hP, -⟩ := C69_integrated he h
  obtain ⟨hP', -⟩ := C69_integrated he' h'
  have hrec : recorded (es ++ es') = recorded es ++ recorded es' := by
    unfold recorded; rw [List.flatMap_append]
  have hM : Measuring bs u (es ++ es') := by
    intro e hm
    rcases List.mem_append.1 hm with hm | hm
    · exact he e hm
    · exact he' e hm
  obtain ⟨x, hx, h0⟩ := h
  obtain ⟨hQ, hv⟩ := C69_integrated hM ⟨x, by rw [hrec]; exact List.mem_append_left _ hx, h0⟩
  refine ⟨_, hv, ?_⟩
  have hm : min (meanR (recorded es)) (meanR (recorded es')) ≤ meanR (recorded (es ++ es')) := by
    rw [le_meanR_iff hQ.ne, hrec, List.sum_append, List.length_append]
    push_cast
    have h1 := (le_meanR_iff hP.ne (min (meanR (recorded es)) (meanR (recorded es')))).1 (min_le_left _ _)
    have h2 := (le_meanR_iff hP'.ne (min (meanR (recorded es)) (meanR (recorded es')))).1 (min_le_right _ _)
    linarith
  rcases min_choice (meanR (recorded es)) (meanR (recorded es')) with hc | hc
  · rw [hc] at hm
    exact le_trans (min_le_left _ _) (lufs_mono hP.mean_pos (le_trans hm hQ.mean_le))
  · rw [hc] at hm
    exact le_trans (min_le_right _ _) (lufs_mono hP'.mean_pos (le_trans hm hQ.mean_le))

/-! ## In histogram mode the order does not matter for a single bit -/

/-- **C69.** In histogram mode the history is bit for bit the same for every order of the blocks, on every target. -/
theorem C69_histogram {m : Libm F64} {t : Target} {c : List Nat} (hc : c.length = 1000) {xs ys : List F64}
    (hp : xs.Perm ys) : Run.foldL (History.add (ieeeEnv m bs t)) (.histogram c) xs =
      Run.foldL (History.add (ieeeEnv m bs t)) (.histogram c) ys := by
  obtain ⟨c1, h1, l1, g1⟩ := C33_counts (m := m) (bs := bs) (t := t) hc xs
  obtain ⟨c2, h2, l2, g2⟩ := C33_counts (m := m) (bs := bs) (t := t) hc ys
  rw [h1, h2]
  congr 2
  apply List.ext_getElem (by rw [l1, l2])
  intro i hi1 hi2
  have := g1 i
  rw [hp.countP_eq, ← g2 i, List.getD_eq_getElem?_getD, List.getD_eq_getElem?_getD, List.getElem?_eq_getElem hi1,
    List.getElem?_eq_getElem hi2] at this
  exact this

/-! ## What is not true

Energies below are in thousandths. -/

/-- Gated energy per block of some histories, as computed by the code. -/
def Demo.together (E : Env F64 F32) (qs : List (List Nat)) : F64 :=
  match gatingMultiple E (qs.map fun q => .queue (q.map fun x => Fl.lit Fmt.b64 (x : Int) 1000) 100) with
  | .done (.ok (n, x)) => Fl.div x (Fl.ofInt _ (n : Int))
  | _ => .nan

/-- Making a passage louder can make the programme softer: a block just below the gate rises above it. -/
theorem Demo.louder_softer :
    Fl.lt (Demo.together (Demo.envReal false) [[60, 1000]]) (Demo.together (Demo.envReal false) [[52, 1000]]) = true := by
  decide +kernel

/-- A further block that is softer than the programme can make it louder: it lifts the gate over another block. -/
theorem Demo.softer_louder :
    Fl.lt (Fl.lit _ 500 1000) (Demo.together (Demo.envReal false) [[10, 36, 1000]]) = true ∧
    Fl.lt (Demo.together (Demo.envReal false) [[10, 36, 1000]])
      (Demo.together (Demo.envReal false) [[10, 36, 1000, 500]]) = true := by
  decide +kernel

/-- An album can be louder than each of its tracks. -/
theorem Demo.album_louder :
    Fl.lt (Demo.together (Demo.envReal false) [[10, 10, 10, 365]])
      (Demo.together (Demo.envReal false) [[10, 10, 10, 365], [300]]) = true ∧
    Fl.lt (Demo.together (Demo.envReal false) [[300]])
      (Demo.together (Demo.envReal false) [[10, 10, 10, 365], [300]]) = true := by
  decide +kernel

/-- An album can be softer than each of its tracks. -/
theorem Demo.album_softer :
    Fl.lt (Demo.together (Demo.envReal false) [[52, 1000], [1, 1000]])
      (Demo.together (Demo.envReal false) [[52, 1000]]) = true ∧
    Fl.lt (Demo.together (Demo.envReal false) [[52, 1000], [1, 1000]])
      (Demo.together (Demo.envReal false) [[1, 1000]]) = true := by
  decide +kernel

/-! ## Cases -/

/-- An analyzer that has recorded a block, for the hypotheses above: alone, and twice in the list. -/
example (h64 : 2 ^ 64 - 1 ≤ u) : ∃ e : Ebu ℝ ℝ, Measuring bs u [e] ∧ Measuring bs u [e, e] ∧
    (∃ x ∈ recorded [e], 0 < x) ∧ (recorded [e, e]).Perm (List.replicate 2 (recorded [e])).flatten ∧
    loudnessGlobalMultiple (exactEnv bs u) [e, e] = e.loudnessGlobal (exactEnv bs u) := by
  obtain ⟨e0, hst, ha, hmode, -, ⟨max, hq⟩, -, hrun, ⟨g, hg⟩, -⟩ := C46_case (bs := bs) h64
  obtain ⟨hne, hge⟩ := hg g le_rfl
  obtain ⟨e, he⟩ := hrun 19200 g
  have hI : e0.mode.contains Mode.I = true := by rw [hmode]; decide
  have hops : ∀ op ∈ (Demo.click 19200).map (onInput (louder g)), Feed op := by
    intro op hop
    simp only [Demo.click, List.map_cons, List.map_nil, List.mem_singleton] at hop
    rw [hop]; trivial
  have b := (C13_blocks rfl hst ha hops he).1 hI
  rw [foldL_add _ hst.reachable.inv.hist] at b
  injection b with b
  obtain ⟨q, g1, -, g3, g4⟩ := foldl_scale (bs := bs) (u := u) (k := 1) max hge
    (fun x hx => by rw [one_mul]; exact hge x hx) [] (by simp)
  have hq' : e.blockEnergyHistory = .queue q max := by rw [← b, hq]; exact g1
  have hr := Reachable.run_ops hst.reachable he
  have hI' : e.mode.contains Mode.I = true := by rw [runFeeds_mode hops hst.reachable.inv he]; exact hI
  have h1 : Measuring bs u [e] := by
    intro x hx; rw [List.mem_singleton.1 hx]; exact ⟨hr, hI'⟩
  have h2 : Measuring bs u [e, e] := by
    intro x hx
    simp only [List.mem_cons, List.not_mem_nil, or_false, or_self] at hx
    rw [hx]; exact ⟨hr, hI'⟩
  have hrec : recorded [e] = q := by
    unfold recorded
    rw [List.flatMap_cons, List.flatMap_nil, List.append_nil, hq']
    rfl
  have hpos : ∃ x ∈ recorded [e], 0 < x := by
    obtain ⟨x, hx⟩ := List.exists_mem_of_ne_nil q (g4 hne)
    exact ⟨x, by rw [hrec]; exact hx, lt_of_lt_of_le absoluteGate_pos (g3 x hx)⟩
  have hperm : (recorded [e, e]).Perm (List.replicate 2 (recorded [e])).flatten := by
    unfold recorded
    simp [List.replicate]
  exact ⟨e, h1, h2, hpos, hperm, by rw [C69_order h1 h2 hpos (by omega) hperm, C39_one hr]⟩

end Verif
