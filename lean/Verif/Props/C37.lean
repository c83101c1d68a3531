import Verif.Spec.Range
import Verif.Proofs.PercentileExact
import Verif.Props.C51
import Verif.Props.C31
/-!
# C37: loudness range in queue mode
-/

namespace Verif
open Spec Fl
variable {m : Libm F64} {bs : BSearch} {t : Target}

/-! ### Sorting -/

theorem sortLe_num {x y : F64} (hx : x.isNan = false) (hy : y.isNan = false) :
    sortLe (Fl.arith Fmt.b64) x y = Fl.le x y := by
  have h1 := Fl.le_rank hx hy
  have h2 := Fl.le_rank hy hx
  show (if (Fl.le x y || Fl.le y x) = true then Fl.le x y else _) = _
  rw [if_pos]
  rw [Bool.or_eq_true, h1, h2]
  omega

/-- The comparison closure of the sort is a total preorder. -/
theorem sortLe_trans (x y z : F64) (h1 : sortLe (Fl.arith Fmt.b64) x y = true)
    (h2 : sortLe (Fl.arith Fmt.b64) y z = true) : sortLe (Fl.arith Fmt.b64) x z = true := by
  cases x with
  | nan =>
    cases y with
    | nan => exact h2
    | num => cases h1
  | num s k hk =>
    cases z with
    | nan => rfl
    | num s' k' hk' =>
      cases y with
      | nan => cases h2
      | num s'' k'' hk'' =>
        rw [sortLe_num rfl rfl] at *
        exact Fl.le_trans h1 h2

theorem sortLe_total (x y : F64) : (sortLe (Fl.arith Fmt.b64) x y || sortLe (Fl.arith Fmt.b64) y x) = true := by
  cases x with
  | nan => cases y <;> rfl
  | num s k hk =>
    cases y with
    | nan => rfl
    | num s' k' hk' =>
      rw [sortLe_num rfl rfl, sortLe_num rfl rfl, Bool.or_eq_true, Fl.le_rank rfl rfl, Fl.le_rank rfl rfl]
      omega

/-- In ascending order. -/
def Spec.Ascending (l : List F64) : Prop := l.Pairwise fun x y => Fl.le x y = true

theorem Fl.Nonneg.antisymm {φ : Fmt} {x y : Fl φ} (hx : x.Nonneg) (hy : y.Nonneg) (h1 : Fl.le x y = true)
    (h2 : Fl.le y x = true) : x = y := by
  obtain ⟨k, hk, rfl⟩ := hx.out
  obtain ⟨l, hl, rfl⟩ := hy.out
  rw [le_pos, decide_eq_true_eq] at h1 h2
  obtain rfl : k = l := by omega
  rfl

/-- There is one way to put non-negative numbers in order, and the sort finds it. -/
theorem sorted_unique {q s : List F64} (hq : ∀ x ∈ q, x.Nonneg) (hp : s.Perm q) (hs : Ascending s) :
    q.mergeSort (sortLe (Fl.arith Fmt.b64)) = s := by
  have hperm := List.mergeSort_perm q (sortLe (Fl.arith Fmt.b64))
  have hsort : Ascending (q.mergeSort (sortLe (Fl.arith Fmt.b64))) := by
    have h := List.pairwise_mergeSort sortLe_trans sortLe_total q
    refine List.Pairwise.imp_of_mem ?_ h
    intro a b ha hb hab
    rwa [sortLe_num (hq a (hperm.mem_iff.1 ha)).not_nan (hq b (hperm.mem_iff.1 hb)).not_nan] at hab
  exact List.Perm.eq_of_pairwise (le := fun x y => Fl.le x y = true)
    (fun a b ha hb => Fl.Nonneg.antisymm (hq a (hperm.mem_iff.1 ha)) (hq b (hp.mem_iff.1 hb)))
    hsort hs (hperm.trans hp.symm)

/-- On an ascending list, dropping from the front is the same as filtering. -/
theorem dropWhile_ascending {l : List F64} (h : Ascending l) (g : F64) :
    l.dropWhile (fun v => Fl.lt v g) = l.filter fun v => !Fl.lt v g := by
  induction l with
  | nil => rfl
  | cons x l ih =>
    obtain ⟨h1, h2⟩ := List.pairwise_cons.1 h
    by_cases hx : Fl.lt x g = true
    · rw [List.dropWhile_cons_of_pos (p := fun v => Fl.lt v g) hx, List.filter_cons_of_neg (by simpa using hx), ih h2]
    · rw [List.dropWhile_cons_of_neg (p := fun v => Fl.lt v g) hx, List.filter_eq_self.2]
      intro y hy
      rcases List.mem_cons.1 hy with rfl | hy
      · simpa using hx
      · rw [Bool.not_eq_true', Bool.eq_false_iff]
        exact fun hc => hx (Fl.lt_of_le_of_lt (h1 y hy) hc)

/-! ### The range -/

/-- Selecting by the code's percentile indices is selecting by nearest rank. -/
theorem spread_eq {g : List F64} (hl : g.length ≤ 2 ^ 46) {max : Nat} (hmax : g.length ≤ max + 1) (d : F64) :
    (if g = [] then (ieeeEnv m bs t).f64.zero
      else (ieeeEnv m bs t).f64.sub
        (energyToLoudness (ieeeEnv m bs t) (g.getD (percentile (ieeeEnv m bs t) max (g.length - 1) 95 100) d))
        (energyToLoudness (ieeeEnv m bs t) (g.getD (percentile (ieeeEnv m bs t) max (g.length - 1) 1 10) d))) =
      spread (ieeeEnv m bs t) g := by
  by_cases h0 : g = []
  · subst h0; rfl
  have hpos := List.length_pos_of_ne_nil h0
  rw [if_neg h0, percentile_95 rfl (by omega) (by omega), percentile_10 rfl (by omega) (by omega)]
  have r1 : (19 * (g.length - 1) + 10) / 20 = nearestRank g.length 95 100 := by unfold nearestRank; omega
  have r2 : (g.length - 1 + 5) / 10 = nearestRank g.length 10 100 := by unfold nearestRank; omega
  rw [r1, r2]
  have l1 := nearestRank_lt (num := 95) (den := 100) hpos (by omega) (by omega)
  have l2 := nearestRank_lt (num := 10) (den := 100) hpos (by omega) (by omega)
  unfold spread
  rw [List.getD_eq_getElem?_getD, List.getD_eq_getElem?_getD, List.getElem?_eq_getElem l1, List.getElem?_eq_getElem l2]
  rfl

theorem queueRange_eq {q s : List F64} (hq : ∀ x ∈ q, x.Nonneg) (hp : s.Perm q) (hs : Ascending s)
    (hl : q.length ≤ 2 ^ 46) (hmax : q.length ≤ t.usizeMax + 1) :
    queueRangeP (ieeeEnv m bs t) (q.mergeSort (sortLe (ieeeEnv m bs t).f64)) = rangeOf (ieeeEnv m bs t) s := by
  rw [ieee_f64, sorted_unique hq hp hs]
  unfold queueRangeP rangeOf notBelow
  rw [gateFactor_hundredth]
  have hm : (ieeeEnv m bs t).f64.div (sumD (ieeeEnv m bs t).f64 s) ((ieeeEnv m bs t).f64.ofInt s.length) =
    mean (ieeeEnv m bs t).f64 s := rfl
  rw [hm]
  generalize (ieeeEnv m bs t).f64.mul (hundredth (ieeeEnv m bs t)) (mean (ieeeEnv m bs t).f64 s) = gate
  have hd := dropWhile_ascending hs gate
  have hf : (s.filter fun v => !Fl.lt v gate).length ≤ q.length := by
    rw [← hp.length_eq]; exact List.length_filter_le ..
  show (if s.dropWhile (fun v => Fl.lt v gate) = [] then _ else _) = spread _ (s.filter fun v => !Fl.lt v gate)
  simp only [show (fun v => (ieeeEnv m bs t).f64.lt v gate) = fun v => Fl.lt v gate from rfl]
  rw [hd]
  exact spread_eq (le_trans hf hl) (le_trans hf hmax) _

/-- **C37.** In queue mode the loudness range is that of EBU Tech 3342: of the stored energies in ascending order,
those not below 1 % of the mean are kept, and the range is the difference in loudness between their 95 % and
10 % nearest-rank percentiles (zero if nothing is stored). -/
theorem C37_range {e : Ebu F64 F32} (ht : t.usizeMax ≤ 2 ^ 64) (hr : Reachable (ieeeEnv m bs t) e)
    (hL : e.mode.contains Mode.LRA = true) {q : List F64} {max : Nat}
    (hq : e.shortTermBlockEnergyHistory = .queue q max) (hn : .nan ∉ q) {s : List F64} (hp : s.Perm q)
    (hs : Ascending s) (hl : q.length ≤ 2 ^ 46) (hmax : q.length ≤ t.usizeMax + 1) :
    e.loudnessRange (ieeeEnv m bs t) = .done (.ok (rangeOf (ieeeEnv m bs t) s)) := by
  rw [Ebu.loudnessRange_eq (percentile_le rfl ht) (percentile_le rfl (by unfold u64Max; omega)) hr.inv, if_pos hL, hq]
  congr 2
  unfold rangeP
  have ha : ¬ (2 ≤ q.length ∧ q.any (ieeeEnv m bs t).f64.isNan = true) := by
    rintro ⟨-, h⟩
    obtain ⟨x, hx, hxn⟩ := List.any_eq_true.1 h
    cases x with
    | nan => exact hn hx
    | num => cases hxn
  have hnn : ∀ x ∈ q, x.Nonneg := by
    intro x hx
    have := (C32_stored hr).2 hq x hx
    cases x with
    | nan => exact absurd hx hn
    | num => exact this
  simp only
  rw [if_neg ha]
  exact queueRange_eq hnn hp hs hl hmax

/-- **C37.** The range of nothing is zero. -/
theorem C37_empty {e : Ebu F64 F32} (ht : t.usizeMax ≤ 2 ^ 64) (hr : Reachable (ieeeEnv m bs t) e)
    (hL : e.mode.contains Mode.LRA = true) {max : Nat} (hq : e.shortTermBlockEnergyHistory = .queue [] max) :
    e.loudnessRange (ieeeEnv m bs t) = .done (.ok (zero false)) :=
  C37_range ht hr hL hq List.not_mem_nil (.refl _) .nil (Nat.zero_le _) (Nat.zero_le _)

/-- **C37.** Whatever is stored, and however much, no index is out of bounds: there is a result. -/
theorem C37_total {e : Ebu F64 F32} (ht : t.usizeMax ≤ 2 ^ 64) (hr : Reachable (ieeeEnv m bs t) e)
    (hL : e.mode.contains Mode.LRA = true) : ∃ x, e.loudnessRange (ieeeEnv m bs t) = .done (.ok x) := by
  rw [Ebu.loudnessRange_eq (percentile_le rfl ht) (percentile_le rfl (by unfold u64Max; omega)) hr.inv, if_pos hL]
  exact ⟨_, rfl⟩

/-- **C37.** The order in which energies were stored does not matter. -/
theorem C37_order {e1 e2 : Ebu F64 F32} (ht : t.usizeMax ≤ 2 ^ 64) (h1 : Reachable (ieeeEnv m bs t) e1)
    (h2 : Reachable (ieeeEnv m bs t) e2) (l1 : e1.mode.contains Mode.LRA = true)
    (l2 : e2.mode.contains Mode.LRA = true) {q1 q2 : List F64} {max1 max2 : Nat}
    (hq1 : e1.shortTermBlockEnergyHistory = .queue q1 max1) (hq2 : e2.shortTermBlockEnergyHistory = .queue q2 max2)
    (hp : q1.Perm q2) : e1.loudnessRange (ieeeEnv m bs t) = e2.loudnessRange (ieeeEnv m bs t) := by
  have pc : PctOk (ieeeEnv m bs t) (ieeeEnv m bs t).usizeMax := percentile_le rfl ht
  have pc' : PctOk (ieeeEnv m bs t) u64Max := percentile_le rfl (by unfold u64Max; omega)
  rw [Ebu.loudnessRange_eq pc pc' h1.inv, Ebu.loudnessRange_eq pc pc' h2.inv, if_pos l1, if_pos l2, hq1, hq2]
  congr 2
  unfold rangeP
  simp only
  have ha : q1.any (ieeeEnv m bs t).f64.isNan = q2.any (ieeeEnv m bs t).f64.isNan := hp.any_eq
  rw [hp.length_eq, ha]
  split
  · rfl
  · next hc =>
    by_cases hlen : 2 ≤ q2.length
    · have hn : ∀ x ∈ q2, x.isNan = false := by
        intro x hx
        rw [Bool.eq_false_iff]
        exact fun h => hc ⟨hlen, List.any_eq_true.2 ⟨x, hx, h⟩⟩
      have hnn : ∀ x ∈ q2, x.Nonneg := by
        intro x hx
        have h3 := (C32_stored h2).2 hq2 x hx
        have h4 := hn x hx
        cases x with
        | nan => cases h4
        | num => exact h3
      have hperm := List.mergeSort_perm q2 (sortLe (Fl.arith Fmt.b64))
      have hsort : Ascending (q2.mergeSort (sortLe (Fl.arith Fmt.b64))) := by
        refine List.Pairwise.imp_of_mem ?_ (List.pairwise_mergeSort sortLe_trans sortLe_total q2)
        intro a b ha hb hab
        rwa [sortLe_num (hn a (hperm.mem_iff.1 ha)) (hn b (hperm.mem_iff.1 hb))] at hab
      rw [ieee_f64, sorted_unique (fun x hx => hnn x (hp.mem_iff.1 hx)) (hperm.trans hp.symm) hsort]
    · have : q1 = q2 := by
        match q2, hp, hlen with
        | [], hp, _ => exact hp.eq_nil
        | [x], hp, _ => exact List.perm_singleton.1 hp
        | _ :: _ :: _, _, hlen => exact absurd (by simp) hlen
      rw [this]

/-! ### Sign -/

theorem spread_not_neg (hm : MonotoneLog m) {l : List F64} (hl : Ascending l) (hn : ∀ x ∈ l, x.Nonneg) :
    Fl.lt (spread (ieeeEnv m bs t) l) (zero false) = false := by
  unfold spread
  by_cases h0 : l = []
  · subst h0; rfl
  have hpos := List.length_pos_of_ne_nil h0
  have l1 := nearestRank_lt (num := 95) (den := 100) hpos (by omega) (by omega)
  have l2 := nearestRank_lt (num := 10) (den := 100) hpos (by omega) (by omega)
  rw [List.getElem?_eq_getElem l1, List.getElem?_eq_getElem l2]
  refine Fl.sub_not_neg Fmt.b64_mb (C51_loudness (hm _ _ (hn _ (List.getElem_mem l2)) ?_))
  have hle : nearestRank l.length 10 100 ≤ nearestRank l.length 95 100 := by unfold nearestRank; omega
  rcases Nat.lt_or_eq_of_le hle with h | h
  · exact List.pairwise_iff_getElem.1 hl _ _ l2 l1 h
  · simp only [h]
    exact Fl.le_refl (hn _ (List.getElem_mem l1)).not_nan

/-- **C37.** With a `log10` that keeps the order the range is never negative. -/
theorem C37_sign (hm : MonotoneLog m) {e : Ebu F64 F32} (ht : t.usizeMax ≤ 2 ^ 64) (hr : Reachable (ieeeEnv m bs t) e)
    (hL : e.mode.contains Mode.LRA = true) {q : List F64} {max : Nat}
    (hq : e.shortTermBlockEnergyHistory = .queue q max) (hl : q.length ≤ 2 ^ 46) (hmax : q.length ≤ t.usizeMax + 1)
    (hn : .nan ∉ q) {x : F64} (hx : e.loudnessRange (ieeeEnv m bs t) = .done (.ok x)) :
    Fl.lt x (zero false) = false := by
  have hnn : ∀ x ∈ q, x.Nonneg := by
    intro x hx
    have := (C32_stored hr).2 hq x hx
    cases x with
    | nan => exact absurd hx hn
    | num => exact this
  have hperm := List.mergeSort_perm q (sortLe (Fl.arith Fmt.b64))
  have hsort : Ascending (q.mergeSort (sortLe (Fl.arith Fmt.b64))) := by
    refine List.Pairwise.imp_of_mem ?_ (List.pairwise_mergeSort sortLe_trans sortLe_total q)
    intro a b ha hb hab
    rwa [sortLe_num (hnn a (hperm.mem_iff.1 ha)).not_nan (hnn b (hperm.mem_iff.1 hb)).not_nan] at hab
  rw [C37_range ht hr hL hq hn hperm hsort hl hmax, Run.done.injEq, Except.ok.injEq] at hx
  rw [← hx]
  refine spread_not_neg hm (List.Pairwise.sublist List.filter_sublist hsort) fun y hy => ?_
  exact hnn y (hperm.mem_iff.1 (List.mem_of_mem_filter hy))

/-- A `log10` under which every positive finite energy has a finite loudness. -/
def Spec.FiniteLog (m : Libm F64) (bs : BSearch) (t : Target) : Prop :=
  ∀ x : F64, x.Nonneg → x ≠ zero false → x.Finite → (lufsD (ieeeEnv m bs t) x).Finite

theorem Fl.Finite.sub_not_nan {φ : Fmt} {x y : Fl φ} (hx : x.Finite) (hy : y.Finite) : (sub x y).isNan = false := by
  obtain ⟨s, k, hk, rfl, k0⟩ := hx
  obtain ⟨s', l, hl, rfl, l0⟩ := hy
  unfold sub neg add
  simp only [if_neg k0, if_neg l0]
  exact ofSMag_not_nan _ _

/-- **C37.** If moreover the stored energies are finite and none is zero, and such energies have finite loudness, the
range is a number that is at least zero. (Zero energies only enter by `set_max_history`, see
`Demo.padded_range`.) -/
theorem C37_nonneg (hm : MonotoneLog m) (hf : FiniteLog m bs t) {e : Ebu F64 F32} (ht : t.usizeMax ≤ 2 ^ 64)
    (hr : Reachable (ieeeEnv m bs t) e) (hL : e.mode.contains Mode.LRA = true) {q : List F64} {max : Nat}
    (hq : e.shortTermBlockEnergyHistory = .queue q max) (hl : q.length ≤ 2 ^ 46) (hmax : q.length ≤ t.usizeMax + 1)
    (hfin : ∀ x ∈ q, x.Finite ∧ x ≠ zero false) :
    ∃ x, e.loudnessRange (ieeeEnv m bs t) = .done (.ok x) ∧ Fl.le (zero false) x = true := by
  have hn : .nan ∉ q := by
    intro h
    obtain ⟨⟨s, k, hk, he, -⟩, -⟩ := hfin _ h
    cases he
  have hnn : ∀ x ∈ q, x.Nonneg := by
    intro x hx
    have := (C32_stored hr).2 hq x hx
    cases x with
    | nan => exact absurd hx hn
    | num => exact this
  have hperm := List.mergeSort_perm q (sortLe (Fl.arith Fmt.b64))
  have hsort : Ascending (q.mergeSort (sortLe (Fl.arith Fmt.b64))) := by
    refine List.Pairwise.imp_of_mem ?_ (List.pairwise_mergeSort sortLe_trans sortLe_total q)
    intro a b ha hb hab
    rwa [sortLe_num (hnn a (hperm.mem_iff.1 ha)).not_nan (hnn b (hperm.mem_iff.1 hb)).not_nan] at hab
  have hres := C37_range ht hr hL hq hn hperm hsort hl hmax
  refine ⟨_, hres, ?_⟩
  rw [← Fl.not_lt ?_ rfl]
  · exact C37_sign hm ht hr hL hq hl hmax hn hres
  · unfold rangeOf
    generalize hk : notBelow _ _ _ = kept
    have hmem : ∀ x ∈ kept, x ∈ q := by
      intro x hx
      rw [← hk] at hx
      exact hperm.mem_iff.1 (List.mem_of_mem_filter hx)
    have hfk : ∀ x ∈ kept, (lufsD (ieeeEnv m bs t) x).Finite := fun x hx =>
      hf x (hnn x (hmem x hx)) (hfin x (hmem x hx)).2 (hfin x (hmem x hx)).1
    unfold spread
    split
    · next h1 h2 => exact Fl.Finite.sub_not_nan (hfk _ (List.mem_of_getElem? h1)) (hfk _ (List.mem_of_getElem? h2))
    · rfl

/-! ### Cases -/

/-- Eleven energies `1/10000, 1/10, …, 1` (in tenths): the smallest is below the gate; of the other ten, the lowest but one
and the highest count. -/
def Demo.tenths : List F64 := Fl.lit _ 1 10000 :: (List.range 10).map fun i => Fl.lit _ (i + 1 : Nat) 10

example : rangeOf (Demo.envReal false) Demo.tenths =
    Fl.sub (lufsD (Demo.envReal false) (Fl.lit _ 10 10)) (lufsD (Demo.envReal false) (Fl.lit _ 2 10)) := by
  decide +kernel

/-- The queue as stored, not in order. -/
example : queueRangeP (Demo.envReal false) (Demo.tenths.reverse.mergeSort (sortLe (Demo.envReal false).f64)) =
    rangeOf (Demo.envReal false) Demo.tenths := by
  refine queueRange_eq (fun x hx => ?_) (List.reverse_perm _).symm ?_ (by decide) (by decide)
  · rw [List.mem_reverse] at hx
    revert x
    show ∀ x ∈ Demo.tenths, x.Nonneg
    have : Demo.tenths.all (fun x => match x with | .num false _ _ => true | _ => false) = true := by decide +kernel
    intro x hx
    have := List.all_eq_true.1 this x hx
    cases x with
    | nan => cases this
    | num s => cases s <;> first | rfl | cases this
  · have : Demo.tenths.Pairwise fun x y => Fl.le x y = true := by decide +kernel
    exact this

theorem Demo.padded_queue : (Demo.after (Demo.envReal false) 30 Mode.LRA [.setMaxHistory 9000]).map (fun e =>
    decide (Demo.queueOf e.shortTermBlockEnergyHistory = List.replicate 3 (Fl.zero false)) &&
      e.mode.contains Mode.LRA) = some true := by decide +kernel

theorem Demo.zero_range : rangeOf (Demo.envReal false) (List.replicate 3 (Fl.zero false)) = .nan := by decide +kernel

/-- The zeros `set_max_history` stores in a new analyzer make its loudness range NaN. -/
theorem Demo.padded_range : ∃ e : Ebu F64 F32, Reachable (Demo.envReal false) e ∧
    Demo.queueOf e.shortTermBlockEnergyHistory = List.replicate 3 (Fl.zero false) ∧
    e.loudnessRange (Demo.envReal false) = .done (.ok .nan) := by
  obtain ⟨e, hr, hp⟩ := Demo.after_spec (by decide) (by decide) (by decide) Demo.padded_queue
  simp only [Bool.and_eq_true, decide_eq_true_eq] at hp
  obtain ⟨h1, h2⟩ := hp
  obtain ⟨max, hq⟩ := Demo.queueOf_eq (h := e.shortTermBlockEnergyHistory) h1 (by simp)
  refine ⟨e, hr, h1, ?_⟩
  rw [← Demo.zero_range]
  refine C37_range (by decide) hr h2 hq ?_ (.refl _) ?_ (by decide) (by decide)
  · simp [zero]
  · exact List.pairwise_replicate.2 (.inr rfl)

/-- Two numbers in descending order. -/
def Demo.twoDown : List F64 → Bool
  | [x, y] => Fl.lt y x
  | _ => false

theorem Demo.twoDown_spec {q : List F64} (h : Demo.twoDown q = true) : .nan ∉ q ∧ q.length = 2 ∧ ¬ Ascending q := by
  match q, h with
  | [.num s k hk, .num s' l hl], h =>
    refine ⟨by simp, rfl, fun ha => ?_⟩
    have h1 : Fl.lt (.num s' l hl) (.num s k hk : F64) = true := h
    have h2 := (List.pairwise_cons.1 ha).1 _ (List.mem_singleton.2 rfl)
    rw [Fl.lt_rank rfl rfl] at h1
    rw [Fl.le_rank rfl rfl] at h2
    omega
  | [.nan, y], h => cases y <;> cases h
  | [.num .., .nan], h => cases h

/-- An analyzer that has heard a loud and a quiet part. -/
theorem Demo.range_queue : (Demo.after (Demo.envReal false) 30 Mode.LRA
    [.addFrames (.i16 (List.replicate 30 20000)), .addFrames (.i16 (List.replicate 90 500))]).map (fun e =>
    Demo.twoDown (Demo.queueOf e.shortTermBlockEnergyHistory) && e.mode.contains Mode.LRA) = some true := by
  decide +kernel

/-- Its energies are stored out of order; the theorems apply. -/
example : ∃ (e : Ebu F64 F32) (q : List F64) (max : Nat), Reachable (Demo.envReal false) e ∧
    e.mode.contains Mode.LRA = true ∧ e.shortTermBlockEnergyHistory = .queue q max ∧ .nan ∉ q ∧ q.length = 2 ∧
    ¬ Ascending q := by
  obtain ⟨e, hr, hp⟩ := Demo.after_spec (by decide) (by decide) (by decide) Demo.range_queue
  rw [Bool.and_eq_true] at hp
  obtain ⟨h1, h4⟩ := hp
  obtain ⟨h1, h2, h3⟩ := Demo.twoDown_spec h1
  obtain ⟨max, hq⟩ := Demo.queueOf_eq (h := e.shortTermBlockEnergyHistory) rfl (by
    intro h; rw [h] at h2; cases h2)
  exact ⟨e, _, max, hr, h4, hq, h1, h2, h3⟩

end Verif
