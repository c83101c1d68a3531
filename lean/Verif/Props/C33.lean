import Verif.Proofs.Orders
import Verif.Props.C35
import Verif.Props.C61
/-!
# C33, C36 in histogram mode: gating over the bins
-/

set_option linter.unusedSimpArgs false

namespace Verif
open Spec Fl
variable {m : Libm F64} {bs : BSearch} {t : Target} {u : Nat}
variable {D S : Type}

/-! ## Preparations -/

theorem binTotal_congr (A : Arith D) {v w : Nat → D} (c : Nat → Nat) {bins : List Nat} (h : ∀ i ∈ bins, v i = w i) :
    binTotal A v c bins = binTotal A w c bins := by
  unfold binTotal
  generalize A.zero = s
  induction bins generalizing s with
  | nil => rfl
  | cons i l ih =>
    rw [List.foldl_cons, List.foldl_cons, h i (List.mem_cons_self ..)]
    exact ih (fun j hj => h j (List.mem_cons_of_mem _ hj)) _

theorem binsFrom_congr (A : Arith D) {v w : Nat → D} (h : ∀ i < 1000, v i = w i) (g : D) :
    binsFrom A v g = binsFrom A w g := by
  unfold binsFrom
  apply List.filter_congr
  intro i hi
  rw [h i (mem_allBins.1 hi)]

theorem binGate_congr (E : Env D S) {v w : Nat → D} (h : ∀ i < 1000, v i = w i) (c : Nat → Nat) :
    binGate E v c = binGate E w c := by
  unfold binGate binMean
  rw [binTotal_congr E.f64 c (fun i hi => h i (mem_allBins.1 hi))]

theorem binGate_eq (E : Env D S) (v : Nat → D) (c : Nat → Nat) : binGate E v c =
    E.f64.mul (E.f64.div (binTotal E.f64 v c allBins) (E.f64.ofInt (binCount c allBins))) (tenth E) := rfl

theorem energyToLoudness_eq (E : Env D S) (x : D) : energyToLoudness E x = lufsD E x := rfl

theorem mem_binsFrom {A : Arith D} {v : Nat → D} {g : D} {i : Nat} :
    i ∈ binsFrom A v g ↔ i < 1000 ∧ A.le g (v i) = true := by
  unfold binsFrom
  rw [List.mem_filter, mem_allBins]

theorem binGated_congr (E : Env D S) {v w : Nat → D} (h : ∀ i < 1000, v i = w i) (c : Nat → Nat) :
    binGated E v c = binGated E w c := by
  unfold binGated
  simp only
  rw [binGate_congr E h, binsFrom_congr E.f64 h]
  rw [binTotal_congr E.f64 c (fun i hi => h i (mem_binsFrom.1 hi).1)]

theorem Fl.ofInt_nonneg {φ : Fmt} (n : Nat) : (Fl.ofInt φ (n : Int)).Nonneg := by
  rw [Fl.ofInt_pos]
  rfl

theorem Fl.centre_pos {i : Nat} (hi : i < 1000) : ∃ k h, centre i = .num false k h ∧ k ≠ 0 ∧ k ≠ Fmt.b64.infK := by
  obtain ⟨h, e⟩ := centre_key i
  have h1 := bkey_pos (i := i) (by omega)
  have h2 := bkey_lt_ekey hi
  exact ⟨_, h, e, by omega, (ekey_fin hi).ne⟩

/-- A product of non-negative numbers with one factor positive and finite is non-negative. -/
theorem Fl.Nonneg.mul_fin {φ : Fmt} {x y : Fl φ} (hx : x.Nonneg) {k : Nat} {h : k ≤ φ.infK}
    (hy : y = .num false k h) (h0 : k ≠ 0) (h1 : k ≠ φ.infK) : (Fl.mul x y).Nonneg := by
  obtain ⟨l, hl, rfl⟩ := hx.out
  subst hy
  by_cases hli : l = φ.infK
  · simp only [Fl.mul, if_pos hli, if_neg h0]
    rfl
  · rw [Fl.mul_pos hli h1]
    rfl

theorem Fl.Nonneg.div_fin {φ : Fmt} {x y : Fl φ} (hx : x.Nonneg) {k : Nat} {h : k ≤ φ.infK}
    (hy : y = .num false k h) (h0 : k ≠ 0) (h1 : k ≠ φ.infK) : (Fl.div x y).Nonneg := by
  obtain ⟨l, hl, rfl⟩ := hx.out
  subst hy
  by_cases hli : l = φ.infK
  · simp only [Fl.div, if_pos hli, if_neg h1]
    rfl
  · rw [Fl.div_pos hli h1 h0]
    rfl

theorem Fl.rnd_int_pos {φ : Fmt} (hmb : 1 ≤ φ.mb) (hi : 1 ≤ φ.infK) {n : Nat} (hn : n ≠ 0) :
    φ.rnd (n * 2 ^ φ.u) 1 ≠ 0 := by
  intro h
  have h1 := φ.rnd_mag hmb hi Nat.one_pos
  have h2 : φ.mag 1 = 1 := φ.mag_small (by have := Nat.two_pow_pos φ.mb; omega)
  have h3 : φ.rnd (φ.mag 1 * 1) 1 ≤ φ.rnd (n * 2 ^ φ.u) 1 := by
    apply φ.rnd_mono hmb Nat.one_pos Nat.one_pos
    rw [h2]
    have := Nat.mul_pos (Nat.pos_of_ne_zero hn) (Nat.two_pow_pos φ.u)
    omega
  omega

theorem binTotal_nonneg (c : Nat → Nat) {bins : List Nat} (hb : ∀ i ∈ bins, i < 1000) :
    (binTotal (Fl.arith Fmt.b64) centre c bins).Nonneg := by
  unfold binTotal
  have hs : (Fl.zero false : F64).Nonneg := rfl
  change (bins.foldl _ (Fl.zero false)).Nonneg
  generalize (Fl.zero false : F64) = s at hs
  induction bins generalizing s with
  | nil => exact hs
  | cons i l ih =>
    rw [List.foldl_cons]
    apply ih (fun j hj => hb j (List.mem_cons_of_mem _ hj))
    obtain ⟨k, hk, e, h0, h1⟩ := Fl.centre_pos (hb i (List.mem_cons_self ..))
    exact Fl.Nonneg.add Fmt.b64_mb hs ((Fl.ofInt_nonneg _).mul_fin e h0 h1)

theorem range_lt : ∀ i ∈ allBins, i < 1000 := fun _ h => mem_allBins.1 h

theorem Fl.Nonneg.ne_negzero {φ : Fmt} {x : Fl φ} (h : x.Nonneg) : x ≠ Fl.zero true := by
  rintro rfl
  cases h

theorem hist_length {E : Env D S} {e : Ebu D S} (hr : Reachable E e) {c : List Nat}
    (hc : e.blockEnergyHistory = .histogram c) : c.length = 1000 := by
  have := hr.inv.hist
  rw [hc] at this
  exact this

theorem gating_hist_ieee {c : List Nat} (hc : c.length = 1000)
    (hg : (binGate (ieeeEnv m bs t) centre (fun i => c.getD i 0)).isNan = false) :
    gatingMultP (ieeeEnv m bs t) [.histogram c] =
      gateOutcome (binGated (ieeeEnv m bs t) centre (fun i => c.getD i 0)) := by
  have hv : ∀ i < 1000, binEnergy (ieeeEnv m bs t) i = centre i := fun i hi => binEnergy_centre hi
  have ht : binTotal (ieeeEnv m bs t).f64 (binEnergy (ieeeEnv m bs t)) (fun i => c.getD i 0) allBins =
      binTotal (Fl.arith Fmt.b64) centre (fun i => c.getD i 0) allBins :=
    binTotal_congr _ _ (fun i hi => hv i (mem_allBins.1 hi))
  have hn := binTotal_nonneg (fun i => c.getD i 0) range_lt
  rw [gating_hist ieee_order hc gateFactor_tenth, binGated_congr _ hv]
  · rw [ht]
    exact Fl.zero_add Fmt.ok64 hn.ne_negzero
  · rw [ht]
    exact hn.not_nan
  · intro _
    rw [binGate_congr _ hv]
    exact hg

theorem Fmt.one_le_infK : 1 ≤ Fmt.b64.infK := by decide

/-! ## Statements -/

/-- **C33.** In histogram mode the gating count and energy are those of the bins at or above the relative gate,
which is formed from the bin centres. -/
theorem C33_gating {e : Ebu F64 F32} (hr : Reachable (ieeeEnv m bs t) e) {c : List Nat}
    (hc : e.blockEnergyHistory = .histogram c)
    (hg : (binGate (ieeeEnv m bs t) centre (fun i => c.getD i 0)).isNan = false) :
    e.gatingBlockCountAndEnergy (ieeeEnv m bs t) =
      .done (binGated (ieeeEnv m bs t) centre (fun i => c.getD i 0)) := by
  apply count_outcome hr.inv
  rw [hc]
  exact gating_hist_ieee (hist_length hr hc) hg

/-- **C33.** In histogram mode `loudness_global` is the two-stage gate over the bin centres. -/
theorem C33_loudness {e : Ebu F64 F32} (hr : Reachable (ieeeEnv m bs t) e) (hI : e.mode.contains Mode.I = true)
    {c : List Nat} (hc : e.blockEnergyHistory = .histogram c)
    (hg : (binGate (ieeeEnv m bs t) centre (fun i => c.getD i 0)).isNan = false) :
    e.loudnessGlobal (ieeeEnv m bs t) =
      .done (.ok (binIntegrated (ieeeEnv m bs t) centre (fun i => c.getD i 0))) := by
  rw [Ebu.loudnessGlobal_eq hr.inv, if_pos hI, hc, gated_outcome (gating_hist_ieee (hist_length hr hc) hg),
    binIntegrated]

theorem Fl.ofInt_fin {n : Nat} (h0 : n ≠ 0) (h1 : n < 2 ^ 99) :
    ∃ k h, Fl.ofInt Fmt.b64 (n : Int) = .num false k h ∧ k ≠ 0 ∧ k ≠ Fmt.b64.infK := by
  obtain ⟨l, hl, e, hb⟩ := ofInt_nat n
  refine ⟨l, hl, e, ?_, ?_⟩
  · rintro rfl
    rw [Fl.ofInt_pos] at e
    injection e with _ e
    exact Fl.rnd_int_pos Fmt.b64_mb Fmt.one_le_infK h0 e
  · apply fin_of_mag_lt
    have := mag_inf_b64
    have hU := U64_pos
    generalize Fmt.b64.mag Fmt.b64.infK = y at *
    generalize Fmt.b64.mag l = x at *
    have : n * U64 ≤ 2 ^ 99 * U64 := Nat.mul_le_mul_right _ h1.le
    generalize n * U64 = z at *
    generalize U64 = w at *
    omega

/-- **C33.** The gate is a number whenever blocks are stored, fewer than `2^99`, and `powf(10, -1)` is positive
and finite. -/
theorem C33_gate {c : Nat → Nat} (h0 : binCount c allBins ≠ 0)
    (h1 : binCount c allBins < 2 ^ 99) {k : Nat} {h : k ≤ Fmt.b64.infK}
    (ht : tenth (ieeeEnv m bs t) = .num false k h) (hk0 : k ≠ 0) (hk1 : k ≠ Fmt.b64.infK) :
    (binGate (ieeeEnv m bs t) centre c).isNan = false := by
  have hn := binTotal_nonneg c range_lt
  rw [binGate_eq, ieee_f64, arith_mul, arith_div, arith_ofInt]
  generalize binTotal (Fl.arith Fmt.b64) centre c allBins = x at hn
  obtain ⟨l, hl, e, hl0, hl1⟩ := Fl.ofInt_fin h0 h1
  rw [e, ht]
  exact ((hn.div_fin rfl hl0 hl1).mul_fin rfl hk0 hk1).not_nan

/-- **C36.** In histogram mode `relative_threshold` is the loudness of the gate over the bin centres, -70 without
blocks; it needs mode I. -/
theorem C36_histogram {e : Ebu F64 F32} (hr : Reachable (ieeeEnv m bs t) e) {c : List Nat}
    (hc : e.blockEnergyHistory = .histogram c) :
    e.relativeThreshold (ieeeEnv m bs t) =
      if e.mode.contains Mode.I then
        .ok (if c.sum = 0 then Fl.lit Fmt.b64 (-70) 1
          else lufsD (ieeeEnv m bs t) (binGate (ieeeEnv m bs t) centre (fun i => c.getD i 0)))
      else .error .invalidMode := by
  unfold Ebu.relativeThreshold
  cases hI : e.mode.contains Mode.I
  · rfl
  have hlen := hist_length hr hc
  have hv : ∀ i < 1000, binEnergy (ieeeEnv m bs t) i = centre i := fun i hi => binEnergy_centre hi
  have ht : binTotal (ieeeEnv m bs t).f64 (binEnergy (ieeeEnv m bs t)) (fun i => c.getD i 0) allBins =
      binTotal (Fl.arith Fmt.b64) centre (fun i => c.getD i 0) allBins :=
    binTotal_congr _ _ (fun i hi => hv i (mem_allBins.1 hi))
  have hn := (binTotal_nonneg (fun i => c.getD i 0) range_lt).not_nan
  have hN : ∀ x : F64, (ieeeEnv m bs t).f64.isNan x = Fl.isNan x := fun _ => rfl
  simp only [Bool.not_true, Bool.false_eq_true, if_false, if_true, hc]
  congr 1
  unfold History.relativeThreshold
  simp only [calc_hist _ hlen, ht, hN, hn, Bool.false_eq_true, if_false, gateFactor_tenth]
  by_cases h0 : c.sum = 0
  · rw [if_pos h0, if_pos h0]
    rfl
  · rw [if_neg h0, if_neg h0]
    rw [binGate_eq, energyToLoudness_eq, sum_range c hlen, ieee_f64]


/-! ## Counters -/

/-- The bin an energy is counted in: the one enclosing it; bin 0 for NaN; none below the gate. -/
def Spec.CountedIn (x : F64) (i : Nat) : Prop := InBin x i ∨ (x.isNan = true ∧ i = 0)

instance (x : F64) (i : Nat) : Decidable (InBin x i) := by unfold InBin; infer_instance
instance (x : F64) (i : Nat) : Decidable (CountedIn x i) := by unfold CountedIn; infer_instance

theorem addP_counts {c : List Nat} (hc : c.length = 1000) (x : F64) :
    ∃ c', (History.histogram c).addP (ieeeEnv m bs t) x = .histogram c' ∧ c'.length = 1000 ∧
      ∀ i, c'.getD i 0 = c.getD i 0 + if CountedIn x i then 1 else 0 := by
  by_cases h : Fl.le (bnd 0) x = true
  · obtain ⟨i, -, hi, hu⟩ := C30_search (m := m) (bs := bs) (t := t) h
    obtain ⟨c', h1, h2, h3, h4⟩ := C30_add (m := m) (bs := bs) (t := t) h hi hc
    rw [History.add_eq (ieeeEnv m bs t) (hist := .histogram c) hc] at h1
    injection h1 with h1
    have hn : x.isNan = false := not_nan_of_le h
    refine ⟨c', h1, h2, fun j => ?_⟩
    have hcj : CountedIn x j ↔ j = i := by
      unfold CountedIn
      rw [hn]
      constructor
      · rintro (h | ⟨h, -⟩)
        · exact hu j h
        · cases h
      · rintro rfl; exact .inl hi
    by_cases hj : j = i
    · rw [if_pos (hcj.2 hj), hj, h3]
    · rw [if_neg (fun h => hj (hcj.1 h)), h4 j hj, Nat.add_zero]
  · rw [Bool.not_eq_true] at h
    cases hn : x.isNan with
    | true =>
      have hx : x = .nan := by cases x with
        | nan => rfl
        | num s k hk => cases hn
      subst hx
      have h1 := C40_histogram (m := m) (bs := bs) (t := t) hc
      rw [History.add_eq (ieeeEnv m bs t) (hist := .histogram c) hc] at h1
      injection h1 with h1
      refine ⟨_, h1, by simpa using hc, fun j => ?_⟩
      have hcj : CountedIn .nan j ↔ j = 0 := by
        unfold CountedIn
        constructor
        · rintro (⟨-, h, -⟩ | ⟨-, h⟩)
          · rw [Fl.le_nan] at h; cases h
          · exact h
        · rintro rfl; exact .inr ⟨rfl, rfl⟩
      by_cases hj : j = 0
      · rw [if_pos (hcj.2 hj), hj]
        have : 0 < c.length := by omega
        simp [List.getD, List.getElem?_modify, this]
      · rw [if_neg (fun h => hj (hcj.1 h))]
        simp [List.getD, List.getElem?_modify, Ne.symm hj]
    | false =>
      refine ⟨c, ?_, hc, fun j => ?_⟩
      · unfold History.addP
        rw [gate0_bnd, if_pos]
        show Fl.lt x (bnd 0) = true
        rw [Fl.lt_rank hn (bnd_not_nan 0)]
        by_contra hc'
        rw [(Fl.le_rank (bnd_not_nan 0) hn).2 (by omega)] at h
        cases h
      · rw [if_neg, Nat.add_zero]
        rintro (hb | ⟨hb, -⟩)
        · have := Fl.le_trans (bnd_le (Nat.zero_le j) hb.1.le) hb.2.1
          rw [this] at h
          cases h
        · rw [hn] at hb; cases hb

/-- **C33.** Each counter of the histogram counts the energies offered that belong to its bin. -/
theorem C33_counts {c : List Nat} (hc : c.length = 1000) (xs : List F64) :
    ∃ c', Run.foldL (History.add (ieeeEnv m bs t)) (.histogram c) xs = .done (.histogram c') ∧ c'.length = 1000 ∧
      ∀ i, c'.getD i 0 = c.getD i 0 + xs.countP fun x => decide (CountedIn x i) := by
  rw [foldL_add (ieeeEnv m bs t) (h := .histogram c) hc]
  induction xs generalizing c with
  | nil => exact ⟨c, rfl, hc, fun i => rfl⟩
  | cons x xs ih =>
    obtain ⟨c1, h1, h2, h3⟩ := addP_counts (m := m) (bs := bs) (t := t) hc x
    obtain ⟨c2, h4, h5, h6⟩ := ih h2
    refine ⟨c2, by rw [List.foldl_cons, h1]; exact h4, h5, fun i => ?_⟩
    rw [h6, h3, List.countP_cons]
    by_cases hx : CountedIn x i
    · simp [hx]; omega
    · simp [hx]

/-- **C33.** After any calls that feed a new histogram-mode analyzer, the counters are the numbers of gating
blocks of the signal in each bin. -/
theorem C33_run {e0 e : Ebu F64 F32} (h : Started (ieeeEnv m bs t) e0)
    (hg : Adequate e0.mode e0.rate e0.window) {ops : List (Op F64 F32)} (hops : ∀ op ∈ ops, Feed op)
    (hrun : runOps (ieeeEnv m bs t) e0 ops = .done e) (hI : e0.mode.contains Mode.I = true)
    {c0 : List Nat} (h0 : e0.blockEnergyHistory = .histogram c0) :
    ∃ c, e.blockEnergyHistory = .histogram c ∧ ∀ i, c.getD i 0 = c0.getD i 0 +
      ((blockEnds (hop e0.rate) (measured (ieeeEnv m bs t) e0.channels ops)).countP fun n =>
        decide (CountedIn (energy (ieeeEnv m bs t) (capacity e0.rate e0.window) (4 * hop e0.rate) n e0.channelMap
          (signalOn (ieeeEnv m bs t) e0.rate e0.channels ops)) i)) := by
  have hb := (C61_blocks (ieee_zero m bs t) h hg hops hrun).1 hI
  rw [h0] at hb
  obtain ⟨c, h1, -, h3⟩ := C33_counts (m := m) (bs := bs) (t := t) (hist_length h.reachable h0)
    ((blockEnds (hop e0.rate) (measured (ieeeEnv m bs t) e0.channels ops)).map fun n =>
      energy (ieeeEnv m bs t) (capacity e0.rate e0.window) (4 * hop e0.rate) n e0.channelMap
        (signalOn (ieeeEnv m bs t) e0.rate e0.channels ops))
  rw [h1] at hb
  injection hb with hb
  refine ⟨c, hb.symm, fun i => ?_⟩
  rw [h3, List.countP_map]
  rfl

/-! ## Exact arithmetic -/

theorem expand_length (v : Nat → D) (c : Nat → Nat) (bins : List Nat) :
    (expand v c bins).length = binCount c bins := by
  unfold expand binCount
  induction bins with
  | nil => rfl
  | cons i l ih => simp [ih]

theorem expand_filter (v : Nat → D) (c : Nat → Nat) (p : D → Bool) (bins : List Nat) :
    (expand v c bins).filter p = expand v c (bins.filter fun i => p (v i)) := by
  unfold expand
  induction bins with
  | nil => rfl
  | cons i l ih =>
    rw [List.flatMap_cons, List.filter_append, ih, List.filter_cons]
    cases hp : p (v i) with
    | true =>
      rw [if_pos rfl, List.flatMap_cons, List.filter_eq_self.2]
      intro x hx
      rw [(List.mem_replicate.1 hx).2, hp]
    | false =>
      rw [if_neg (by simp), List.filter_eq_nil_iff.2, List.nil_append]
      intro x hx
      rw [(List.mem_replicate.1 hx).2, hp]
      simp

theorem exact_total (l : List ℝ) : total exactArith l = l.sum := by
  have h : ∀ s : ℝ, l.foldl exactArith.add s = s + l.sum := by
    induction l with
    | nil => intro s; simp
    | cons x l ih =>
      intro s
      rw [List.foldl_cons, ih, List.sum_cons]
      show s + x + _ = _
      ring
  unfold total
  rw [h]
  show (0 : ℝ) + _ = _
  ring

theorem exact_binTotal (v : Nat → ℝ) (c : Nat → Nat) (bins : List Nat) :
    binTotal exactArith v c bins = (expand v c bins).sum := by
  have h : ∀ s : ℝ, bins.foldl (fun s i => exactArith.add s (exactArith.mul (exactArith.ofInt (c i)) (v i))) s =
      s + (expand v c bins).sum := by
    unfold expand
    induction bins with
    | nil => intro s; simp
    | cons i l ih =>
      intro s
      rw [List.foldl_cons, ih, List.flatMap_cons, List.sum_append, List.sum_replicate, nsmul_eq_mul]
      show s + ((c i : Int) : ℝ) * v i + _ = _
      push_cast
      ring
  unfold binTotal
  rw [h]
  show (0 : ℝ) + _ = _
  ring

theorem exact_f64 : (exactEnv bs u).f64 = exactArith := rfl

theorem exact_tenth : gateFactor (exactEnv bs u) (-10) = tenth (exactEnv bs u) := by
  unfold gateFactor tenth
  rw [exact_f64]
  congr 1
  show ((-10 : Int) : ℝ) / ((1 : Nat) : ℝ) / (((10 : Int) : ℝ) / ((1 : Nat) : ℝ)) = ((-1 : Int) : ℝ) / ((1 : Nat) : ℝ)
  norm_num

theorem gating_queue_any {E : Env D S} (hten : gateFactor E (-10) = tenth E) {q : List D} (max : Nat)
    (hz : E.f64.add E.f64.zero (total E.f64 q) = total E.f64 q) (hn : E.f64.isNan (total E.f64 q) = false) :
    gatingMultP E [.queue q max] =
      gateOutcome (if (passing E q).length = 0 then none
        else some ((passing E q).length, total E.f64 (passing E q))) := by
  unfold gatingMultP iterP
  have ht : totals E [.queue q max] = (q.length, total E.f64 q) := by
    unfold totals
    simp only [List.foldl_cons, List.foldl_nil, History.calcRelativeThreshold, Nat.zero_add]
    rw [show sumD E.f64 q = total E.f64 q from rfl, hz]
  have hg : relGate E (-10) (q.length, total E.f64 q) = gateLevel E q := by
    unfold relGate gateLevel
    rw [hten]
    rfl
  rw [ht, hg]
  dsimp only
  rw [hn, if_neg Bool.false_ne_true]
  by_cases h0 : q.length = 0
  · rw [if_pos h0]
    rw [List.length_eq_zero_iff] at h0
    subst h0
    rfl
  · rw [if_neg h0]
    simp only [List.map_cons, List.map_nil, List.flatten_cons, List.flatten_nil, List.append_nil, History.gatedP]
    rw [sumItems_ones]
    change (if (passing E q).length = 0 then _ else _) = _
    split <;> rfl

/-- **C33.** In exact arithmetic the gate over a histogram yields the same number of blocks and the same energy
as the gate over the list in which every block has the energy of its bin. -/
theorem C33_exact {c : List Nat} (hc : c.length = 1000) (max : Nat) :
    gatingMultiple (exactEnv bs u) [.histogram c] =
      gatingMultiple (exactEnv bs u) [.queue (expand centreR (fun i => c.getD i 0) allBins) max] := by
  rw [gatingMultiple_eq _ (by intro h hh; rw [List.mem_singleton.1 hh]; exact hc),
    gatingMultiple_eq _ (by intro h hh; rw [List.mem_singleton.1 hh]; trivial)]
  congr 1
  have hv : ∀ i < 1000, binEnergy (exactEnv bs u) i = centreR i := fun i hi => exact_energy hi
  have h0 : ∀ x : ℝ, (exactEnv bs u).f64.add (exactEnv bs u).f64.zero x = x := fun x => zero_add x
  rw [gating_hist exact_order hc exact_tenth (h0 _) rfl (fun _ => trivial), binGated_congr _ hv,
    gating_queue_any exact_tenth max (h0 _) rfl]
  generalize (fun i => c.getD i 0) = c
  have hgate : gateLevel (exactEnv bs u) (expand centreR c allBins) = binGate (exactEnv bs u) centreR c := by
    rw [binGate_eq]
    unfold gateLevel mean
    rw [exact_f64, exact_total, exact_binTotal, expand_length]
  have hp : passing (exactEnv bs u) (expand centreR c allBins) =
      expand centreR c (binsFrom (exactEnv bs u).f64 centreR (binGate (exactEnv bs u) centreR c)) := by
    unfold passing
    rw [hgate, expand_filter]
    rfl
  rw [hp, expand_length, exact_f64, exact_total, ← exact_binTotal]
  rfl


/-! ## Example -/

/-- The counters of a histogram history. -/
def Demo.countsOf : History F64 → List Nat
  | .queue _ _ => []
  | .histogram c => c

theorem Demo.hist_report : (Demo.after (Demo.envReal false) 18 (Mode.I ||| Mode.HISTOGRAM)
    [.addFrames (.i16 (List.replicate 12 5000))]).map (fun e =>
    decide ((Demo.countsOf e.blockEnergyHistory).sum = 3) && e.mode.contains Mode.I) = some true := by
  decide +kernel

theorem Demo.tenth_ok : ∃ k h, tenth (Demo.envReal false) = .num false k h ∧ k ≠ 0 ∧ k ≠ Fmt.b64.infK := by
  have h : (match tenth (Demo.envReal false) with
    | .num false k _ => decide (k ≠ 0) && decide (k ≠ Fmt.b64.infK)
    | _ => false) = true := by decide +kernel
  split at h
  · next k hk e =>
    simp only [Bool.and_eq_true, decide_eq_true_eq] at h
    exact ⟨k, hk, e, h.1, h.2⟩
  · cases h

/-- A run in histogram mode storing three blocks; the hypotheses of the theorems above are met. -/
example : ∃ e c, Reachable (Demo.envReal false) e ∧ e.mode.contains Mode.I = true ∧
    e.blockEnergyHistory = .histogram c ∧ c.sum = 3 ∧
    (binGate (Demo.envReal false) centre (fun i => c.getD i 0)).isNan = false := by
  obtain ⟨e, hr, hp⟩ := Demo.after_spec (by decide) (by decide) (by decide) Demo.hist_report
  simp only [Bool.and_eq_true, decide_eq_true_eq] at hp
  obtain ⟨h1, h4⟩ := hp
  cases hb : e.blockEnergyHistory with
  | queue q max => rw [hb] at h1; cases h1
  | histogram c =>
    rw [hb] at h1
    have h1 : c.sum = 3 := h1
    obtain ⟨k, hk, e1, e2, e3⟩ := Demo.tenth_ok
    refine ⟨e, c, hr, h4, hb, h1, ?_⟩
    apply C33_gate _ _ e1 e2 e3
    · rw [sum_range c (hist_length hr hb), h1]; decide
    · rw [sum_range c (hist_length hr hb), h1]; decide

end Verif
