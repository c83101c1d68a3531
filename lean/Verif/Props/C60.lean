import Verif.Props.C59
import Verif.Props.C33
import Verif.Props.C38
/-!
# C60: accuracy of integrated loudness and loudness range in histogram mode
-/

namespace Verif
open Spec Fl
variable {m : Libm F64} {bs : BSearch} {t : Target}

/-- The factor between an energy and the centre of its bin: half a bin, 0.05 dB. -/
noncomputable def Spec.binFactor : ℝ := 10 ^ (halfBin / 10)

theorem binFactor_bounds : 1 ≤ binFactor ∧ binFactor ≤ 103 / 100 := by
  have h : (1 : ℝ) / 200 ≤ halfBin / 10 ∧ halfBin / 10 ≤ 1 / 100 := by unfold halfBin; norm_num
  unfold binFactor
  constructor
  · exact Real.one_le_rpow (by norm_num) (by linarith [h.1, show (0 : ℝ) ≤ 1 / 200 by norm_num])
  · calc (10 : ℝ) ^ (halfBin / 10) ≤ 10 ^ ((1 : ℝ) / 100) := Real.rpow_le_rpow_of_exponent_le (by norm_num) h.2
      _ ≤ ((103 / 100 : ℝ) ^ (100 : ℝ)) ^ ((1 : ℝ) / 100) := by
        refine Real.rpow_le_rpow (by norm_num) ?_ (by norm_num)
        rw [show (100 : ℝ) = ((100 : ℕ) : ℝ) by norm_num, Real.rpow_natCast]
        norm_num
      _ = 103 / 100 := by
        rw [← Real.rpow_mul (by norm_num)]
        norm_num

theorem logb_binFactor : 10 * Real.logb 10 binFactor = halfBin := by
  unfold binFactor
  rw [Real.logb_rpow (by norm_num) (by norm_num)]
  ring

/-- The top of the table is above +29.3 LUFS. -/
theorem bnd_top : (bnd 1000).Finite ∧ 1090 ≤ (bnd 1000).value := by
  have h := (bnd_value (i := 1000) (by omega)).1
  obtain ⟨hk, e⟩ := bnd_key 1000
  refine ⟨by rw [e]; exact finite_num.2 (by decide +kernel), _root_.le_trans ?_ h⟩
  have : (1100 : ℝ) ≤ energyOf (-70 + (1000 : Nat) / 10) := by
    unfold energyOf
    have a : (11 / 10 : ℝ) ≤ 10 ^ ((1 : ℝ) / 20) := by
      calc (11 / 10 : ℝ) = ((11 / 10 : ℝ) ^ (20 : ℝ)) ^ ((1 : ℝ) / 20) := by
            rw [← Real.rpow_mul (by norm_num)]
            norm_num
        _ ≤ 10 ^ ((1 : ℝ) / 20) := by
            refine Real.rpow_le_rpow (by positivity) ?_ (by norm_num)
            rw [show (20 : ℝ) = ((20 : ℕ) : ℝ) by norm_num, Real.rpow_natCast]
            norm_num
    calc (1100 : ℝ) ≤ 10 ^ (3 : ℝ) * 10 ^ ((1 : ℝ) / 20) := by
          rw [show (3 : ℝ) = ((3 : ℕ) : ℝ) by norm_num, Real.rpow_natCast]
          linarith
      _ = 10 ^ ((3 : ℝ) + 1 / 20) := (Real.rpow_add (by norm_num) _ _).symm
      _ ≤ _ := Real.rpow_le_rpow_of_exponent_le (by norm_num) (by norm_num)
  norm_num at this ⊢
  linarith

/-! ## What the bins stand for -/

theorem expand_map {D : Type} (v : Nat → D) (c : Nat → Nat) (bins : List Nat) :
    expand v c bins = (expand id c bins).map v := by
  simp only [expand, List.map_flatMap, List.map_replicate, id]

theorem count_expand (c : Nat → Nat) {bins : List Nat} (hn : bins.Nodup) (i : Nat) :
    (expand id c bins).count i = if i ∈ bins then c i else 0 := by
  induction bins with
  | nil => rfl
  | cons j l ih =>
    obtain ⟨h1, h2⟩ := List.nodup_cons.1 hn
    have e : expand id c (j :: l) = List.replicate (c j) j ++ expand id c l := rfl
    rw [e, List.count_append, ih h2, List.count_replicate]
    by_cases hij : j = i
    · subst hij
      simp [h1]
    · have : i ≠ j := fun h => hij h.symm
      simp [this, hij]

/-- The blocks a histogram stands for are, in some order, the centres of the bins of the stored energies. -/
theorem hist_perm {xs : List F64} (hx : ∀ x ∈ xs, x.isNan = false) {c : Nat → Nat}
    (hc : ∀ i, c i = xs.countP fun x => decide (CountedIn x i)) :
    (expand centre c allBins).Perm
      ((ungated (ieeeEnv m bs t) (bnd 0) xs).map fun x => centre (findP (ieeeEnv m bs t) x)) := by
  rw [expand_map, ← Function.comp_def, ← List.map_map]
  refine List.Perm.map _ (List.perm_iff_count.2 fun i => ?_)
  rw [count_expand c (by rw [allBins_eq]; exact List.nodup_range), hc, List.count, List.countP_map, ungated,
    List.countP_filter]
  have key : ∀ x ∈ xs, CountedIn x i ↔ (findP (ieeeEnv m bs t) x = i ∧ Fl.lt x (bnd 0) = false) := by
    intro x hxm
    have hn := hx x hxm
    constructor
    · rintro (h | ⟨h, -⟩)
      · have hle : Fl.le (bnd 0) x = true := Fl.le_trans (bnd_le (Nat.zero_le _) (by have := h.1; omega)) h.2.1
        exact ⟨(find_inBin hle).unique h, by rw [Fl.not_lt hn (bnd_not_nan _)]; exact hle⟩
      · rw [hn] at h; cases h
    · rintro ⟨rfl, h⟩
      rw [Fl.not_lt hn (bnd_not_nan _)] at h
      exact .inl (find_inBin h)
  by_cases hi : i ∈ allBins
  · rw [if_pos hi]
    refine List.countP_congr fun x hxm => ?_
    rw [decide_eq_true_eq, key x hxm]
    simp only [Function.comp_apply, Bool.and_eq_true, beq_iff_eq, Bool.not_eq_true']
    rfl
  · rw [if_neg hi]
    symm
    rw [List.countP_eq_zero]
    intro x hxm
    simp only [Function.comp_apply, Bool.and_eq_true, beq_iff_eq, not_and]
    rintro rfl
    exact absurd (mem_allBins.2 (find_eq _ _).2) hi

/-- **C60**, blocks. The centres of the bins are known up to half a bin more than the energies. -/
theorem bins_rough {η θ : ℝ} {q : List F64} {Ps : List ℝ} (h : List.Forall₂ (Close η θ) q Ps) (hη : 1 / 2 ^ 40 ≤ η)
    (hη' : η ≤ 1 / 100) (hθ : 0 ≤ θ) (h70 : ∀ P ∈ Ps, Apart (1 + 2 * η) (2 * θ) P (energyOf (-70)))
    (htop : ∀ P ∈ Ps, P + θ ≤ 1000) :
    List.Forall₂ (Rough ((1 + 11 / 10 * η) * binFactor) θ)
      ((ungated (ieeeEnv m bs t) (bnd 0) q).map fun x => centre (findP (ieeeEnv m bs t) x)) (loud Ps) := by
  have η0 : 0 ≤ η := _root_.le_trans (by norm_num) hη
  obtain ⟨tf, tv⟩ := bnd_top
  rw [List.forall₂_map_left_iff]
  have hl := loud_close (m := m) (bs := bs) (t := t) h hη hη' hθ h70
  have hall : ∀ x ∈ ungated (ieeeEnv m bs t) (bnd 0) q, Fl.lt x (bnd 0) = false := by
    intro x hx
    have := (List.mem_filter.1 hx).2
    rw [Bool.not_eq_true'] at this
    exact this
  have hPs : ∀ P ∈ loud Ps, P ∈ Ps := fun P hP => (loud_mem hP).1
  revert hall hPs
  generalize ungated (ieeeEnv m bs t) (bnd 0) q = l at *
  generalize loud Ps = A at *
  intro hall hPs
  induction hl with
  | nil => exact .nil
  | @cons x P l A h1 _ ih =>
    refine .cons ?_ (ih (fun y hy => hall y (List.mem_cons_of_mem _ hy)) fun y hy => hPs y (List.mem_cons_of_mem _ hy))
    have hmix := h1.mixed η0 hη' hθ
    obtain ⟨xf, -, P0, -⟩ := h1
    have hP := htop P (hPs P (List.mem_cons_self ..))
    have hn : x.isNan = false := by obtain ⟨s, k, hk, rfl, -⟩ := xf; rfl
    have hle : Fl.le (bnd 0) x = true := by
      have := hall x (List.mem_cons_self ..)
      rwa [Fl.not_lt hn (bnd_not_nan _)] at this
    have hlt : Fl.lt x (bnd 1000) = true := by
      refine lt_of_value xf tf ?_
      have := hmix.1
      have : (1 + 11 / 10 * η) * (P + θ) ≤ (1 + 11 / 10 * (1 / 100)) * 1000 :=
        mul_le_mul (by linarith) hP (by linarith) (by norm_num)
      norm_num at this
      linarith
    obtain ⟨b1, b2, b3, b4⟩ := bin_ratio (find_inBin (m := m) (bs := bs) (t := t) hle) hlt
    obtain ⟨k, hk, ek, k0, k1⟩ := Fl.centre_pos (find_eq (ieeeEnv m bs t) x).2
    refine ⟨by rw [ek]; exact finite_num.2 k1, by rw [ek]; rfl, P0, hmix.trans ?_ (by positivity) binFactor_bounds.1 hθ⟩
    constructor
    · rw [add_zero]; exact b3
    · rw [add_zero]; exact b4

/-! ## Means of histograms -/

/-- The computed mean of the blocks of some bins. -/
theorem bin_mean {κ θ : ℝ} {ys : List F64} {A : List ℝ} (h : List.Forall₂ (Rough κ θ) ys A) (hne : A ≠ []) {c : Nat → Nat}
    {bins : List Nat} (hp : (expand centre c bins).Perm ys) (hb : ∀ i ∈ bins, i < 1000) (hbl : bins.length ≤ 1000)
    (hκ' : κ ≤ 11 / 10) (hlen : A.length ≤ 2 ^ 40) (hθ : 0 ≤ θ) (htop : ∀ P ∈ A, P + θ ≤ 2 ^ 150) :
    let M := Fl.div (binTotal (Fl.arith Fmt.b64) centre c bins) (Fl.ofInt Fmt.b64 (binCount c bins : Int))
    binCount c bins = A.length ∧ (binTotal (Fl.arith Fmt.b64) centre c bins).isNan = false ∧ M.Finite ∧ M.Nonneg ∧
      Near Fmt.b64 2001 ((2001 : Nat) * eta Fmt.b64) M.value (meanR (ys.map Fl.value)) := by
  intro M
  have hl : binCount c bins = A.length := by rw [← expand_length centre, hp.length_eq, h.length_eq]
  have n0 : 0 < A.length := List.length_pos_iff.2 hne
  have es : ((expand centre c bins).map Fl.value).sum = (ys.map Fl.value).sum := (hp.map _).sum_eq
  have hsum : ((expand centre c bins).map Fl.value).sum ≤ 2 ^ 240 := by
    rw [es]
    have a := (mixed_sum (rough_values h)).1
    have b := sum_le_mul (l := A) (b := 2 ^ 150 - θ) fun P hP => by linarith [htop P hP]
    have cc : (A.length : ℝ) ≤ 2 ^ 40 := by exact_mod_cast hlen
    have s0 : 0 ≤ A.sum + A.length * θ := by
      have := List.sum_nonneg (rough_mem h).2
      positivity
    have d : A.sum + A.length * θ ≤ 2 ^ 40 * 2 ^ 150 := by
      calc A.sum + A.length * θ ≤ A.length * 2 ^ 150 := by linarith
        _ ≤ _ := mul_le_mul_of_nonneg_right cc (by positivity)
    have e : κ * (A.sum + A.length * θ) ≤ 11 / 10 * (2 ^ 40 * 2 ^ 150) := mul_le_mul hκ' d s0 (by norm_num)
    norm_num at a e ⊢
    linarith
  have hcb : ∀ i ∈ bins, c i ≤ 2 ^ 41 := by
    intro i hi
    have : c i ≤ binCount c bins := List.single_le_sum (fun _ _ => Nat.zero_le _) _ (List.mem_map_of_mem hi)
    omega
  obtain ⟨t1, t2, t3⟩ := binTotal_near hb hcb hbl hsum
  have v0 : 0 ≤ ((expand centre c bins).map Fl.value).sum := by rw [es]; exact values_nonneg (rough_mem h).1
  have := quotient_near t1 t2 v0 t3 (by norm_num) hsum (n := binCount c bins) (by omega) (by omega)
  refine ⟨hl, ?_, this.1, this.2.1, ?_⟩
  · obtain ⟨s, k, hk, e, -⟩ := t1
    rw [e]; rfl
  · have e2 : meanR (ys.map Fl.value) = ((expand centre c bins).map Fl.value).sum / (binCount c bins : ℝ) := by
      unfold meanR
      rw [es, List.length_map, h.length_eq, hl]
    rw [e2]
    exact this.2.2

/-! ## Gating -/

/-- Half a bin and the uncertainty of a block together. -/
theorem factor_bounds {η : ℝ} (h0 : 0 < η) (h1 : η ≤ 1 / 100) :
    1 ≤ (1 + 11 / 10 * η) * binFactor ∧ (1 + 11 / 10 * η) * binFactor ≤ 105 / 100 := by
  obtain ⟨a, b⟩ := binFactor_bounds
  constructor
  · nlinarith
  · calc (1 + 11 / 10 * η) * binFactor ≤ (1 + 11 / 10 * (1 / 100)) * (103 / 100) :=
        mul_le_mul (by linarith) b (by linarith) (by norm_num)
      _ ≤ _ := by norm_num

/-- Uncertainty of a block against the gate. -/
theorem factor_gate {η : ℝ} (η0 : 1 / 2 ^ 38 ≤ η) (hη' : η ≤ 1 / 100) :
    let κ := (1 + 11 / 10 * η) * binFactor
    let σ : ℝ := ((2001 : Nat) + 1) / 2 ^ 51
    κ * (κ * (1 + σ) * (1 + 1 / 2 ^ 42)) ≤ binFactor ^ 2 * (1 + 4 * η) ∧ 1 ≤ κ * (1 + σ) * (1 + 1 / 2 ^ 42) := by
  intro κ σ
  have ηp : 0 < η := lt_of_lt_of_le (by norm_num) η0
  have hκ := (factor_bounds ηp hη').1
  change 1 ≤ κ at hκ
  have σ0 : 0 ≤ σ := by
    show (0 : ℝ) ≤ ((2001 : Nat) + 1) / 2 ^ 51
    norm_num
  have σ1 : (1 + σ) * (1 + 1 / 2 ^ 42) ≤ 1 + η := by
    show (1 + (((2001 : Nat) : ℝ) + 1) / 2 ^ 51) * (1 + 1 / 2 ^ 42) ≤ _
    norm_num at η0 ⊢
    linarith
  constructor
  · have a1 : (1 + 11 / 10 * η) * (1 + 11 / 10 * η) ≤ 1 + 23 / 10 * η := by nlinarith
    calc κ * (κ * (1 + σ) * (1 + 1 / 2 ^ 42))
        = binFactor ^ 2 * ((1 + 11 / 10 * η) * (1 + 11 / 10 * η) * ((1 + σ) * (1 + 1 / 2 ^ 42))) := by
          show (1 + 11 / 10 * η) * binFactor * ((1 + 11 / 10 * η) * binFactor * (1 + σ) * (1 + 1 / 2 ^ 42)) = _
          ring
      _ ≤ binFactor ^ 2 * ((1 + 23 / 10 * η) * (1 + η)) :=
        mul_le_mul_of_nonneg_left (mul_le_mul a1 σ1 (by positivity) (by positivity)) (sq_nonneg _)
      _ ≤ _ := mul_le_mul_of_nonneg_left (by nlinarith) (sq_nonneg _)
  · have : 1 ≤ (1 + σ) * (1 + 1 / 2 ^ 42) := by nlinarith [show (0 : ℝ) < 1 / 2 ^ 42 by positivity]
    rw [_root_.mul_assoc]
    nlinarith

theorem binMean_any {D : Type} (A : Arith D) (v : Nat → D) (c : Nat → Nat) :
    binMean A v c = A.div (binTotal A v c allBins) (A.ofInt (binCount c allBins)) := rfl

theorem binMean_eq (c : Nat → Nat) : binMean (Fl.arith Fmt.b64) centre c =
    Fl.div (binTotal (Fl.arith Fmt.b64) centre c allBins) (Fl.ofInt Fmt.b64 (binCount c allBins : Int)) := by
  rw [binMean_any, arith_div, arith_ofInt]

/-- The blocks of a histogram, and their mean. -/
theorem bins_mean (m : Libm F64) (bs : BSearch) (t : Target) {η θ : ℝ} {q : List F64} {Ps : List ℝ} (h : List.Forall₂ (Close η θ) q Ps) (hη : 1 / 2 ^ 38 ≤ η)
    (hη' : η ≤ 1 / 100) (hθ : 0 ≤ θ) (hlen : Ps.length ≤ 2 ^ 40)
    (h70 : ∀ P ∈ Ps, Apart (1 + 2 * η) (2 * θ) P (energyOf (-70)))
    (htop : ∀ P ∈ Ps, P + θ ≤ 1000) {c : Nat → Nat} (hc : ∀ i, c i = q.countP fun x => decide (CountedIn x i)) :
    ∃ ys : List F64, (expand centre c allBins).Perm ys ∧
      List.Forall₂ (Rough ((1 + 11 / 10 * η) * binFactor) θ) ys (loud Ps) ∧
      binCount c allBins = (loud Ps).length ∧
      (loud Ps ≠ [] → let M := binMean (Fl.arith Fmt.b64) centre c
        M.Finite ∧ 1 / 10 ^ 8 ≤ M.value ∧ M.value ≤ 2 ^ 245 ∧
        Mixed ((1 + 11 / 10 * η) * binFactor * (1 + (((2001 : Nat) : ℝ) + 1) / 2 ^ 51)) θ M.value (meanR (loud Ps))) := by
  have ηp : 0 < η := lt_of_lt_of_le (by norm_num) hη
  obtain ⟨k1, k2⟩ := factor_bounds ηp hη'
  have hb := bins_rough (m := m) (bs := bs) (t := t) h (_root_.le_trans (by norm_num) hη) hη' hθ h70 htop
  have hp := hist_perm (m := m) (bs := bs) (t := t) (xs := q) (fun x hx => by
    obtain ⟨s, k, hk, rfl, -⟩ := (close_mem h x hx).1
    rfl) hc
  have hl : binCount c allBins = (loud Ps).length := by rw [← expand_length centre, hp.length_eq, hb.length_eq]
  refine ⟨_, hp, hb, hl, fun hne => ?_⟩
  rw [binMean_eq]
  have hAlen : (loud Ps).length ≤ Ps.length := List.length_filter_le ..
  obtain ⟨hM, hMθ⟩ := loud_mean ηp.le hθ h70 (l := loud Ps) (fun _ h => h) hne
  have tA : ∀ P ∈ loud Ps, P + θ ≤ 2 ^ 150 := fun P hP =>
    (htop P (loud_mem hP).1).trans (by norm_num)
  obtain ⟨-, -, f1, f2, f3⟩ := bin_mean hb hne hp (fun i hi => mem_allBins.1 hi) (by rw [allBins_eq, List.length_range])
    (by linarith) (by omega) hθ tA
  obtain ⟨m1, m2, m3⟩ := mean_rough k1 (by linarith) hθ hb hne hM hMθ tA f2 (by norm_num) f3
  exact ⟨f1, m2, m3, m1⟩

theorem binGate_mul (E : Env F64 F32) (hE : E.f64 = Fl.arith Fmt.b64) (c : Nat → Nat) :
    binGate E centre c = Fl.mul (binMean (Fl.arith Fmt.b64) centre c) (tenth E) := by
  unfold binGate
  rw [hE, arith_mul]

theorem binIntegrated_some (E : Env F64 F32) (hE : E.f64 = Fl.arith Fmt.b64) (c : Nat → Nat)
    (h : binCount c (binsFrom E.f64 centre (binGate E centre c)) ≠ 0) :
    binIntegrated E centre c = lufsD E (Fl.div
      (binTotal (Fl.arith Fmt.b64) centre c (binsFrom E.f64 centre (binGate E centre c)))
      (Fl.ofInt Fmt.b64 (binCount c (binsFrom E.f64 centre (binGate E centre c)) : Int))) := by
  unfold binIntegrated binGated
  simp only [if_neg h, loudnessOf]
  rw [hE, arith_div, arith_ofInt]

theorem mem_binsAt {E : Env F64 F32} (hE : E.f64 = Fl.arith Fmt.b64) (c : Nat → Nat) :
    (expand centre c allBins).filter (fun x => Fl.le (binGate E centre c) x) =
      expand centre c (binsFrom E.f64 centre (binGate E centre c)) := by
  rw [expand_filter]
  unfold binsFrom
  rw [hE]
  rfl

/-- **C60**, integrated loudness, gating. -/
theorem C60_gate {δ : ℝ} (hδ : δ ≤ 1) (hm : LogWithin m δ) (ht : TenthWithin m) {η θ : ℝ} {q : List F64} {Ps : List ℝ}
    (h : List.Forall₂ (Close η θ) q Ps) (hη : 1 / 2 ^ 38 ≤ η) (hη' : η ≤ 1 / 100) (hθ : 0 ≤ θ)
    (hlen : Ps.length ≤ 2 ^ 40) (htop : ∀ P ∈ Ps, P + θ ≤ 1000)
    (h70 : ∀ P ∈ Ps, Apart (1 + 2 * η) (2 * θ) P (energyOf (-70)))
    (h10 : ∀ P ∈ loud Ps, Apart (binFactor ^ 2 * (1 + 4 * η)) (2 * θ) P (gateR Ps))
    {c : Nat → Nat} (hc : ∀ i, c i = q.countP fun x => decide (CountedIn x i)) :
    let v := binIntegrated (ieeeEnv m bs t) centre c
    binCount c allBins = (loud Ps).length ∧
    (loud Ps ≠ [] → (binGate (ieeeEnv m bs t) centre c).isNan = false ∧ v.Finite ∧
      |v.value - integratedR Ps| ≤ halfBin + 10 * η + 11 * (θ / meanR (gatedR Ps)) + 10 * δ + 1 / 10 ^ 12) := by
  intro v
  have ηp : 0 < η := lt_of_lt_of_le (by norm_num) hη
  obtain ⟨k1, k2⟩ := factor_bounds ηp hη'
  obtain ⟨kk, hg1⟩ := factor_gate hη hη'
  obtain ⟨ys, hp, hb, hl, hmean⟩ := bins_mean m bs t h hη hη' hθ hlen h70 htop hc
  refine ⟨hl, fun hne => ?_⟩
  obtain ⟨f1, m2, m3, m1⟩ := hmean hne
  obtain ⟨τf, τv⟩ := ht
  have lg1 := (logb_small (z := 11 / 10 * η) (by positivity)).2
  have lg2 := (logb_small (z := (((2001 : Nat) : ℝ) + 1) / 2 ^ 51) (by positivity)).2
  have σ1 : (((2001 : Nat) : ℝ) + 1) / 2 ^ 51 ≤ η / 2 := by
    norm_num at hη ⊢
    linarith
  have σ0 : 0 ≤ (((2001 : Nat) : ℝ) + 1) / 2 ^ 51 := by positivity
  have lgκ : Real.logb 10 ((1 + 11 / 10 * η) * binFactor * (1 + (((2001 : Nat) : ℝ) + 1) / 2 ^ 51)) =
      Real.logb 10 (1 + 11 / 10 * η) + Real.logb 10 binFactor + Real.logb 10 (1 + (((2001 : Nat) : ℝ) + 1) / 2 ^ 51) := by
    have b1 := binFactor_bounds.1
    rw [Real.logb_mul (by positivity) (by positivity), Real.logb_mul (by positivity) (by positivity)]
  obtain ⟨gf, gv⟩ := gate_mixed m1 (by positivity) hθ f1 m2 m3 τf (by norm_num : (1 : ℝ) / 100 ≤ 1 / 10) (by norm_num) τv
  have hΓ : 1 / 10 * meanR (loud Ps) = gateR Ps := by unfold gateR; ring
  rw [hΓ] at gv
  have Γ0 : 0 < gateR Ps := by
    rw [← hΓ]
    have := (loud_mean ηp.le hθ h70 (l := loud Ps) (fun _ h => h) hne).1
    have : (0 : ℝ) < 1 / 10 ^ 7 := by positivity
    linarith
  have eg : binGate (ieeeEnv m bs t) centre c = Fl.mul (binMean (Fl.arith Fmt.b64) centre c)
      (m.powf (Fl.lit Fmt.b64 10 1) (Fl.lit Fmt.b64 (-1) 1)) := binGate_mul _ rfl c
  rw [← eg] at gf gv
  have hap : ∀ P ∈ loud Ps, Apart ((1 + 11 / 10 * η) * binFactor * ((1 + 11 / 10 * η) * binFactor *
      (1 + (((2001 : Nat) : ℝ) + 1) / 2 ^ 51) * (1 + 1 / 2 ^ 42))) (2 * θ) P (gateR Ps) := by
    intro P hP
    have P0 : 0 ≤ P := (rough_mem hb).2 P hP
    rcases h10 P hP with d | d
    · exact .inl (lt_of_le_of_lt (mul_le_mul_of_nonneg_right kk (by linarith)) d)
    · exact .inr (lt_of_le_of_lt (mul_le_mul_of_nonneg_right kk (by linarith)) d)
  have hgate := (rough_gate k1 hg1 hθ hb gf Γ0.le gv hap).1
  change List.Forall₂ _ _ (gatedR Ps) at hgate
  have hne2 := gatedR_ne hne
  have hp2 := hp.filter fun x => Fl.le (binGate (ieeeEnv m bs t) centre c) x
  rw [mem_binsAt rfl] at hp2
  have gl : ∀ P ∈ gatedR Ps, P ∈ loud Ps := fun P hP => (List.mem_filter.1 hP).1
  have hAlen : (gatedR Ps).length ≤ Ps.length := (List.length_filter_le ..).trans (List.length_filter_le ..)
  have tA : ∀ P ∈ gatedR Ps, P + θ ≤ 2 ^ 150 := fun P hP =>
    (htop P (loud_mem (gl P hP)).1).trans (by norm_num)
  obtain ⟨hM, hMθ⟩ := loud_mean ηp.le hθ h70 gl hne2
  have hbl : (binsFrom (ieeeEnv m bs t).f64 centre (binGate (ieeeEnv m bs t) centre c)).length ≤ 1000 :=
    (List.length_filter_le ..).trans (by rw [allBins_eq, List.length_range])
  obtain ⟨u1, -, u2, u3, u4⟩ := bin_mean hgate hne2 hp2 (fun i hi => (mem_binsFrom.1 hi).1) hbl (by linarith) (by omega)
    hθ tA
  obtain ⟨w1, w2, w3⟩ := mean_rough k1 (by linarith) hθ hgate hne2 hM hMθ tA u3 (by norm_num) u4
  have ev : v = lufsD (ieeeEnv m bs t) (Fl.div (binTotal (Fl.arith Fmt.b64) centre c
      (binsFrom (ieeeEnv m bs t).f64 centre (binGate (ieeeEnv m bs t) centre c)))
      (Fl.ofInt Fmt.b64 (binCount c (binsFrom (ieeeEnv m bs t).f64 centre (binGate (ieeeEnv m bs t) centre c)) : Int))) := by
    exact binIntegrated_some _ rfl c (by rw [u1]; exact fun hz => hne2 (List.length_eq_zero_iff.1 hz))
  obtain ⟨l1, l2, -⟩ := lufsD_near (bs := bs) (t := t) hδ hm u2 (lt_of_lt_of_le (by positivity) w2)
  rw [← ev] at l1 l2
  have hgn : (binGate (ieeeEnv m bs t) centre c).isNan = false := by
    obtain ⟨s, k, hk, e, -⟩ := gf
    rw [e]; rfl
  refine ⟨hgn, l1, ?_⟩
  have Mp : 0 < meanR (gatedR Ps) := lt_of_lt_of_le (by positivity) hM
  generalize hσ : (((2001 : Nat) : ℝ) + 1) / 2 ^ 51 = σ at *
  have hκs : 1 ≤ (1 + 11 / 10 * η) * binFactor * (1 + σ) ∧ (1 + 11 / 10 * η) * binFactor * (1 + σ) ≤ 11 / 10 := by
    generalize (1 + 11 / 10 * η) * binFactor = κ at k1 k2
    constructor
    · nlinarith
    · calc κ * (1 + σ) ≤ 105 / 100 * (1 + 1 / 100) := mul_le_mul k2 (by linarith) (by linarith) (by norm_num)
        _ ≤ _ := by norm_num
  have h2 : 2 * ((1 + 11 / 10 * η) * binFactor * (1 + σ) * θ) ≤ meanR (gatedR Ps) := by
    refine meanR_ge hne2 fun P hP => ?_
    have hPg : gateR Ps ≤ P := of_decide_eq_true (List.mem_filter.1 hP).2
    rcases hap P (gl P hP) with d | d
    · have a1 : (1 + 11 / 10 * η) * binFactor * (1 + σ) ≤
          (1 + 11 / 10 * η) * binFactor * ((1 + 11 / 10 * η) * binFactor * (1 + σ) * (1 + 1 / 2 ^ 42)) := by
        generalize (1 + 11 / 10 * η) * binFactor = κ at *
        have : κ * (1 + σ) ≤ κ * (1 + σ) * (1 + 1 / 2 ^ 42) :=
          le_mul_of_one_le_right (by positivity) (by norm_num)
        calc κ * (1 + σ) ≤ κ * (1 + σ) * (1 + 1 / 2 ^ 42) := this
          _ ≤ _ := le_mul_of_one_le_left (by positivity) k1
      have a2 := mul_le_mul_of_nonneg_right a1 (show 0 ≤ gateR Ps + 2 * θ by linarith)
      have a3 : 0 ≤ (1 + 11 / 10 * η) * binFactor * (1 + σ) * gateR Ps := mul_nonneg (by linarith [hκs.1]) Γ0.le
      nlinarith
    · exfalso
      have : 1 * (P + 2 * θ) ≤ (1 + 11 / 10 * η) * binFactor * ((1 + 11 / 10 * η) * binFactor * (1 + σ) * (1 + 1 / 2 ^ 42)) *
          (P + 2 * θ) := mul_le_mul_of_nonneg_right (by nlinarith) (by linarith)
      linarith
  obtain ⟨-, w5⟩ := lufs_mixed hκs.1 hθ Mp h2 w1
  rw [lgκ] at w5
  have hbf := logb_binFactor
  have z0 : 0 ≤ θ / meanR (gatedR Ps) := by positivity
  rw [mul_div_assoc] at w5
  have w6 : (1 + 11 / 10 * η) * binFactor * (1 + σ) * (θ / meanR (gatedR Ps)) ≤ 11 / 10 * (θ / meanR (gatedR Ps)) :=
    mul_le_mul_of_nonneg_right hκs.2 z0
  have tri := abs_sub_le v.value (lufs (Fl.div (binTotal (Fl.arith Fmt.b64) centre c
      (binsFrom (ieeeEnv m bs t).f64 centre (binGate (ieeeEnv m bs t) centre c)))
      (Fl.ofInt Fmt.b64 (binCount c (binsFrom (ieeeEnv m bs t).f64 centre (binGate (ieeeEnv m bs t) centre c)) : Int))).value)
      (integratedR Ps)
  unfold integratedR at *
  linarith

/-- **C60**, loudness range, gating. -/
theorem C60_range_gate {δ : ℝ} (hδ : δ ≤ 1) (hm : LogWithin m δ) (ht : HundredthWithin m) {η θ : ℝ} {q : List F64}
    {Ps : List ℝ} (h : List.Forall₂ (Close η θ) q Ps) (hη : 1 / 2 ^ 38 ≤ η) (hη' : η ≤ 1 / 100) (hθ : 0 ≤ θ)
    (hlen : Ps.length ≤ 2 ^ 40) (htop : ∀ P ∈ Ps, P + θ ≤ 1000)
    (h70 : ∀ P ∈ Ps, Apart (1 + 2 * η) (2 * θ) P (energyOf (-70)))
    (h20 : ∀ P ∈ loud Ps, Apart (binFactor ^ 2 * (1 + 4 * η)) (2 * θ) P (rangeGateR Ps))
    {c : Nat → Nat} (hc : ∀ i, c i = q.countP fun x => decide (CountedIn x i)) :
    let v := binRange (ieeeEnv m bs t) centre c
    (loud Ps = [] → v = Fl.zero false) ∧
    (loud Ps ≠ [] → v.Finite ∧ |v.value - rangeR Ps| ≤
      2 * halfBin + 12 * η + 21 * (θ / percentileR (rangeGatedR Ps) 10 100) + 20 * δ + 1 / 10 ^ 11) := by
  intro v
  have ηp : 0 < η := lt_of_lt_of_le (by norm_num) hη
  obtain ⟨k1, k2⟩ := factor_bounds ηp hη'
  obtain ⟨kk, hg1⟩ := factor_gate hη hη'
  obtain ⟨ys, hp, hb, hl, hmean⟩ := bins_mean m bs t h hη hη' hθ hlen h70 htop hc
  constructor
  · intro hnil
    rw [hnil] at hb
    rw [List.forall₂_nil_right_iff.1 hb] at hp
    show spread _ (notBelow _ _ (expand centre c allBins)) = _
    rw [hp.eq_nil]
    rfl
  · intro hne
    obtain ⟨f1, m2, m3, m1⟩ := hmean hne
    obtain ⟨τf, τv⟩ := ht
    obtain ⟨gf, gv⟩ := gate_mixed m1 (by positivity) hθ f1 m2 m3 τf (le_refl _) (by norm_num) τv
    have hΓ : 1 / 100 * meanR (loud Ps) = rangeGateR Ps := by unfold rangeGateR; ring
    rw [hΓ] at gv
    have Γ0 : 0 < rangeGateR Ps := by
      rw [← hΓ]
      have := (loud_mean ηp.le hθ h70 (l := loud Ps) (fun _ h => h) hne).1
      have : (0 : ℝ) < 1 / 10 ^ 7 := by positivity
      linarith
    have ev : v = spread (ieeeEnv m bs t) (notBelow (ieeeEnv m bs t).f64 (Fl.mul (binMean (Fl.arith Fmt.b64) centre c)
        (m.powf (Fl.lit Fmt.b64 10 1) (Fl.lit Fmt.b64 (-2) 1))) (expand centre c allBins)) := by
      rw [Fl.mul_comm]
      rfl
    obtain ⟨r1, r2⟩ := spread_near (bs := bs) (t := t) hδ hm k1 hg1 hθ hb hp (C38_ascending c) gf Γ0 gv (fun P hP => by
      have P0 : 0 ≤ P := (rough_mem hb).2 P hP
      rcases h20 P hP with d | d
      · exact .inl (lt_of_le_of_lt (mul_le_mul_of_nonneg_right kk (by linarith)) d)
      · exact .inr (lt_of_le_of_lt (mul_le_mul_of_nonneg_right kk (by linarith)) d)) (rangeGatedR_ne hne)
    rw [← ev] at r1 r2
    refine ⟨r1, r2.trans ?_⟩
    have lg := (logb_small (z := 11 / 10 * η) (by positivity)).2
    have b1 := binFactor_bounds.1
    have hbf := logb_binFactor
    rw [Real.logb_mul (by positivity) (by positivity)]
    change _ + 20 * ((1 + 11 / 10 * η) * binFactor * θ / percentileR (rangeGatedR Ps) 10 100) + _ + _ ≤ _
    have pm := percentileR_mem (rangeGatedR_ne hne) (num := 10) (den := 100) (by norm_num) (by norm_num)
    have pp : 0 < percentileR (rangeGatedR Ps) 10 100 :=
      lt_of_lt_of_le Γ0 (of_decide_eq_true (List.mem_filter.1 pm).2)
    rw [mul_div_assoc]
    have z0 : 0 ≤ θ / percentileR (rangeGatedR Ps) 10 100 := by positivity
    generalize θ / percentileR (rangeGatedR Ps) 10 100 = z at *
    have : (1 + 11 / 10 * η) * binFactor * z ≤ 105 / 100 * z := mul_le_mul_of_nonneg_right k2 z0
    linarith

/-! ## From the samples on -/

theorem empty_counts {c : List Nat} (h : c.sum = 0) (i : Nat) : c.getD i 0 = 0 := by
  rw [List.getD_eq_getElem?_getD]
  cases hi : c[i]? with
  | none => rfl
  | some a => exact List.sum_eq_zero_iff.1 h a (List.mem_of_getElem? hi)

/-- **C60.** The integrated loudness of an analyzer in histogram mode against BS.1770 in exact arithmetic from the samples
on. If no block is near a gate, where near a relative gate now means within a bin, and none is above +29 LUFS, then the
error is half a bin, 0.05 dB, more than the error from the uncertainty of the blocks. -/
theorem C60_integrated {δ : ℝ} (hδ : δ ≤ 1) (hm : LogWithin m δ) (he : ElemWithin m (1 / 2 ^ 50)) (ht : TenthWithin m)
    {e0 e : Ebu F64 F32} (h : Started (ieeeEnv m bs t) e0)
    (hg : Adequate e0.mode e0.rate e0.window) (hI : e0.mode.contains Mode.I = true) {c0 : List Nat}
    (hq : e0.blockEnergyHistory = .histogram c0) (hc0 : c0.sum = 0) (hr : 8000 ≤ e0.rate) (hr' : e0.rate ≤ 400000)
    {ops : List (Op F64 F32)} (hops : ∀ op ∈ ops, Feed op) (hrun : runOps (ieeeEnv m bs t) e0 ops = .done e)
    {X : ℝ} (hX : 1 / 2 ^ 100 ≤ X) (hX' : X ≤ 2 ^ 60) (hs : t.sse2 = true ∨ 1 / 2 ^ 13 ≤ X)
    (hx : SamplesWithin X (heard (ieeeEnv m bs t) e0.channels ops)) {r : ℝ} (h0 : 1 / 2 ^ 38 ≤ r) (bs' : BSearch) (u : Nat) :
    let E := ieeeEnv m bs t
    let Ps := idealBlocks bs' u e0.rate e0.channelMap (heard E e0.channels ops) (measured E e0.channels ops)
    let η := r + (4 * hop e0.rate + e0.channels + Ps.length + 1024 : ℝ) / 2 ^ 50
    let θ := 3 / r * noisePower e0.channelMap e0.rate X + 1 / 2 ^ 300
    η ≤ 1 / 100 → Ps.length ≤ 2 ^ 40 → (∀ P ∈ Ps, P + θ ≤ 1000) →
    (∀ P ∈ Ps, Apart (1 + 2 * η) (2 * θ) P (energyOf (-70))) →
    (∀ P ∈ loud Ps, Apart (binFactor ^ 2 * (1 + 4 * η)) (2 * θ) P (gateR Ps)) →
    ∃ v : F64, ask E e .loudnessGlobal = .done (.ok v) ∧
      (loud Ps = [] → v = Fl.inf true) ∧
      (loud Ps ≠ [] → v.Finite ∧ |v.value - integratedR Ps| ≤
        halfBin + 10 * η + 11 * (θ / meanR (gatedR Ps)) + 10 * δ + 1 / 10 ^ 12) := by
  intro E Ps η θ hη hlen htop h70 h10
  have hi := h.reachable.inv
  have hhop : 0 < hop e0.rate := by
    unfold hop
    omega
  have hhop' : 4 * hop e0.rate ≤ 2 ^ 21 := by
    unfold hop
    omega
  have r0 : 0 < r := lt_of_lt_of_le (by positivity) h0
  have hPl : Ps.length = (blockEnds (hop e0.rate) (measured E e0.channels ops)).length := List.length_map ..
  have eη : η = r + ((4 * hop e0.rate : Nat) + e0.channels +
      (blockEnds (hop e0.rate) (measured E e0.channels ops)).length + 1024 : ℝ) / 2 ^ 50 := by
    show r + _ = _
    rw [hPl]
    push_cast
    rfl
  have hrη : r ≤ η := by
    rw [eη]
    have : (0 : ℝ) ≤ ((4 * hop e0.rate : Nat) + e0.channels +
      (blockEnds (hop e0.rate) (measured E e0.channels ops)).length + 1024 : ℝ) / 2 ^ 50 := by positivity
    linarith
  obtain ⟨⟨c1, -⟩, c3, -⟩ := blocks_close (bs := bs) (t := t) he hr hr' hX hX' hs hx (capacity e0.rate e0.window)
    (N := 4 * hop e0.rate) (blockEnds (hop e0.rate) (measured E e0.channels ops)) e0.channelMap hi.map hi.ch64
    (by omega) hhop' r0 bs' u (by rw [← eη]; exact hη)
  rw [← eη] at c3
  have hb := (C61_blocks (ieee_zero m bs t) h hg hops hrun).1 hI
  rw [hq] at hb
  obtain ⟨c, d1, d2, d3⟩ := C33_counts (m := m) (bs := bs) (t := t) (hist_length h.reachable hq)
    ((blockEnds (hop e0.rate) (measured E e0.channels ops)).map fun n =>
      energy E (capacity e0.rate e0.window) (4 * hop e0.rate) n e0.channelMap (signalOn E e0.rate e0.channels ops))
  rw [d1] at hb
  injection hb with hb
  have hre : Reachable E e := reachable_run h.reachable hrun
  have hI' : e.mode.contains Mode.I = true := by rw [runFeeds_mode hops hi hrun]; exact hI
  obtain ⟨g1, g2⟩ := C60_gate (bs := bs) (t := t) hδ hm ht c3 (h0.trans hrη) hη c1 hlen htop h70 h10
    (c := fun i => c.getD i 0) (fun i => by rw [d3, empty_counts hc0, Nat.zero_add])
  by_cases hne : loud Ps = []
  · have hsum : c.sum = 0 := by
      rw [sum_range _ d2] at g1
      rw [g1]
      exact List.length_eq_zero_iff.2 hne
    refine ⟨Fl.inf true, ?_, fun _ => rfl, fun hc => absurd hne hc⟩
    have : e.loudnessGlobal E = .done (.ok (Fl.inf true)) := by
      rw [Ebu.loudnessGlobal_eq hre.inv, if_pos hI', calc_none _ hre.inv.hist (by rw [← hb]; exact hsum)]
      rfl
    exact this
  · obtain ⟨n1, n2⟩ := g2 hne
    exact ⟨_, C33_loudness hre hI' hb.symm n1, fun hc => absurd hc hne, fun _ => n2⟩

/-- **C60.** The same for the loudness range, with two bounds of bins and so twice half a bin. -/
theorem C60_range {δ : ℝ} (hδ : δ ≤ 1) (hm : LogWithin m δ) (he : ElemWithin m (1 / 2 ^ 50)) (ht : HundredthWithin m)
    (hu : t.usizeMax ≤ 2 ^ 64) {e0 e : Ebu F64 F32} (h : Started (ieeeEnv m bs t) e0)
    (hg : Adequate e0.mode e0.rate e0.window) (hL : e0.mode.contains Mode.LRA = true) {c0 : List Nat}
    (hq : e0.shortTermBlockEnergyHistory = .histogram c0) (hc0 : c0.sum = 0) (hr : 8000 ≤ e0.rate) (hr' : e0.rate ≤ 400000)
    {ops : List (Op F64 F32)} (hops : ∀ op ∈ ops, Feed op) (hrun : runOps (ieeeEnv m bs t) e0 ops = .done e)
    {X : ℝ} (hX : 1 / 2 ^ 100 ≤ X) (hX' : X ≤ 2 ^ 60) (hs : t.sse2 = true ∨ 1 / 2 ^ 13 ≤ X)
    (hx : SamplesWithin X (heard (ieeeEnv m bs t) e0.channels ops)) {r : ℝ} (h0 : 1 / 2 ^ 38 ≤ r) (bs' : BSearch) (u : Nat) :
    let E := ieeeEnv m bs t
    let Ps := idealShorts bs' u e0.rate e0.channelMap (heard E e0.channels ops) (measured E e0.channels ops)
    let η := r + (30 * hop e0.rate + e0.channels + Ps.length + 1024 : ℝ) / 2 ^ 50
    let θ := 3 / r * noisePower e0.channelMap e0.rate X + 1 / 2 ^ 300
    η ≤ 1 / 100 → Ps.length ≤ 2 ^ 40 → (∀ P ∈ Ps, P + θ ≤ 1000) →
    (∀ P ∈ Ps, Apart (1 + 2 * η) (2 * θ) P (energyOf (-70))) →
    (∀ P ∈ loud Ps, Apart (binFactor ^ 2 * (1 + 4 * η)) (2 * θ) P (rangeGateR Ps)) →
    ∃ v : F64, ask E e .loudnessRange = .done (.ok v) ∧
      (loud Ps = [] → v = Fl.zero false) ∧
      (loud Ps ≠ [] → v.Finite ∧ |v.value - rangeR Ps| ≤
        2 * halfBin + 12 * η + 21 * (θ / percentileR (rangeGatedR Ps) 10 100) + 20 * δ + 1 / 10 ^ 11) := by
  intro E Ps η θ hη hlen htop h70 h20
  have hi := h.reachable.inv
  have hhop : 0 < hop e0.rate := by
    unfold hop
    omega
  have hhop' : 30 * hop e0.rate ≤ 2 ^ 21 := by
    unfold hop
    omega
  have r0 : 0 < r := lt_of_lt_of_le (by positivity) h0
  have hPl : Ps.length = (shortEnds (hop e0.rate) (measured E e0.channels ops)).length := List.length_map ..
  have eη : η = r + ((30 * hop e0.rate : Nat) + e0.channels +
      (shortEnds (hop e0.rate) (measured E e0.channels ops)).length + 1024 : ℝ) / 2 ^ 50 := by
    show r + _ = _
    rw [hPl]
    push_cast
    rfl
  have hrη : r ≤ η := by
    rw [eη]
    have : (0 : ℝ) ≤ ((30 * hop e0.rate : Nat) + e0.channels +
      (shortEnds (hop e0.rate) (measured E e0.channels ops)).length + 1024 : ℝ) / 2 ^ 50 := by positivity
    linarith
  obtain ⟨⟨c1, -⟩, c3, -⟩ := blocks_close (bs := bs) (t := t) he hr hr' hX hX' hs hx (capacity e0.rate e0.window)
    (N := 30 * hop e0.rate) (shortEnds (hop e0.rate) (measured E e0.channels ops)) e0.channelMap hi.map hi.ch64
    (by omega) hhop' r0 bs' u (by rw [← eη]; exact hη)
  rw [← eη] at c3
  have hb := (C61_shorts (ieee_zero m bs t) h hg hops hrun).1 hL
  rw [hq] at hb
  obtain ⟨c, d1, d2, d3⟩ := C33_counts (m := m) (bs := bs) (t := t) (st_hist_length h.reachable hq)
    ((shortEnds (hop e0.rate) (measured E e0.channels ops)).map fun n =>
      energy E (capacity e0.rate e0.window) (30 * hop e0.rate) n e0.channelMap (signalOn E e0.rate e0.channels ops))
  rw [d1] at hb
  injection hb with hb
  have hre : Reachable E e := reachable_run h.reachable hrun
  have hL' : e.mode.contains Mode.LRA = true := by rw [runFeeds_mode hops hi hrun]; exact hL
  simp only [empty_counts hc0, Nat.zero_add] at d3
  obtain ⟨g1, g2⟩ := C60_range_gate (bs := bs) (t := t) hδ hm ht c3 (h0.trans hrη) hη c1 hlen htop h70 h20
    (c := fun i => c.getD i 0) d3
  obtain ⟨-, -, -, g3, -⟩ := bins_mean m bs t c3 (h0.trans hrη) hη c1 hlen h70 htop (c := fun i => c.getD i 0) d3
  rw [sum_range _ d2] at g3
  have : (loud Ps).length ≤ Ps.length := List.length_filter_le ..
  have hsum : c.sum ≤ 2 ^ 46 := by
    rw [g3]
    exact this.trans (by omega)
  exact ⟨_, C38_range hu hre hL' hb.symm hsum, g1, g2⟩

/-! ## A block with a click -/

/-- The analyzer of the example of C58, in histogram mode: the integrated loudness is, to 0.15 dB, that of a block of 19200
values all zero except one of 1.535. -/
example (bs : BSearch) (h64 : 2 ^ 64 - 1 ≤ t.usizeMax) :
    ∃ e0 e : Ebu F64 F32, Ebu.new (ieeeEnv Demo.libm57 bs t) 1 48000 (Mode.I ||| Mode.HISTOGRAM) = .done (.ok e0) ∧
      runOps (ieeeEnv Demo.libm57 bs t) e0 (Demo.late 19199) = .done e ∧
      ∃ (v : F64) (b : ℝ), ask (ieeeEnv Demo.libm57 bs t) e .loudnessGlobal = .done (.ok v) ∧
        Rounds b 1.53512485958697 ∧ |v.value - lufs (b ^ 2 / 19200)| ≤ 0.15 := by
  generalize hops : Demo.late 19199 = ops
  have hint : ∀ op ∈ ops, IntegerFeed op := by
    intro op hop
    simp only [← hops, Demo.late, List.mem_singleton] at hop
    subst hop; trivial
  have hfeed : ∀ op ∈ ops, Feed op := by
    intro op hop
    simp only [← hops, Demo.late, List.mem_singleton] at hop
    subst hop; trivial
  obtain ⟨e0, he⟩ := (C01_new_64 (ieeeEnv Demo.libm57 bs t) h64 1 48000 (Mode.I ||| Mode.HISTOGRAM)).1.2
    ⟨⟨by omega, by omega, by omega, by omega⟩, by decide⟩
  have hst := Started.new he
  obtain ⟨e, hrun⟩ := C09_plain h64 he (by omega) ops (by
    intro op hop
    simp only [← hops, Demo.late, List.mem_singleton] at hop
    subst hop; trivial)
  refine ⟨e0, e, he, hrun, ?_⟩
  obtain ⟨rfl, -⟩ := Ebu.new_ok he
  obtain ⟨b0, b1, b2, a1, a2, c1, c2, hb, -, hr0, -⟩ := C53_itu bs 0
  have hw : realWeight .left = 1 := by simp [realWeight, surrounds]
  have hh := Demo.late_heard (m := Demo.libm57) (bs := bs) (t := t) 19199
  rw [hops] at hh
  have ho : idealOuts bs 0 48000 (heard (ieeeEnv Demo.libm57 bs t) 1 ops) 0 = List.replicate 19199 0 ++ [b0 * -1] := by
    rw [hh]
    generalize 19199 = n
    unfold idealOuts
    push_cast at hb ⊢
    rw [hb, show realEvents (List.replicate n ⟨true, [(i16Ops (ieeeEnv Demo.libm57 bs t)).toF64 0]⟩ ++
      [⟨true, [(i16Ops (ieeeEnv Demo.libm57 bs t)).toF64 (-32768)]⟩]) =
      (List.replicate n [(0 : ℝ)] ++ [[-1]]).map fun f => ⟨true, f⟩ by
        simp [realEvents, Demo.silence_value, Demo.pulse_value], outs_all,
      show List.map (fun f : List ℝ => f.getD 0 0) (List.replicate n [0] ++ [[-1]]) = List.replicate n 0 ++ [-1] by simp,
      filtered_late]
    simp [cascade]
  have hP : idealPower [.left] 19200 19200 (idealOuts bs 0 48000 (heard (ieeeEnv Demo.libm57 bs t) 1 ops)) =
      b0 ^ 2 / 19200 := by
    unfold idealPower
    simp only [List.zipIdx_cons, List.zipIdx_nil, List.map_cons, List.map_nil, List.sum_cons, List.sum_nil, hw, ho]
    rw [meanSquare_late 19199]
    norm_num
  have hmeas : measured (ieeeEnv Demo.libm57 bs t) 1 ops = 19200 := by
    rw [← hops]
    exact Demo.late_measured 19199
  have hb0 : 1535 / 1000 ≤ b0 ∧ b0 ≤ 1536 / 1000 := by
    have := abs_le.1 hr0
    norm_num at this ⊢
    constructor <;> linarith
  have hg : stateGain 48000 ≤ 3000000 := by unfold stateGain; norm_num
  have hg0 : 0 ≤ stateGain 48000 := by unfold stateGain; positivity
  have hb2 : (1535 / 1000) ^ 2 ≤ b0 ^ 2 := pow_le_pow_left₀ (by norm_num) hb0.1 2
  have hb3 : b0 ^ 2 ≤ (1536 / 1000) ^ 2 := pow_le_pow_left₀ (by linarith [hb0.1]) hb0.2 2
  have e1 : 4 * hop 48000 = 19200 := by decide
  have hblocks : idealBlocks bs 0 48000 [.left] (heard (ieeeEnv Demo.libm57 bs t) 1 ops)
      (measured (ieeeEnv Demo.libm57 bs t) 1 ops) = [b0 ^ 2 / 19200] := by
    unfold idealBlocks
    rw [hmeas, show blockEnds (hop 48000) 19200 = [19200] by decide, e1, List.map_singleton, hP]
  have hmain : ∀ Ps : List ℝ, Ps = idealBlocks bs 0 48000 [.left] (heard (ieeeEnv Demo.libm57 bs t) 1 ops)
        (measured (ieeeEnv Demo.libm57 bs t) 1 ops) →
      ∀ η θ : ℝ, η = 1 / 500 + (4 * (hop 48000 : Nat) + (1 : Nat) + Ps.length + 1024 : ℝ) / 2 ^ 50 →
      θ = 3 / (1 / 500) * noisePower [.left] 48000 1 + 1 / 2 ^ 300 →
      η ≤ 1 / 100 → Ps.length ≤ 2 ^ 40 → (∀ P ∈ Ps, P + θ ≤ 1000) →
      (∀ P ∈ Ps, Apart (1 + 2 * η) (2 * θ) P (energyOf (-70))) →
      (∀ P ∈ loud Ps, Apart (binFactor ^ 2 * (1 + 4 * η)) (2 * θ) P (gateR Ps)) →
      ∃ v : F64, ask (ieeeEnv Demo.libm57 bs t) e .loudnessGlobal = .done (.ok v) ∧
        (loud Ps = [] → v = Fl.inf true) ∧
        (loud Ps ≠ [] → v.Finite ∧ |v.value - integratedR Ps| ≤
          halfBin + 10 * η + 11 * (θ / meanR (gatedR Ps)) + 10 * (1 / 10 ^ 5) + 1 / 10 ^ 12) := by
    rintro Ps rfl η θ rfl rfl
    exact C60_integrated (by norm_num) Demo.libm57_within.1 Demo.libm57_within.2 Demo.libm57_tenth hst
      (show Adequate (Mode.I ||| Mode.HISTOGRAM) 48000 (minWindow (Mode.I ||| Mode.HISTOGRAM)) by decide)
      (by show (Mode.I ||| Mode.HISTOGRAM).contains Mode.I = true; decide) (c0 := List.replicate 1000 0) rfl zeros_sum
      (by show 8000 ≤ 48000; omega) (by show 48000 ≤ 400000; omega)
      hfeed hrun (X := 1) (by norm_num) (by norm_num) (.inr (by norm_num)) (C57_integer hint) (r := 1 / 500) (by norm_num) bs 0
  have hp1 : 122 / 10 ^ 6 ≤ b0 ^ 2 / 19200 := by norm_num at hb2 ⊢; linarith
  have hp2 : b0 ^ 2 / 19200 ≤ 124 / 10 ^ 6 := by norm_num at hb3 ⊢; linarith
  generalize hPe : b0 ^ 2 / 19200 = P at hblocks hp1 hp2
  have P0 : 0 < P := lt_of_lt_of_le (by norm_num) hp1
  have g0 : 0 < energyOf (-70) := lt_of_lt_of_le (by norm_num) gate70.1
  have g1 : energyOf (-70) ≤ 1 / 10 ^ 6 := by
    unfold energyOf
    rw [show (1 : ℝ) / 10 ^ 6 = 10 ^ (-6 : ℝ) by
      rw [Real.rpow_neg (by norm_num), one_div]; norm_num]
    exact Real.rpow_le_rpow_of_exponent_le (by norm_num) (by norm_num)
  have hl : loud [P] = [P] := by
    unfold loud
    rw [List.filter_cons_of_pos (by simp; linarith), List.filter_nil]
  have hm1 : meanR [P] = P := by simp [meanR]
  have hgr : gateR [P] = P / 10 := by rw [gateR, hl, hm1]
  have hgd : gatedR [P] = [P] := by
    rw [gatedR, hl, hgr, List.filter_cons_of_pos (by simp; linarith), List.filter_nil]
  have hη : ∀ η : ℝ, η = 1 / 500 + (4 * (hop 48000 : Nat) + (1 : Nat) + [P].length + 1024 : ℝ) / 2 ^ 50 →
      0 ≤ η ∧ η ≤ 1 / 499 := by
    rintro η rfl
    rw [show hop 48000 = 4800 by decide]
    norm_num
  have hθ : ∀ θ : ℝ, θ = 3 / (1 / 500) * noisePower [.left] 48000 1 + 1 / 2 ^ 300 → 0 ≤ θ ∧ θ ≤ 2 / 10 ^ 7 := by
    rintro θ rfl
    have : (stateGain 48000 / 2 ^ 38 * 1) ^ 2 ≤ (3000000 / 2 ^ 38) ^ 2 := by
      rw [mul_one]
      exact pow_le_pow_left₀ (by positivity) (div_le_div_of_nonneg_right hg (by positivity)) 2
    have w1 : totalWeight [.left] = 1 := by simp [totalWeight, hw]
    unfold noisePower
    rw [w1, one_mul]
    have t0 : (0 : ℝ) < 1 / 2 ^ 300 := by positivity
    have t1 : (1 : ℝ) / 2 ^ 300 ≤ 1 / 2 ^ 60 := one_div_le_one_div_of_le (by positivity) (big_le (by norm_num))
    have n0 : 0 ≤ (stateGain 48000 / 2 ^ 38 * 1) ^ 2 := by positivity
    generalize (1 : ℝ) / 2 ^ 300 = τ at *
    generalize (stateGain 48000 / 2 ^ 38 * 1) ^ 2 = ν at *
    norm_num at this t1 ⊢
    constructor <;> linarith
  obtain ⟨η, rη⟩ : ∃ η : ℝ, η = 1 / 500 + (4 * (hop 48000 : Nat) + (1 : Nat) + [P].length + 1024 : ℝ) / 2 ^ 50 := ⟨_, rfl⟩
  obtain ⟨θ, rθ⟩ : ∃ θ : ℝ, θ = 3 / (1 / 500) * noisePower [.left] 48000 1 + 1 / 2 ^ 300 := ⟨_, rfl⟩
  obtain ⟨η0, η1⟩ := hη η rη
  obtain ⟨θ0, θ1⟩ := hθ θ rθ
  have b1 := binFactor_bounds
  have b2 : binFactor ^ 2 ≤ (103 / 100) ^ 2 := pow_le_pow_left₀ (by linarith) b1.2 2
  obtain ⟨v, v1, -, v2⟩ := hmain [P] hblocks.symm η θ rη rθ (by linarith) (by simp) (by
    intro Q hQ
    rw [List.mem_singleton.1 hQ]
    norm_num at hp2 θ1
    linarith) (by
    intro Q hQ
    rw [List.mem_singleton.1 hQ]
    refine .inl ?_
    have : (1 + 2 * η) * (energyOf (-70) + 2 * θ) ≤ (1 + 2 * (1 / 499)) * (1 / 10 ^ 6 + 2 * (2 / 10 ^ 7)) :=
      mul_le_mul (by linarith) (by linarith) (by linarith) (by norm_num)
    norm_num at this hp1
    linarith) (by
    intro Q hQ
    rw [hl] at hQ
    rw [List.mem_singleton.1 hQ, hgr]
    refine .inl ?_
    have a1 : binFactor ^ 2 * (1 + 4 * η) ≤ (103 / 100) ^ 2 * (1 + 4 * (1 / 499)) :=
      mul_le_mul b2 (by linarith) (by linarith) (by norm_num)
    have : binFactor ^ 2 * (1 + 4 * η) * (P / 10 + 2 * θ) ≤
        (103 / 100) ^ 2 * (1 + 4 * (1 / 499)) * (P / 10 + 2 * (2 / 10 ^ 7)) :=
      mul_le_mul a1 (by linarith) (by linarith) (by norm_num)
    norm_num at this hp1
    linarith)
  have v3 := (v2 (by rw [hl]; simp)).2
  rw [integratedR, hgd, hm1] at v3
  have hθP : θ / P ≤ 2 / 1220 := by
    rw [div_le_iff₀ P0]
    linarith
  refine ⟨v, b0, v1, hr0, ?_⟩
  rw [hPe]
  refine v3.trans ?_
  unfold halfBin
  norm_num
  linarith

end Verif
