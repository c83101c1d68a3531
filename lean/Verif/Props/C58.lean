import Verif.Proofs.GateErr
import Verif.Props.C34
import Verif.Props.C31
import Verif.Props.C44
import Verif.Props.C12
/-!
# C58: accuracy of the integrated loudness
-/

namespace Verif
open Spec Fl
variable {m : Libm F64} {bs : BSearch} {t : Target}

/-- The libm's `10^-1`, the factor of the relative gate, is accurate. -/
def Spec.TenthWithin (m : Libm F64) : Prop :=
  let x := m.powf (Fl.lit Fmt.b64 10 1) (Fl.lit Fmt.b64 (-1) 1)
  x.Finite ∧ |x.value - 1 / 10| ≤ 1 / 2 ^ 50

theorem lt_of_value {x y : F64} (hx : x.Finite) (hy : y.Finite) (h : x.value < y.value) : Fl.lt x y = true := by
  obtain ⟨s, k, hk, rfl, -⟩ := hx
  obtain ⟨s', k', hk', rfl, -⟩ := hy
  by_contra hc
  rw [Bool.not_eq_true, Fl.not_lt rfl rfl] at hc
  exact absurd (value_fle hc) (not_le.2 h)

theorem le_of_value {x y : F64} (hx : x.Finite) (hy : y.Finite) (h : x.value < y.value) : Fl.le x y = true := by
  have := lt_of_value hx hy h
  obtain ⟨s, k, hk, rfl, -⟩ := hx
  obtain ⟨s', k', hk', rfl, -⟩ := hy
  by_contra hc
  rw [Fl.lt_rank rfl rfl] at this
  rw [Fl.le_rank rfl rfl] at hc
  omega

theorem forall₂_filter {α β : Type} {R : α → β → Prop} {p : α → Bool} {p' : β → Bool} {l : List α} {l' : List β}
    (h : List.Forall₂ R l l') (hp : ∀ x y, y ∈ l' → R x y → p x = p' y) :
    List.Forall₂ R (l.filter p) (l'.filter p') := by
  induction h with
  | nil => exact .nil
  | @cons x y l l' h1 _ ih =>
    have e := hp x y (List.mem_cons_self ..) h1
    have := ih fun x y hy => hp x y (List.mem_cons_of_mem _ hy)
    rw [List.filter_cons, List.filter_cons, e]
    split
    · exact .cons h1 this
    · exact this

theorem gate70 : 1 / 10 ^ 7 ≤ energyOf (-70) ∧ energyOf (-70) ≤ 1 := by
  unfold energyOf
  constructor
  · rw [show (1 : ℝ) / 10 ^ 7 = 10 ^ (-7 : ℝ) by
      rw [Real.rpow_neg (by norm_num), one_div]; norm_num]
    exact Real.rpow_le_rpow_of_exponent_le (by norm_num) (by norm_num)
  · exact Real.rpow_le_one_of_one_le_of_nonpos (by norm_num) (by norm_num)

theorem loud_mem {Ps : List ℝ} {P : ℝ} (h : P ∈ loud Ps) : P ∈ Ps ∧ energyOf (-70) ≤ P := by
  have := List.mem_filter.1 h
  exact ⟨this.1, of_decide_eq_true this.2⟩

theorem sum_ge {l : List ℝ} {c : ℝ} (h : ∀ x ∈ l, c ≤ x) : l.length * c ≤ l.sum := by
  induction l with
  | nil => simp
  | cons x l ih =>
    have h1 := h x (List.mem_cons_self ..)
    have h2 := ih fun y hy => h y (List.mem_cons_of_mem _ hy)
    rw [List.sum_cons, List.length_cons]
    push_cast
    linarith

theorem meanR_ge {l : List ℝ} {c : ℝ} (hne : l ≠ []) (h : ∀ x ∈ l, c ≤ x) : c ≤ meanR l := by
  have n0 : (0 : ℝ) < l.length := by exact_mod_cast List.length_pos_iff.2 hne
  unfold meanR
  rw [le_div_iff₀ n0, _root_.mul_comm]
  exact sum_ge h

/-- Some block always passes the relative gate. -/
theorem gatedR_ne {Ps : List ℝ} (h : loud Ps ≠ []) : gatedR Ps ≠ [] := by
  intro hc
  have n0 : (0 : ℝ) < (loud Ps).length := by exact_mod_cast List.length_pos_iff.2 h
  have hall : ∀ P ∈ loud Ps, P ≤ gateR Ps := by
    intro P hP
    by_contra hlt
    have : P ∈ gatedR Ps := List.mem_filter.2 ⟨hP, decide_eq_true (not_le.1 hlt).le⟩
    rw [hc] at this
    cases this
  have h1 := sum_le_mul hall
  have h2 := sum_ge (l := loud Ps) fun P hP => (loud_mem hP).2
  have g0 := gate70.1
  have e : (loud Ps).length * gateR Ps = (loud Ps).sum / 10 := by
    unfold gateR meanR
    field_simp
  rw [e] at h1
  have : (0 : ℝ) < (loud Ps).length * energyOf (-70) := mul_pos n0 (lt_of_lt_of_le (by norm_num) g0)
  linarith

theorem tiny_le : (1 : ℝ) / 2 ^ 300 ≤ 1 / 10 ^ 7 :=
  one_div_le_one_div_of_le (by norm_num) ((by norm_num : (10 : ℝ) ^ 7 ≤ 2 ^ 24).trans (big_le (by norm_num)))

/-- The computed relative gate. -/
theorem gate_close (ht : TenthWithin m) {η θ : ℝ} {l : List F64} {A : List ℝ} (h : List.Forall₂ (Close η θ) l A)
    (hne : A ≠ []) (hη : ((A.length : ℝ) + 64) / 2 ^ 50 ≤ η) (hη' : η ≤ 1 / 100) (hθ : 0 ≤ θ) (hlen : A.length ≤ 2 ^ 40)
    (htop : A.sum + A.length * θ ≤ 2 ^ 200) (hM : 1 / 10 ^ 7 ≤ meanR A) :
    (gateLevel (ieeeEnv m bs t) l).Finite ∧
      |(gateLevel (ieeeEnv m bs t) l).value - meanR A / 10| ≤ 2 * (η * (meanR A / 10) + θ) := by
  have N0 : (0 : ℝ) ≤ A.length := by positivity
  have hM' : 1 / 2 ^ 300 ≤ meanR A := _root_.le_trans tiny_le hM
  obtain ⟨f, n, hm⟩ := mean_close h hne (_root_.le_trans (div_le_div_of_nonneg_right (by linarith) (by positivity)) hη)
    hη' hθ hlen htop hM'
  obtain ⟨tf, tv⟩ := ht
  have e : gateLevel (ieeeEnv m bs t) l = Fl.mul (mean (Fl.arith Fmt.b64) l)
    (m.powf (Fl.lit Fmt.b64 10 1) (Fl.lit Fmt.b64 (-1) 1)) := rfl
  rw [e]
  have M1 : meanR A + θ ≤ 2 ^ 200 + 1 := by
    have n0 : (1 : ℝ) ≤ A.length := by exact_mod_cast List.length_pos_iff.2 hne
    have k : meanR A + θ = (A.sum + A.length * θ) / A.length := by
      unfold meanR
      field_simp
    rw [k]
    have : (A.sum + A.length * θ) / A.length ≤ 2 ^ 200 := (div_le_div_of_nonneg_right htop N0).trans
      (div_le_self (by positivity) n0)
    linarith
  generalize mean (Fl.arith Fmt.b64) l = x at *
  generalize m.powf (Fl.lit Fmt.b64 10 1) (Fl.lit Fmt.b64 (-1) 1) = τ at *
  generalize meanR A = M at *
  have x0 := n.value_nonneg
  have M0 : 0 < M := lt_of_lt_of_le (by norm_num) hM
  have η0 : 64 / 2 ^ 50 ≤ η := _root_.le_trans (div_le_div_of_nonneg_right (by linarith) (by positivity)) hη
  have ηp : 0 < η := lt_of_lt_of_le (by norm_num) η0
  obtain ⟨t1, t2⟩ := abs_le.1 tv
  have τ0 : 0 ≤ τ.value := by norm_num at t1 ⊢; linarith
  have τ1 : τ.value ≤ 1001 / 10000 := by norm_num at t2 ⊢; linarith
  have xb : x.value ≤ 2 * (M + θ) := by
    have := (abs_le.1 hm).2
    have k : η * M ≤ 1 / 100 * M := mul_le_mul_of_nonneg_right hη' M0.le
    linarith
  have gf : (Fl.mul x τ).Finite := by
    refine mul_finite Fmt.ok64 f tf ?_
    rw [abs_of_nonneg (by positivity)]
    have : x.value * τ.value ≤ x.value * 1 := mul_le_mul_of_nonneg_left (by linarith) x0
    have tp := top64
    norm_num at tp M1 ⊢
    linarith
  have ge := round_exact b64_ok.1 (mul_err b64_ok.1 f tf gf)
  refine ⟨gf, ?_⟩
  rw [abs_of_nonneg (by positivity : 0 ≤ x.value * τ.value), eps64] at ge
  have e2 : 2 * eta Fmt.b64 ≤ η * M / 1000 := by
    have := eta64
    have : (64 / 2 ^ 50) * (1 / 10 ^ 7) ≤ η * M := mul_le_mul η0 hM (by positivity) ηp.le
    norm_num at *
    linarith
  have d1 : |x.value * τ.value - M / 10| ≤ (13 / 10 * η * M + 101 / 100 * θ) * (1001 / 10000) + M * (1 / 2 ^ 50) := by
    rw [show x.value * τ.value - M / 10 = (x.value - M) * τ.value + M * (τ.value - 1 / 10) by ring]
    refine (abs_add_le _ _).trans ?_
    rw [abs_mul, abs_mul, abs_of_nonneg τ0, abs_of_pos M0]
    exact add_le_add (mul_le_mul hm τ1 τ0 (by positivity)) (mul_le_mul_of_nonneg_left tv M0.le)
  have d2 : M * (1 / 2 ^ 50) ≤ η * M / 64 := by
    have := mul_le_mul_of_nonneg_right η0 M0.le
    linarith
  have d3 : x.value * τ.value ≤ 2 * (M + θ) := by
    have : x.value * τ.value ≤ x.value * 1 := mul_le_mul_of_nonneg_left (by linarith) x0
    linarith
  have d4 : 2 * (1 / 2 ^ 53) * (x.value * τ.value) ≤ η * M / 100 + θ / 100 := by
    have k1 : 2 * (1 / 2 ^ 53) * (x.value * τ.value) ≤ 2 * (1 / 2 ^ 53) * (2 * (M + θ)) :=
      mul_le_mul_of_nonneg_left d3 (by positivity)
    have := mul_le_mul_of_nonneg_right η0 M0.le
    norm_num at k1 this ⊢
    linarith
  have tri := abs_sub_le (Fl.mul x τ).value (x.value * τ.value) (M / 10)
  have p := mul_pos ηp M0
  linarith

theorem bnd0_finite : (bnd 0).Finite ∧ (1 - 4 / 10 ^ 14) * energyOf (-70) ≤ (bnd 0).value ∧
    (bnd 0).value ≤ (1 + 4 / 10 ^ 14) * energyOf (-70) := by
  have h := bnd_value (i := 0) (by omega)
  rw [show (-70 + ((0 : Nat) : ℝ) / 10) = -70 by norm_num] at h
  obtain ⟨hk, e⟩ := bnd_key 0
  exact ⟨by rw [e]; exact finite_num.2 (by decide +kernel), h⟩

/-- **C58**, gating. Block energies known up to `η P + θ` pass the same gates as the exact powers, if no power is within
twice its uncertainty of a gate, and then the integrated loudness is accurate. -/
theorem C58_gate {δ : ℝ} (hδ : δ ≤ 1) (hm : LogWithin m δ) (ht : TenthWithin m) {η θ : ℝ} {q : List F64} {Ps : List ℝ}
    (h : List.Forall₂ (Close η θ) q Ps) (hη : ((Ps.length : ℝ) + 64) / 2 ^ 50 ≤ η) (hη' : η ≤ 1 / 100) (hθ : 0 ≤ θ)
    (hlen : Ps.length ≤ 2 ^ 40) (htop : ∀ P ∈ Ps, P + θ ≤ 2 ^ 150)
    (h70 : ∀ P ∈ Ps, 2 * (η * P + θ) < |P - energyOf (-70)|)
    (h10 : ∀ P ∈ loud Ps, 2 * (η * P + θ) + 2 * (η * gateR Ps + θ) < |P - gateR Ps|) :
    let v := integrated (ieeeEnv m bs t) (ungated (ieeeEnv m bs t) (bnd 0) q)
    (loud Ps = [] → v = Fl.inf true) ∧
    (loud Ps ≠ [] → v.Finite ∧
      |v.value - integratedR Ps| ≤ 20 * (η + θ / meanR (gatedR Ps)) + 10 * δ + 1 / 10 ^ 12) := by
  intro v
  have N0 : (0 : ℝ) ≤ Ps.length := by positivity
  have η0 : 64 / 2 ^ 50 ≤ η := _root_.le_trans (div_le_div_of_nonneg_right (by linarith) (by positivity)) hη
  have ηp : 0 < η := lt_of_lt_of_le (by norm_num) η0
  obtain ⟨bf, b1, b2⟩ := bnd0_finite
  have g0 := gate70.1
  have gp : 0 < energyOf (-70) := lt_of_lt_of_le (by norm_num) g0
  have hA : List.Forall₂ (Close η θ) (ungated (ieeeEnv m bs t) (bnd 0) q) (loud Ps) := by
    refine forall₂_filter h fun x P hP hx => ?_
    obtain ⟨xf, -, P0, hxP⟩ := hx
    have hg := h70 P hP
    obtain ⟨c1, c2⟩ := abs_le.1 hxP
    have ηP : 64 / 2 ^ 50 * P ≤ η * P := mul_le_mul_of_nonneg_right η0 P0
    show (!Fl.lt x (bnd 0)) = decide _
    by_cases hc : energyOf (-70) ≤ P
    · rw [decide_eq_true hc]
      rw [abs_of_nonneg (by linarith)] at hg
      have : (bnd 0).value < x.value := by
        norm_num at b2 ηP ⊢
        linarith
      have hl := lt_of_value bf xf this
      have : Fl.lt x (bnd 0) = false := by
        rw [Bool.eq_false_iff]
        intro hh
        have k1 := value_fle (x := x) (y := bnd 0) (by
          obtain ⟨s, k, hk, rfl, -⟩ := xf
          rw [Fl.lt_rank rfl (bnd_not_nan 0)] at hh
          rw [Fl.le_rank rfl (bnd_not_nan 0)]
          omega)
        linarith
      rw [this]; rfl
    · rw [decide_eq_false hc]
      rw [not_le] at hc
      rw [abs_of_neg (by linarith)] at hg
      have : x.value < (bnd 0).value := by
        norm_num at b1 ηP ⊢
        linarith
      rw [lt_of_value xf bf this]; rfl
  constructor
  · intro hnil
    rw [hnil] at hA
    have : ungated (ieeeEnv m bs t) (bnd 0) q = [] := by
      cases hA' : ungated (ieeeEnv m bs t) (bnd 0) q with
      | nil => rfl
      | cons => rw [hA'] at hA; cases hA
    show integrated _ _ = _
    rw [this]
    rfl
  · intro hne
    have hAlen : (loud Ps).length ≤ Ps.length := List.length_filter_le ..
    have hAR : ((loud Ps).length : ℝ) ≤ Ps.length := by exact_mod_cast hAlen
    have hB : (gatedR Ps).length ≤ (loud Ps).length := List.length_filter_le ..
    have hBR : ((gatedR Ps).length : ℝ) ≤ (loud Ps).length := by exact_mod_cast hB
    have hl40 : (Ps.length : ℝ) ≤ 2 ^ 40 := by exact_mod_cast hlen
    have htopl : ∀ l : List ℝ, (∀ P ∈ l, P ∈ Ps) → l.length ≤ Ps.length → l.sum + l.length * θ ≤ 2 ^ 200 := by
      intro l hl hlen'
      have h1 := sum_le_mul (l := l) (b := 2 ^ 150 - θ) fun P hP => by linarith [htop P (hl P hP)]
      have h2 : (l.length : ℝ) ≤ 2 ^ 40 := _root_.le_trans (by exact_mod_cast hlen') hl40
      calc l.sum + l.length * θ ≤ l.length * 2 ^ 150 := by linarith
        _ ≤ 2 ^ 40 * 2 ^ 150 := mul_le_mul_of_nonneg_right h2 (by positivity)
        _ ≤ 2 ^ 200 := by norm_num
    have hM : 1 / 10 ^ 7 ≤ meanR (loud Ps) := g0.trans (meanR_ge hne fun P hP => (loud_mem hP).2)
    have tA := htopl (loud Ps) (fun P hP => (loud_mem hP).1) hAlen
    obtain ⟨gf, gv⟩ := gate_close (bs := bs) (t := t) ht hA hne
      (_root_.le_trans (div_le_div_of_nonneg_right (by linarith) (by positivity)) hη) hη' hθ (by omega) tA hM
    have Γ0 : 0 < gateR Ps := by unfold gateR; linarith
    change |_ - gateR Ps| ≤ 2 * (η * gateR Ps + θ) at gv
    obtain ⟨gv1, gv2⟩ := abs_le.1 gv
    have hBc : List.Forall₂ (Close η θ) (passing (ieeeEnv m bs t) (ungated (ieeeEnv m bs t) (bnd 0) q)) (gatedR Ps) := by
      refine forall₂_filter hA fun x P hP hx => ?_
      obtain ⟨xf, -, P0, hxP⟩ := hx
      have hg := h10 P hP
      obtain ⟨c1, c2⟩ := abs_le.1 hxP
      have ηP : 0 ≤ η * P := mul_nonneg ηp.le P0
      show Fl.le _ x = decide _
      by_cases hc : gateR Ps ≤ P
      · rw [decide_eq_true hc]
        rw [abs_of_nonneg (by linarith)] at hg
        exact le_of_value gf xf (by linarith)
      · rw [decide_eq_false hc]
        rw [not_le] at hc
        rw [abs_of_neg (by linarith)] at hg
        rw [Bool.eq_false_iff]
        intro hh
        have := value_fle hh
        linarith
    have hBne := gatedR_ne hne
    have hBge : ∀ P ∈ gatedR Ps, P ∈ loud Ps := fun P hP => (List.mem_filter.1 hP).1
    have hM2 : 1 / 10 ^ 7 ≤ meanR (gatedR Ps) := g0.trans (meanR_ge hBne fun P hP => (loud_mem (hBge P hP)).2)
    have hθ4 : 4 * θ ≤ meanR (gatedR Ps) := meanR_ge hBne fun P hP => by
      have hg := h10 P (hBge P hP)
      have := of_decide_eq_true (List.mem_filter.1 hP).2
      rw [abs_of_nonneg (by linarith)] at hg
      have p1 : 0 ≤ η * P := mul_nonneg ηp.le (by linarith)
      have p2 : 0 ≤ η * gateR Ps := mul_nonneg ηp.le Γ0.le
      linarith
    obtain ⟨mf, mn, mv⟩ := mean_close hBc hBne
      (_root_.le_trans (div_le_div_of_nonneg_right (by linarith) (by positivity)) hη) hη' hθ (by omega)
      (htopl _ (fun P hP => (loud_mem (hBge P hP)).1) (by omega)) (tiny_le.trans hM2)
    have M0 : 0 < meanR (gatedR Ps) := lt_of_lt_of_le (by norm_num) hM2
    obtain ⟨l1, l2⟩ := lufs_near (x := (mean (Fl.arith Fmt.b64)
        (passing (ieeeEnv m bs t) (ungated (ieeeEnv m bs t) (bnd 0) q))).value) M0
      (r := 13 / 10 * η + 101 / 100 * (θ / meanR (gatedR Ps))) (by
        have : θ / meanR (gatedR Ps) ≤ 1 / 4 := by rw [div_le_iff₀ M0]; linarith
        linarith) (mv.trans (le_of_eq (by field_simp)))
    have hq1 : ungated (ieeeEnv m bs t) (bnd 0) q ≠ [] := by
      intro hc; rw [hc] at hA
      exact hne (List.forall₂_nil_left_iff.1 hA)
    have hq2 : passing (ieeeEnv m bs t) (ungated (ieeeEnv m bs t) (bnd 0) q) ≠ [] := by
      intro hc; rw [hc] at hBc
      exact hBne (List.forall₂_nil_left_iff.1 hBc)
    have hsumA : ((ungated (ieeeEnv m bs t) (bnd 0) q).map Fl.value).sum ≤ 2 ^ 240 := by
      obtain ⟨S0, hS⟩ := close_sum hA
      have := (abs_le.1 hS).2
      have k : η * (loud Ps).sum ≤ 1 / 100 * (loud Ps).sum := mul_le_mul_of_nonneg_right hη' S0
      have : (2 : ℝ) * 2 ^ 200 ≤ 2 ^ 240 := by norm_num
      have p : 0 ≤ ((loud Ps).length : ℝ) * θ := by positivity
      linarith
    obtain ⟨tf, -, -⟩ := total_near (close_mem hA) (by rw [hA.length_eq]; omega) hsumA
    have tn : (ieeeEnv m bs t).f64.isNan (total (ieeeEnv m bs t).f64 (ungated (ieeeEnv m bs t) (bnd 0) q)) = false := by
      obtain ⟨s, k, hk, e, -⟩ := tf
      show Fl.isNan (total (Fl.arith Fmt.b64) _) = false
      rw [e]; rfl
    have ev : v = lufsD (ieeeEnv m bs t) (mean (Fl.arith Fmt.b64)
        (passing (ieeeEnv m bs t) (ungated (ieeeEnv m bs t) (bnd 0) q))) := by
      show integrated _ _ = _
      unfold integrated
      rw [if_neg hq1, tn, if_neg Bool.false_ne_true, if_neg hq2]
      rfl
    have el : v = level (ieeeEnv m bs t) (mean (Fl.arith Fmt.b64)
        (passing (ieeeEnv m bs t) (ungated (ieeeEnv m bs t) (bnd 0) q))) := by
      rw [ev]
      unfold level
      rw [show (ieeeEnv m bs t).f64.le _ (ieeeEnv m bs t).f64.zero = false from num_pos mf l1, if_neg (by simp)]
      rfl
    obtain ⟨f1, f2⟩ := level_near (bs := bs) (t := t) hδ hm mf l1
    rw [← el] at f1 f2
    refine ⟨f1, (abs_sub_le _ _ _).trans (_root_.le_trans (add_le_add f2 l2) ?_)⟩
    have : 0 ≤ θ / meanR (gatedR Ps) := by positivity
    linarith

/-! ## From the samples on -/

/-- The power of the difference between the computed and the exact filter output, for samples up to `X`. -/
noncomputable def Spec.noisePower (cm : List Channel) (rate : Nat) (X : ℝ) : ℝ :=
  totalWeight cm * (stateGain rate / 2 ^ 38 * X) ^ 2

theorem totalWeight_bounds (cm : List Channel) : 0 ≤ totalWeight cm ∧ totalWeight cm ≤ 2 * cm.length := by
  unfold totalWeight
  constructor
  · exact List.sum_nonneg fun x hx => by
      obtain ⟨ch, -, rfl⟩ := List.mem_map.1 hx
      exact (realWeight_bound ch).1
  · have := sum_le_mul (l := cm.map realWeight) (b := 2) fun x hx => by
      obtain ⟨ch, -, rfl⟩ := List.mem_map.1 hx
      exact (realWeight_bound ch).2
    rw [List.length_map] at this
    linarith

theorem idealPower_bounds (cm : List Channel) {N n : Nat} {ys : Nat → List ℝ} {Y : ℝ} (h0 : 0 ≤ Y)
    (h : ∀ c, ∀ y ∈ ys c, |y| ≤ Y) : 0 ≤ idealPower cm N n ys ∧ idealPower cm N n ys ≤ 2 * cm.length * Y ^ 2 := by
  have hm : ∀ c, 0 ≤ meanSquare (lastN 0 N ((ys c).take n)) ∧ meanSquare (lastN 0 N ((ys c).take n)) ≤ Y ^ 2 :=
    fun c => meanSquare_le fun y hy => by
      rcases mem_lastN hy with rfl | hy
      · simpa using h0
      · exact h c y (List.mem_of_mem_take hy)
  unfold idealPower
  constructor
  · exact List.sum_nonneg fun x hx => by
      obtain ⟨ch, -, rfl⟩ := List.mem_map.1 hx
      exact mul_nonneg (realWeight_bound _).1 (hm _).1
  · have := sum_le_mul (l := cm.zipIdx.map fun x => realWeight x.1 * meanSquare (lastN 0 N ((ys x.2).take n)))
      (b := 2 * Y ^ 2) fun x hx => by
        obtain ⟨ch, -, rfl⟩ := List.mem_map.1 hx
        exact mul_le_mul (realWeight_bound _).2 (hm _).2 (hm _).1 (by norm_num)
    rw [List.length_map, List.length_zipIdx] at this
    linarith

/-- **C58**, blocks: the energy of a window is known up to a part `r` (plus rounding) and `3 / r` times the noise. -/
theorem C58_block (he : ElemWithin m (1 / 2 ^ 50)) {rate channels : Nat} (hr : 8000 ≤ rate) (hr' : rate ≤ 400000)
    {ops : List (Op F64 F32)} {X : ℝ} (hX : 1 / 2 ^ 100 ≤ X) (hX' : X ≤ 2 ^ 60) (hs : t.sse2 = true ∨ 1 / 2 ^ 13 ≤ X)
    (hx : SamplesWithin X (heard (ieeeEnv m bs t) channels ops)) (L : Nat) {N n : Nat} (cm : List Channel) (hN : 0 < N)
    (hK : N + cm.length + 5 ≤ 2 ^ 49) {r : ℝ} (h0 : 0 < r) (h1 : r ≤ 1 / 10) :
    Close (r + (N + cm.length + 5) / 2 ^ 51) (3 / r * noisePower cm rate X + 1 / 2 ^ 300)
      (energy (ieeeEnv m bs t) L N n cm (signalOn (ieeeEnv m bs t) rate channels ops))
      (idealPower cm N n (idealOuts bs' u rate (heard (ieeeEnv m bs t) channels ops))) := by
  have hsig := fun c => C57_signal (bs := bs) (t := t) (bs' := bs') (u := u) he hr hr' hX hX' hs hx c
  have X0 : 0 < X := lt_of_lt_of_le (by positivity) hX
  have ε0 : 0 ≤ stateGain rate / 2 ^ 38 * X := by
    have := (stateGain_bounds hr hr').1
    positivity
  have P0 := (idealPower_bounds cm (N := N) (n := n) (by positivity) fun c => (hsig c).2.1).1
  have hp := power_near cm (n := n) hN ε0 h0 (fun c => (hsig c).1)
  have hf : (energy (ieeeEnv m bs t) L N n cm (signalOn (ieeeEnv m bs t) rate channels ops)).Finite :=
    C52_finite (m := m) (bs := bs) (t := t) L (n := n) cm _ hN (by omega) (by omega) fun c => (hsig c).2.2
  have hn : (energy (ieeeEnv m bs t) L N n cm (signalOn (ieeeEnv m bs t) rate channels ops)).Nonneg :=
    (energy_near cm (N := N) (by omega) (fun c => readOrder L n (lastN (Fl.zero false) N
      ((signalOn (ieeeEnv m bs t) rate channels ops c).take n)))
      (fun c => by rw [(readOrder_perm _ _ _).length_eq, lastN_length]) hf).1
  have hx' := C52_energy L cm _ (by omega) hf
  refine ⟨hf, hn, P0, ?_⟩
  have W0 : 0 ≤ noisePower cm rate X := mul_nonneg (totalWeight_bounds cm).1 (by positivity)
  change _ ≤ _ + (1 / r + 1) * noisePower cm rate X at hp
  generalize noisePower cm rate X = W at *
  generalize idealPower cm N n (idealOuts bs' u rate (heard (ieeeEnv m bs t) channels ops)) = P at *
  generalize (energy (ieeeEnv m bs t) L N n cm (signalOn (ieeeEnv m bs t) rate channels ops)).value = x at *
  generalize windowPower cm N n (signalOn (ieeeEnv m bs t) rate channels ops) = w at *
  have k1 : ((8 : ℝ) * cm.length + 1) / 2 ^ 1074 ≤ 1 / 2 ^ 300 := by
    have c : (8 : ℝ) * cm.length + 1 ≤ 2 ^ 53 := by
      have : ((8 * cm.length + 1 : Nat) : ℝ) ≤ ((2 ^ 53 : Nat) : ℝ) := Nat.cast_le.2 (by omega)
      push_cast at this
      norm_num at this ⊢
      exact this
    calc ((8 : ℝ) * cm.length + 1) / 2 ^ 1074 ≤ 2 ^ 53 / 2 ^ 1074 := div_le_div_of_nonneg_right c (by positivity)
      _ = 1 / 2 ^ 1021 := by
        rw [show (1074 : Nat) = 1021 + 53 by norm_num, pow_add]
        generalize (2 : ℝ) ^ 1021 = z
        rw [_root_.mul_comm, ← div_div, div_self (by norm_num)]
      _ ≤ _ := one_div_le_one_div_of_le (by positivity) (big_le (by norm_num))
  generalize ((8 : ℝ) * cm.length + 1) / 2 ^ 1074 = z at *
  generalize (1 : ℝ) / 2 ^ 300 = z' at *
  have k2 : (1 / r + 1) * W ≤ 11 / 10 / r * W := by
    refine mul_le_mul_of_nonneg_right ?_ W0
    rw [div_add_one h0.ne']
    exact div_le_div_of_nonneg_right (by linarith) h0.le
  have hKR : ((N : ℝ) + cm.length + 5) / 2 ^ 52 ≤ 1 / 8 := by
    rw [div_le_iff₀ (by positivity)]
    have : ((N + cm.length + 5 : Nat) : ℝ) ≤ ((2 ^ 49 : Nat) : ℝ) := Nat.cast_le.2 hK
    push_cast at this
    norm_num at this ⊢
    linarith
  have e52 : ((N : ℝ) + cm.length + 5) / 2 ^ 51 = 2 * (((N : ℝ) + cm.length + 5) / 2 ^ 52) := by
    rw [show (52 : Nat) = 51 + 1 by norm_num, pow_succ]
    field_simp
  rw [e52]
  have κ0 : 0 ≤ ((N : ℝ) + cm.length + 5) / 2 ^ 52 := by positivity
  generalize ((N : ℝ) + cm.length + 5) / 2 ^ 52 = κ at *
  have Wr : 0 ≤ 1 / r * W := by positivity
  have k3 : 11 / 10 / r * W = 11 / 10 * (1 / r * W) := by ring
  have k4 : 3 / r * W = 3 * (1 / r * W) := by ring
  rw [k3] at k2
  rw [k4]
  generalize 1 / r * W = V at *
  have wb := (abs_le.1 hp).2
  have k5 : κ * w ≤ κ * (P + (r * P + 11 / 10 * V)) := mul_le_mul_of_nonneg_left (by linarith) κ0
  have k6 : κ * (r * P) ≤ 1 / 10 * (κ * P) := by
    have : r * (κ * P) ≤ 1 / 10 * (κ * P) := mul_le_mul_of_nonneg_right h1 (by positivity)
    linarith
  have k7 : κ * V ≤ 1 / 8 * V := mul_le_mul_of_nonneg_right hKR Wr
  have k8 : 0 ≤ κ * P := by positivity
  have tri := abs_sub_le x w P
  nlinarith

/-- Uncertainties may be enlarged. -/
theorem Spec.Close.mono {η θ η' θ' : ℝ} {x : F64} {P : ℝ} (h : Close η θ x P) (h1 : η ≤ η') (h2 : θ ≤ θ') :
    Close η' θ' x P :=
  ⟨h.1, h.2.1, h.2.2.1, h.2.2.2.trans (add_le_add (mul_le_mul_of_nonneg_right h1 h.2.2.1) h2)⟩

/-- The exact powers of the gating blocks of a sequence of calls. -/
noncomputable def Spec.idealBlocks (bs : BSearch) (u rate : Nat) (cm : List Channel) (evs : List (Event F64)) (n : Nat) :
    List ℝ :=
  (blockEnds (hop rate) n).map fun k => idealPower cm (4 * hop rate) k (idealOuts bs u rate evs)

/-- **C58.** The integrated loudness against BS.1770 in exact arithmetic from the samples on. `Ps` are the exact powers
of the gating blocks. For any `r`, with the uncertainty `η P + θ` of a block of power `P`: if no block is within twice
the uncertainty of the absolute gate, or within twice the uncertainties of the relative gate, then the loudness is
minus infinity if no block reaches the absolute gate, and otherwise has an error of about `20 (η + θ / mean)` dB. -/
theorem C58_integrated {δ : ℝ} (hδ : δ ≤ 1) (hm : LogWithin m δ) (he : ElemWithin m (1 / 2 ^ 50)) (ht : TenthWithin m)
    {e0 e : Ebu F64 F32} (h : Started (ieeeEnv m bs t) e0)
    (hg : Adequate e0.mode e0.rate e0.window) (hI : e0.mode.contains Mode.I = true) {max : Nat}
    (hq : e0.blockEnergyHistory = .queue [] max) (hr : 8000 ≤ e0.rate) (hr' : e0.rate ≤ 400000)
    {ops : List (Op F64 F32)} (hops : ∀ op ∈ ops, Feed op) (hrun : runOps (ieeeEnv m bs t) e0 ops = .done e)
    {X : ℝ} (hX : 1 / 2 ^ 100 ≤ X) (hX' : X ≤ 2 ^ 60) (hs : t.sse2 = true ∨ 1 / 2 ^ 13 ≤ X)
    (hx : SamplesWithin X (heard (ieeeEnv m bs t) e0.channels ops)) {r : ℝ} (h0 : 0 < r) (bs' : BSearch) (u : Nat) :
    let E := ieeeEnv m bs t
    let Ps := idealBlocks bs' u e0.rate e0.channelMap (heard E e0.channels ops) (measured E e0.channels ops)
    let η := r + (4 * hop e0.rate + e0.channels + Ps.length + 64 : ℝ) / 2 ^ 50
    let θ := 3 / r * noisePower e0.channelMap e0.rate X + 1 / 2 ^ 300
    η ≤ 1 / 100 → Ps.length ≤ max → Ps.length ≤ 2 ^ 40 →
    (∀ P ∈ Ps, 2 * (η * P + θ) < |P - energyOf (-70)|) →
    (∀ P ∈ loud Ps, 2 * (η * P + θ) + 2 * (η * gateR Ps + θ) < |P - gateR Ps|) →
    ∃ v : F64, ask E e .loudnessGlobal = .done (.ok v) ∧
      (loud Ps = [] → v = Fl.inf true) ∧
      (loud Ps ≠ [] → v.Finite ∧
        |v.value - integratedR Ps| ≤ 20 * (η + θ / meanR (gatedR Ps)) + 10 * δ + 1 / 10 ^ 12) := by
  intro E Ps η θ hη hmax hlen h70 h10
  have hi := h.reachable.inv
  have hcm : e0.channelMap.length = e0.channels := hi.map
  have hc64 : e0.channels ≤ 64 := hi.ch64
  have X0 : 0 < X := lt_of_lt_of_le (by positivity) hX
  have hhop : 0 < hop e0.rate := by
    unfold hop
    omega
  have hhop' : 4 * hop e0.rate ≤ 2 ^ 20 := by
    unfold hop
    omega
  have hη0 : r ≤ η := by
    show r ≤ r + _
    have : (0 : ℝ) ≤ (4 * hop e0.rate + e0.channels + Ps.length + 64 : ℝ) / 2 ^ 50 := by positivity
    linarith
  have W0 : 0 ≤ noisePower e0.channelMap e0.rate X := mul_nonneg (totalWeight_bounds _).1 (by positivity)
  have hθ : 0 ≤ θ := by
    show (0 : ℝ) ≤ 3 / r * _ + _
    positivity
  let q := (blockEnds (hop e0.rate) (measured E e0.channels ops)).map fun k =>
    energy E (capacity e0.rate e0.window) (4 * hop e0.rate) k e0.channelMap (signalOn E e0.rate e0.channels ops)
  have hclose : List.Forall₂ (Close η θ) q Ps := by
    show List.Forall₂ _ (List.map _ _) (List.map _ _)
    rw [List.forall₂_map_left_iff, List.forall₂_map_right_iff, List.forall₂_same]
    intro k _
    refine (C58_block (bs' := bs') (u := u) he hr hr' hX hX' hs hx (capacity e0.rate e0.window) e0.channelMap
      (N := 4 * hop e0.rate) (n := k) (by omega) (by omega) h0 (by linarith)).mono ?_ le_rfl
    show _ ≤ r + _
    have : ((4 * hop e0.rate : Nat) + e0.channelMap.length + 5 : ℝ) / 2 ^ 51 ≤
        (4 * hop e0.rate + e0.channels + Ps.length + 64 : ℝ) / 2 ^ 50 := by
      rw [hcm]
      push_cast
      refine div_le_div₀ (by positivity) ?_ (by positivity) (by norm_num)
      have : (0 : ℝ) ≤ Ps.length := by positivity
      linarith
    linarith
  have htop : ∀ P ∈ Ps, P + θ ≤ 2 ^ 150 := by
    intro P hP
    have hP70 := h70 P hP
    clear_value θ
    obtain ⟨k, -, rfl⟩ := List.mem_map.1 hP
    have hb := idealPower_bounds e0.channelMap (N := 4 * hop e0.rate) (n := k)
      (ys := idealOuts bs' u e0.rate (heard E e0.channels ops)) (Y := 13 * X) (by positivity)
      fun c => (C57_signal (bs := bs) (t := t) (bs' := bs') (u := u) he hr hr' hX hX' hs hx c).2.1
    generalize idealPower e0.channelMap (4 * hop e0.rate) k (idealOuts bs' u e0.rate (heard E e0.channels ops)) = P at *
    have c1 : (e0.channelMap.length : ℝ) ≤ 64 := by rw [hcm]; exact_mod_cast hc64
    have c2 : X ^ 2 ≤ (2 ^ 60) ^ 2 := pow_le_pow_left₀ X0.le hX' 2
    have c3 : P ≤ 2 * 64 * (169 * (2 ^ 60) ^ 2) := by
      refine hb.2.trans (mul_le_mul (by linarith) ?_ (by positivity) (by norm_num))
      rw [mul_pow]
      norm_num at c2 ⊢
      linarith
    have c4 : |P - energyOf (-70)| ≤ P + 1 := by
      have := gate70
      rw [abs_le]
      constructor <;> linarith [gate70.1, hb.1, show (0 : ℝ) ≤ 1 / 10 ^ 7 by positivity]
    have c5 : 0 ≤ η * P := mul_nonneg (by linarith) hb.1
    norm_num at c3 ⊢
    linarith
  obtain ⟨g1, g2⟩ := C58_gate (bs := bs) (t := t) hδ hm ht hclose (by
    show _ ≤ r + _
    have : ((Ps.length : ℝ) + 64) / 2 ^ 50 ≤ (4 * hop e0.rate + e0.channels + Ps.length + 64 : ℝ) / 2 ^ 50 := by
      refine div_le_div_of_nonneg_right ?_ (by positivity)
      have : (0 : ℝ) ≤ 4 * hop e0.rate + e0.channels := by positivity
      linarith
    linarith) hη hθ hlen htop h70 h10
  have hb := (C61_blocks (ieee_zero m bs t) h hg hops hrun).1 hI
  rw [foldL_add _ hi.hist, hq] at hb
  injection hb with hb
  have hroom : ([] : List F64).length + q.length ≤ max := by
    rw [List.length_nil, Nat.zero_add, hclose.length_eq]; exact hmax
  rw [foldl_queue E max q [] hroom, List.nil_append] at hb
  have hre : Reachable E e := reachable_run h.reachable hrun
  have hI' : e.mode.contains Mode.I = true := by rw [runFeeds_mode hops hi hrun]; exact hI
  have ha := C32_integrated hre hI' hb.symm
  rw [gate0_bnd] at ha
  exact ⟨_, ha, g1, g2⟩


/-! ## A block with a click -/

theorem Demo.libm57_tenth : TenthWithin Demo.libm57 := by
  have k1 : Fl.lit Fmt.b64 (-1) 1 = .num true (1023 * 2 ^ 52) (by decide) := by decide +kernel
  have v1 : (Fl.lit Fmt.b64 (-1) 1).value = -1 := by
    rw [k1, value_binade true (j := 0) (by norm_num) (by norm_num)]
    norm_num
  have v10 : (Fl.lit Fmt.b64 10 1).value = 10 := by exact_mod_cast value_lit_nat (n := 10) (by decide)
  unfold TenthWithin
  show (Demo.places ((Fl.lit Fmt.b64 10 1).value ^ (Fl.lit Fmt.b64 (-1) 1).value)).Finite ∧
    |(Demo.places ((Fl.lit Fmt.b64 10 1).value ^ (Fl.lit Fmt.b64 (-1) 1).value)).value - 1 / 10| ≤ 1 / 2 ^ 50
  rw [v1, v10, Real.rpow_neg_one]
  obtain ⟨h1, h2⟩ := Demo.places_near (v := 10⁻¹) (by norm_num) (by norm_num)
  refine ⟨h1, ?_⟩
  rw [one_div (10 : ℝ)]
  refine h2.trans ?_
  norm_num

/-- Silence, then one full-scale sample. -/
def Demo.late (n : Nat) : List (Op F64 F32) := [.addFrames (.i16 (List.replicate n 0 ++ [-32768]))]

theorem Demo.late_heard (n : Nat) : heard (ieeeEnv m bs t) 1 (Demo.late n) =
    List.replicate n ⟨true, [(i16Ops (ieeeEnv m bs t)).toF64 0]⟩ ++ [⟨true, [(i16Ops (ieeeEnv m bs t)).toF64 (-32768)]⟩] := by
  have h : WellFormed (D := F64) (S := F32) 1 (.i16 (List.replicate n 0 ++ [-32768])) := Nat.mod_one _
  simp only [Demo.late, heard, List.flatMap_cons, List.flatMap_nil, List.append_nil, delivered, if_pos h, inputFrames,
    groups_single, List.map_append, List.map_replicate, List.map_cons, List.map_nil]

theorem Demo.silence_value : ((i16Ops (ieeeEnv m bs t)).toF64 0).value = 0 := by
  have := (int_value t (i := (0 : Int16).toInt) (j := 15) (natAbs16 _) (by omega)).2
  rw [show ((2 ^ 15 : Nat) : Int) = 32768 by norm_num] at this
  have e : ((0 : Int16).toInt : ℝ) / 2 ^ 15 = 0 := by simp
  rw [e] at this
  simp only [i16Ops]
  cases hs : t.sse2 <;> simp only [hs, ieeeEnv, if_true, if_false, Bool.false_eq_true] at this ⊢
  · simpa only [arith_div, arith_ofInt, arith_lit] using this
  · rw [ftz_ofInt, ftz_lit]; exact this

theorem past_silence (n k : Nat) : past (0 : ℝ) (List.replicate n 0) k = 0 := by
  unfold past
  rw [List.getD_eq_getElem?_getD, List.getElem?_replicate]
  split <;> rfl

theorem internal_late (a : V5 ℝ) (n : Nat) :
    internal exactArith a 0 (List.replicate n 0) = List.replicate n 0 ∧
      ∀ x, internal exactArith a 0 (List.replicate n 0 ++ [x]) = x :: List.replicate n 0 := by
  have step : ∀ k x, internal exactArith a 0 (List.replicate k 0) = List.replicate k 0 →
      internal exactArith a 0 (List.replicate k 0 ++ [x]) = x :: List.replicate k 0 := by
    intro k x ih
    rw [internal, List.foldl_append]
    change (_ :: internal exactArith a 0 (List.replicate k 0)) = _
    change exactArith.sub (exactArith.sub (exactArith.sub (exactArith.sub x
      (exactArith.mul a.v1 (past 0 (internal exactArith a 0 (List.replicate k 0)) 0)))
      (exactArith.mul a.v2 (past 0 (internal exactArith a 0 (List.replicate k 0)) 1)))
      (exactArith.mul a.v3 (past 0 (internal exactArith a 0 (List.replicate k 0)) 2)))
      (exactArith.mul a.v4 (past 0 (internal exactArith a 0 (List.replicate k 0)) 3)) :: _ = _
    rw [ih]
    simp only [past_silence, exactArith, mul_zero, sub_zero]
  have h0 : ∀ k, internal exactArith a 0 (List.replicate k 0) = List.replicate k 0 := by
    intro k
    induction k with
    | zero => rfl
    | succ k ih => rw [List.replicate_succ', step k 0 ih, ← List.replicate_succ', List.replicate_succ]
  exact ⟨h0 n, fun x => step n x (h0 n)⟩

theorem filtered_late (b a : V5 ℝ) (n : Nat) (x : ℝ) :
    filtered exactArith b a 0 (List.replicate n 0 ++ [x]) = List.replicate n 0 ++ [b.v0 * x] := by
  have hl : (List.replicate n (0 : ℝ) ++ [x]).length = n + 1 := by simp
  unfold filtered
  rw [hl, List.range_succ, List.map_append]
  congr 1
  · rw [List.eq_replicate_iff]
    refine ⟨by simp, fun y hy => ?_⟩
    obtain ⟨k, hk, rfl⟩ := List.mem_map.1 hy
    have hk := List.mem_range.1 hk
    rw [List.take_append_of_le_length (by simp; omega), List.take_replicate, (internal_late a _).1]
    simp only [response, past_silence, exactArith, mul_zero, add_zero]
  · rw [List.map_singleton, List.take_of_length_le (by simp), (internal_late a n).2]
    have h : ∀ k, past (0 : ℝ) (x :: List.replicate n 0) (k + 1) = 0 := fun k => past_silence n k
    have h1 := h 0
    have h2 := h 1
    have h3 := h 2
    have h4 := h 3
    simp only [_root_.zero_add, Nat.reduceAdd] at h1 h2 h3 h4
    simp only [response, h1, h2, h3, h4, exactArith, mul_zero, add_zero]
    rfl

theorem meanSquare_late (n : Nat) (y : ℝ) :
    meanSquare (lastN 0 (n + 1) ((List.replicate n 0 ++ [y]).take (n + 1))) = y ^ 2 / (n + 1 : Nat) := by
  have hl : (List.replicate n 0 ++ [y]).length = n + 1 := by simp
  rw [List.take_of_length_le hl.le, lastN, hl, List.drop_append_of_le_length (by simp),
    List.drop_of_length_le (by simp), List.nil_append]
  unfold meanSquare
  rw [hl, List.map_append, List.map_replicate, List.sum_append, List.sum_replicate]
  simp

theorem Demo.late_measured (n : Nat) : measured (ieeeEnv m bs t) 1 (Demo.late n) = n + 1 := by
  rw [measured, Demo.late_heard, count, List.filter_append, List.filter_replicate]
  simp

/-- A mono analyzer at 48 kHz that has heard 400 ms, all silent but for the last sample, which is at full scale: the
integrated loudness is, to 0.1 dB, that of a block of 19200 values all zero except one of 1.535. -/
example (bs : BSearch) (h64 : 2 ^ 64 - 1 ≤ t.usizeMax) :
    ∃ e0 e : Ebu F64 F32, Ebu.new (ieeeEnv Demo.libm57 bs t) 1 48000 Mode.I = .done (.ok e0) ∧
      runOps (ieeeEnv Demo.libm57 bs t) e0 (Demo.late 19199) = .done e ∧
      ∃ (v : F64) (b : ℝ), ask (ieeeEnv Demo.libm57 bs t) e .loudnessGlobal = .done (.ok v) ∧
        Rounds b 1.53512485958697 ∧ |v.value - lufs (b ^ 2 / 19200)| ≤ 0.1 := by
  generalize hops : Demo.late 19199 = ops
  have hint : ∀ op ∈ ops, IntegerFeed op := by
    intro op hop
    simp only [← hops, Demo.late, List.mem_singleton] at hop
    subst hop; trivial
  have hfeed : ∀ op ∈ ops, Feed op := by
    intro op hop
    simp only [← hops, Demo.late, List.mem_singleton] at hop
    subst hop; trivial
  obtain ⟨e0, he⟩ := (C01_new_64 (ieeeEnv Demo.libm57 bs t) h64 1 48000 Mode.I).1.2
    ⟨⟨by omega, by omega, by omega, by omega⟩, by decide⟩
  have hst := Started.new he
  obtain ⟨e, hrun⟩ := C09_plain h64 he (by omega) ops (by
    intro op hop
    simp only [← hops, Demo.late, List.mem_singleton] at hop
    subst hop; trivial)
  refine ⟨e0, e, he, hrun, ?_⟩
  obtain ⟨rfl, -⟩ := Ebu.new_ok he
  obtain ⟨b0, b1, b2, a1, a2, c1, c2, hb, -, hr0, -⟩ := C53_itu bs 0
  have hw : realWeight .left = 1 := by simp [realWeight, surrounds]
  have hh := Demo.late_heard (m := Demo.libm57) (bs := bs) (t := t) 19199
  rw [hops] at hh
  have ho : idealOuts bs 0 48000 (heard (ieeeEnv Demo.libm57 bs t) 1 ops) 0 = List.replicate 19199 0 ++ [b0 * -1] := by
    rw [hh]
    generalize 19199 = n
    unfold idealOuts
    push_cast at hb ⊢
    rw [hb, show realEvents (List.replicate n ⟨true, [(i16Ops (ieeeEnv Demo.libm57 bs t)).toF64 0]⟩ ++
      [⟨true, [(i16Ops (ieeeEnv Demo.libm57 bs t)).toF64 (-32768)]⟩]) =
      (List.replicate n [(0 : ℝ)] ++ [[-1]]).map fun f => ⟨true, f⟩ by
        simp [realEvents, Demo.silence_value, Demo.pulse_value], outs_all,
      show List.map (fun f : List ℝ => f.getD 0 0) (List.replicate n [0] ++ [[-1]]) = List.replicate n 0 ++ [-1] by simp,
      filtered_late]
    simp [cascade]
  have hP : idealPower [.left] 19200 19200 (idealOuts bs 0 48000 (heard (ieeeEnv Demo.libm57 bs t) 1 ops)) =
      b0 ^ 2 / 19200 := by
    unfold idealPower
    simp only [List.zipIdx_cons, List.zipIdx_nil, List.map_cons, List.map_nil, List.sum_cons, List.sum_nil, hw, ho]
    rw [meanSquare_late 19199]
    norm_num
  have hmeas : measured (ieeeEnv Demo.libm57 bs t) 1 ops = 19200 := by
    rw [← hops]
    exact Demo.late_measured 19199
  have hb0 : 1535 / 1000 ≤ b0 ∧ b0 ≤ 1536 / 1000 := by
    have := abs_le.1 hr0
    norm_num at this ⊢
    constructor <;> linarith
  have hg : stateGain 48000 ≤ 3000000 := by unfold stateGain; norm_num
  have hg0 : 0 ≤ stateGain 48000 := by unfold stateGain; positivity
  have hb2 : (1535 / 1000) ^ 2 ≤ b0 ^ 2 := pow_le_pow_left₀ (by norm_num) hb0.1 2
  have hb3 : b0 ^ 2 ≤ (1536 / 1000) ^ 2 := pow_le_pow_left₀ (by linarith [hb0.1]) hb0.2 2
  have e1 : 4 * hop 48000 = 19200 := by decide
  have hblocks : idealBlocks bs 0 48000 [.left] (heard (ieeeEnv Demo.libm57 bs t) 1 ops)
      (measured (ieeeEnv Demo.libm57 bs t) 1 ops) = [b0 ^ 2 / 19200] := by
    unfold idealBlocks
    rw [hmeas, show blockEnds (hop 48000) 19200 = [19200] by decide, e1, List.map_singleton, hP]
  have hmain : ∀ Ps : List ℝ, Ps = idealBlocks bs 0 48000 [.left] (heard (ieeeEnv Demo.libm57 bs t) 1 ops)
        (measured (ieeeEnv Demo.libm57 bs t) 1 ops) →
      ∀ η θ : ℝ, η = 1 / 500 + (4 * (hop 48000 : Nat) + (1 : Nat) + Ps.length + 64 : ℝ) / 2 ^ 50 →
      θ = 3 / (1 / 500) * noisePower [.left] 48000 1 + 1 / 2 ^ 300 →
      η ≤ 1 / 100 → Ps.length ≤ t.usizeMax / 100 → Ps.length ≤ 2 ^ 40 →
      (∀ P ∈ Ps, 2 * (η * P + θ) < |P - energyOf (-70)|) →
      (∀ P ∈ loud Ps, 2 * (η * P + θ) + 2 * (η * gateR Ps + θ) < |P - gateR Ps|) →
      ∃ v : F64, ask (ieeeEnv Demo.libm57 bs t) e .loudnessGlobal = .done (.ok v) ∧
        (loud Ps = [] → v = Fl.inf true) ∧
        (loud Ps ≠ [] → v.Finite ∧
          |v.value - integratedR Ps| ≤ 20 * (η + θ / meanR (gatedR Ps)) + 10 * (1 / 10 ^ 5) + 1 / 10 ^ 12) := by
    rintro Ps rfl η θ rfl rfl
    exact C58_integrated (by norm_num) Demo.libm57_within.1 Demo.libm57_within.2 Demo.libm57_tenth hst
      (show Adequate Mode.I 48000 (minWindow Mode.I) by decide) (by show Mode.I.contains Mode.I = true; decide) rfl
      (by show 8000 ≤ 48000; omega) (by show 48000 ≤ 400000; omega)
      hfeed hrun (X := 1) (by norm_num) (by norm_num) (.inr (by norm_num)) (C57_integer hint) (r := 1 / 500) (by norm_num) bs 0
  have hp1 : 122 / 10 ^ 6 ≤ b0 ^ 2 / 19200 := by norm_num at hb2 ⊢; linarith
  have hp2 : b0 ^ 2 / 19200 ≤ 124 / 10 ^ 6 := by norm_num at hb3 ⊢; linarith
  generalize hPe : b0 ^ 2 / 19200 = P at hblocks hp1 hp2
  have P0 : 0 < P := lt_of_lt_of_le (by norm_num) hp1
  have g0 : 0 < energyOf (-70) := lt_of_lt_of_le (by norm_num) gate70.1
  have g1 : energyOf (-70) ≤ 1 / 10 ^ 6 := by
    unfold energyOf
    rw [show (1 : ℝ) / 10 ^ 6 = 10 ^ (-6 : ℝ) by
      rw [Real.rpow_neg (by norm_num), one_div]; norm_num]
    exact Real.rpow_le_rpow_of_exponent_le (by norm_num) (by norm_num)
  have hl : loud [P] = [P] := by
    unfold loud
    rw [List.filter_cons_of_pos (by simp; linarith), List.filter_nil]
  have hm1 : meanR [P] = P := by simp [meanR]
  have hgr : gateR [P] = P / 10 := by rw [gateR, hl, hm1]
  have hgd : gatedR [P] = [P] := by
    rw [gatedR, hl, hgr, List.filter_cons_of_pos (by simp; linarith), List.filter_nil]
  have hη : ∀ η : ℝ, η = 1 / 500 + (4 * (hop 48000 : Nat) + (1 : Nat) + [P].length + 64 : ℝ) / 2 ^ 50 →
      0 ≤ η ∧ η ≤ 1 / 499 := by
    rintro η rfl
    rw [show hop 48000 = 4800 by decide]
    norm_num
  have hθ : ∀ θ : ℝ, θ = 3 / (1 / 500) * noisePower [.left] 48000 1 + 1 / 2 ^ 300 → 0 ≤ θ ∧ θ ≤ 2 / 10 ^ 7 := by
    rintro θ rfl
    have : (stateGain 48000 / 2 ^ 38 * 1) ^ 2 ≤ (3000000 / 2 ^ 38) ^ 2 := by
      rw [mul_one]
      exact pow_le_pow_left₀ (by positivity) (div_le_div_of_nonneg_right hg (by positivity)) 2
    have w1 : totalWeight [.left] = 1 := by simp [totalWeight, hw]
    unfold noisePower
    rw [w1, one_mul]
    have t0 : (0 : ℝ) < 1 / 2 ^ 300 := by positivity
    have t1 : (1 : ℝ) / 2 ^ 300 ≤ 1 / 2 ^ 60 := one_div_le_one_div_of_le (by positivity) (big_le (by norm_num))
    have n0 : 0 ≤ (stateGain 48000 / 2 ^ 38 * 1) ^ 2 := by positivity
    generalize (1 : ℝ) / 2 ^ 300 = τ at *
    generalize (stateGain 48000 / 2 ^ 38 * 1) ^ 2 = ν at *
    norm_num at this t1 ⊢
    constructor <;> linarith
  obtain ⟨η, rη⟩ : ∃ η : ℝ, η = 1 / 500 + (4 * (hop 48000 : Nat) + (1 : Nat) + [P].length + 64 : ℝ) / 2 ^ 50 := ⟨_, rfl⟩
  obtain ⟨θ, rθ⟩ : ∃ θ : ℝ, θ = 3 / (1 / 500) * noisePower [.left] 48000 1 + 1 / 2 ^ 300 := ⟨_, rfl⟩
  obtain ⟨η0, η1⟩ := hη η rη
  obtain ⟨θ0, θ1⟩ := hθ θ rθ
  have hηP : η * P ≤ 1 / 499 * P := mul_le_mul_of_nonneg_right η1 P0.le
  obtain ⟨v, v1, -, v2⟩ := hmain [P] hblocks.symm η θ rη rθ (by linarith)
    (by simp only [List.length_singleton]; omega) (by simp) (by
    intro Q hQ
    rw [List.mem_singleton.1 hQ, abs_of_nonneg (by linarith)]
    linarith) (by
    intro Q hQ
    rw [hl] at hQ
    rw [List.mem_singleton.1 hQ, hgr, abs_of_nonneg (by linarith)]
    linarith)
  have v3 := (v2 (by rw [hl]; simp)).2
  rw [integratedR, hgd, hm1] at v3
  have hθP : θ / P ≤ 2 / 1220 := by
    rw [div_le_iff₀ P0]
    linarith
  refine ⟨v, b0, v1, hr0, ?_⟩
  rw [hPe]
  refine v3.trans ?_
  norm_num
  linarith

end Verif
