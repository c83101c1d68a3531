import Verif.Props.C30
import Mathlib.Analysis.Complex.ExponentialBounds
/-!
# C34: replacing energies by bin centres costs at most 0.05 dB
-/

set_option linter.unusedSimpArgs false

namespace Verif
open Fl Spec
variable {m : Libm F64} {bs : BSearch} {t : Target}

theorem two_pow_u : (0 : ℝ) < 2 ^ Fmt.b64.u := by positivity

theorem value_le {k l : Nat} {hk : k ≤ Fmt.b64.infK} {hl : l ≤ Fmt.b64.infK} (h : k ≤ l) :
    (Fl.num false k hk : F64).value ≤ (Fl.num false l hl : F64).value := by
  simp only [Fl.value, if_neg Bool.false_ne_true, one_mul]
  exact div_le_div_of_nonneg_right (by exact_mod_cast Fmt.mag_le _ h) two_pow_u.le

theorem value_fle {x y : F64} (h : Fl.le x y = true) : x.value ≤ y.value := by
  cases x with
  | nan => cases h
  | num s k hk =>
    cases y with
    | nan => cases h
    | num u l hl =>
      rw [Fl.le_num, decide_eq_true_eq] at h
      have p : ∀ n : Nat, (0 : ℝ) ≤ (Fmt.b64.mag n : ℝ) / 2 ^ Fmt.b64.u := fun n => by positivity
      have mono : ∀ {a b : Nat}, a ≤ b → (Fmt.b64.mag a : ℝ) / 2 ^ Fmt.b64.u ≤ (Fmt.b64.mag b : ℝ) / 2 ^ Fmt.b64.u :=
        fun hab => div_le_div_of_nonneg_right (by exact_mod_cast Fmt.mag_le _ hab) two_pow_u.le
      cases s <;> cases u <;> simp only [Fl.skey, Fl.value, if_neg Bool.false_ne_true, if_pos, if_true, one_mul, neg_mul] at h ⊢
      · exact mono (by simpa using h)
      · have hk0 : k = 0 := by omega
        have hl0 : l = 0 := by omega
        subst hk0 hl0
        have : Fmt.b64.mag 0 = 0 := Fmt.mag_small _ (Nat.zero_le _)
        rw [this]; simp
      · have := p k; have := p l; linarith
      · have := mono (a := l) (b := k) (by simpa using h)
        linarith

/-- The double nearest to a table literal is within one part in `10^15`. -/
theorem lit_value {n : Nat} (h1 : 1 ≤ n) (h2 : n ≤ 10 ^ 40) :
    |(Fl.lit Fmt.b64 (n : Int) (10 ^ 36)).value - (n : ℝ) / 10 ^ 36| ≤ 1 / 10 ^ 15 * ((n : ℝ) / 10 ^ 36) := by
  rw [Fl.lit_pos]
  simp only [Fl.value, if_neg Bool.false_ne_true, one_mul]
  have u := Fmt.rnd_abs_upper Fmt.b64 Fmt.b64_mb (a := n * 2 ^ Fmt.b64.u) (b := 10 ^ 36) (by norm_num)
  have l := Fmt.rnd_abs_lower Fmt.b64 Fmt.b64_mb (a := n * 2 ^ Fmt.b64.u) (b := 10 ^ 36) (by norm_num) (rnd_small h2)
  have nrm := entry_normal h1
  generalize Fmt.b64.mag (Fmt.b64.rnd (n * 2 ^ Fmt.b64.u) (10 ^ 36)) = x at *
  change x * (2 * 2 ^ 52 - 1) * 10 ^ 36 ≤ (2 * (n * 2 ^ Fmt.b64.u) + 10 ^ 36) * 2 ^ 52 at u
  change 2 * (n * 2 ^ Fmt.b64.u) * 2 ^ 52 ≤ (x * (2 * 2 ^ 52 + 1) + 2 ^ 52) * 10 ^ 36 at l
  rw [U64_eq] at *
  have eU : (2 : ℝ) ^ Fmt.b64.u = (U64 : ℝ) := by rw [← U64_eq, Nat.cast_pow, Nat.cast_ofNat]
  have hU := two_pow_u
  rw [eU] at *
  have u' : (x : ℝ) * (2 * 2 ^ 52 - 1) * 10 ^ 36 ≤ (2 * (n * U64) + 10 ^ 36) * 2 ^ 52 := by
    have : ((x * (2 * 2 ^ 52 - 1) * 10 ^ 36 : ℕ) : ℝ) ≤ (((2 * (n * U64) + 10 ^ 36) * 2 ^ 52 : ℕ) : ℝ) := Nat.cast_le.2 u
    push_cast at this
    norm_num at this ⊢
    linarith
  have l' : (2 : ℝ) * (n * U64) * 2 ^ 52 ≤ (x * (2 * 2 ^ 52 + 1) + 2 ^ 52) * 10 ^ 36 := by exact_mod_cast l
  have nrm' : (10 : ℝ) ^ 36 * 2 ^ 52 ≤ n * U64 := by exact_mod_cast nrm
  clear u l nrm eU
  generalize (U64 : ℝ) = U at *
  generalize (x : ℝ) = X at *
  generalize (n : ℝ) = N at *
  have e : X / U - N / 10 ^ 36 = (X * 10 ^ 36 - N * U) / (U * 10 ^ 36) := by field_simp
  have e2 : 1 / 10 ^ 15 * (N / 10 ^ 36) = (N * U / 10 ^ 15) / (U * 10 ^ 36) := by field_simp
  rw [e, e2, abs_div, abs_of_pos (show (0 : ℝ) < U * 10 ^ 36 by positivity)]
  apply div_le_div_of_nonneg_right _ (by positivity)
  rw [abs_le]
  constructor <;> · norm_num at u' l' nrm' ⊢; nlinarith

theorem energyOf_pos (l : ℝ) : 0 < energyOf l := Real.rpow_pos_of_pos (by norm_num) _

/-- A double whose literal is close to an energy is close to it. -/
theorem near_trans {n : Nat} (h1 : 1 ≤ n) (h2 : n ≤ 10 ^ 40) {l : ℝ}
    (h : |(n : ℝ) / 10 ^ 36 - energyOf l| ≤ 3 / 10 ^ 14 * energyOf l) :
    (1 - 4 / 10 ^ 14) * energyOf l ≤ (Fl.lit Fmt.b64 (n : Int) (10 ^ 36)).value ∧
      (Fl.lit Fmt.b64 (n : Int) (10 ^ 36)).value ≤ (1 + 4 / 10 ^ 14) * energyOf l := by
  have h3 := lit_value h1 h2
  have p := energyOf_pos l
  rw [abs_le] at h h3
  obtain ⟨a, b⟩ := h
  obtain ⟨c, d⟩ := h3
  constructor <;> nlinarith

theorem bnd_value {i : Nat} (hi : i ≤ 1000) :
    (1 - 4 / 10 ^ 14) * energyOf (-70 + i / 10) ≤ (bnd i).value ∧
      (bnd i).value ≤ (1 + 4 / 10 ^ 14) * energyOf (-70 + i / 10) :=
  near_trans (Nat.le_trans (table_entry 0 (by omega)).1 (bound_mono (Nat.zero_le _) hi))
    (Nat.le_trans (bound_mono hi (Nat.le_refl _)) top_small) (boundary_exact hi)

theorem centre_value {i : Nat} (hi : i < 1000) :
    (1 - 4 / 10 ^ 14) * energyOf (-70 + i / 10 + 1 / 20) ≤ (centre i).value ∧
      (centre i).value ≤ (1 + 4 / 10 ^ 14) * energyOf (-70 + i / 10 + 1 / 20) := by
  have h1 := table_entry i hi
  have h2 := bound_mono (show i + 1 ≤ 1000 by omega) (Nat.le_refl _)
  have h3 := top_small
  exact near_trans h1.2.1 (by omega) (centre_exact hi)

/-- The error allowed in decibels: half a bin plus `10^-9` for rounding. -/
noncomputable def Spec.halfBin : ℝ := 1 / 20 + 1 / 10 ^ 9

theorem ratio_bound : (10 : ℝ) ^ ((1 : ℝ) / 200) * (1 + 4 / 10 ^ 14) ≤ 10 ^ (halfBin / 10) * (1 - 4 / 10 ^ 14) := by
  have h : halfBin / 10 = 1 / 200 + 1 / 10 ^ 10 := by unfold halfBin; norm_num
  rw [h, Real.rpow_add (by norm_num)]
  have h1 : (1 : ℝ) + 1 / 10 ^ 10 ≤ 10 ^ ((1 : ℝ) / 10 ^ 10) := by
    rw [Real.rpow_def_of_pos (by norm_num)]
    have h2 : (1 : ℝ) ≤ Real.log 10 := by
      rw [Real.le_log_iff_exp_le (by norm_num)]
      have := Real.exp_one_lt_d9
      linarith
    have h3 := Real.add_one_le_exp (Real.log 10 * (1 / 10 ^ 10))
    linarith
  have p : (0 : ℝ) < 10 ^ ((1 : ℝ) / 200) := Real.rpow_pos_of_pos (by norm_num) _
  rw [mul_assoc]
  apply mul_le_mul_of_nonneg_left _ p.le
  have h4 : (1 + 1 / 10 ^ 10) * (1 - 4 / 10 ^ 14) ≤ (10 : ℝ) ^ ((1 : ℝ) / 10 ^ 10) * (1 - 4 / 10 ^ 14) :=
    mul_le_mul_of_nonneg_right h1 (by norm_num)
  refine le_trans ?_ h4
  norm_num

theorem energyOf_add (l d : ℝ) : energyOf (l + d) = energyOf l * 10 ^ (d / 10) := by
  unfold energyOf
  rw [← Real.rpow_add (by norm_num)]
  congr 1
  ring

/-- An energy below the top boundary and the centre of its bin differ by at most the allowed factor. -/
theorem bin_ratio {x : F64} {i : Nat} (hi : InBin x i) (hx : Fl.lt x (bnd 1000) = true) :
    0 < x.value ∧ 0 < (centre i).value ∧ (centre i).value ≤ 10 ^ (halfBin / 10) * x.value ∧
      x.value ≤ 10 ^ (halfBin / 10) * (centre i).value := by
  obtain ⟨h1, h2, h3⟩ := hi
  have up : x.value ≤ (bnd (i + 1)).value := by
    rcases h3 with rfl | h3
    · exact value_fle (Fl.le_of_lt hx)
    · exact value_fle (Fl.le_of_lt h3)
  have lo := value_fle h2
  obtain ⟨b1, -⟩ := bnd_value (i := i) (by omega)
  obtain ⟨-, b2⟩ := bnd_value (i := i + 1) (by omega)
  obtain ⟨c1, c2⟩ := centre_value h1
  have e1 := energyOf_add (-70 + i / 10) (1 / 20)
  have e2 := energyOf_add (-70 + i / 10 + 1 / 20) (1 / 20)
  rw [show (-70 + (i : ℝ) / 10 + 1 / 20 + 1 / 20) = -70 + ((i + 1 : ℕ) : ℝ) / 10 by push_cast; ring] at e2
  rw [show ((1 : ℝ) / 20 / 10) = 1 / 200 by norm_num] at e1 e2
  have p0 := energyOf_pos (-70 + i / 10)
  have p1 := energyOf_pos (-70 + i / 10 + 1 / 20)
  have hr := ratio_bound
  have pr : (0 : ℝ) < 10 ^ (halfBin / 10) := Real.rpow_pos_of_pos (by norm_num) _
  have px : 0 < x.value := lt_of_lt_of_le (mul_pos (by norm_num) p0) (b1.trans lo)
  have pc : 0 < (centre i).value := lt_of_lt_of_le (mul_pos (by norm_num) p1) c1
  refine ⟨px, pc, ?_, ?_⟩
  · calc (centre i).value ≤ (1 + 4 / 10 ^ 14) * energyOf (-70 + i / 10 + 1 / 20) := c2
      _ = (10 ^ ((1 : ℝ) / 200) * (1 + 4 / 10 ^ 14)) * energyOf (-70 + i / 10) := by rw [e1]; ring
      _ ≤ (10 ^ (halfBin / 10) * (1 - 4 / 10 ^ 14)) * energyOf (-70 + i / 10) :=
        mul_le_mul_of_nonneg_right hr p0.le
      _ = 10 ^ (halfBin / 10) * ((1 - 4 / 10 ^ 14) * energyOf (-70 + i / 10)) := by ring
      _ ≤ 10 ^ (halfBin / 10) * x.value := mul_le_mul_of_nonneg_left (b1.trans lo) pr.le
  · calc x.value ≤ (1 + 4 / 10 ^ 14) * energyOf (-70 + ((i + 1 : ℕ) : ℝ) / 10) := up.trans b2
      _ = (10 ^ ((1 : ℝ) / 200) * (1 + 4 / 10 ^ 14)) * energyOf (-70 + i / 10 + 1 / 20) := by rw [e2]; ring
      _ ≤ (10 ^ (halfBin / 10) * (1 - 4 / 10 ^ 14)) * energyOf (-70 + i / 10 + 1 / 20) :=
        mul_le_mul_of_nonneg_right hr p1.le
      _ = 10 ^ (halfBin / 10) * ((1 - 4 / 10 ^ 14) * energyOf (-70 + i / 10 + 1 / 20)) := by ring
      _ ≤ 10 ^ (halfBin / 10) * (centre i).value := mul_le_mul_of_nonneg_left c1 pr.le

theorem lufs_dist {x y : ℝ} (hx : 0 < x) (hy : 0 < y) (h1 : x ≤ 10 ^ (halfBin / 10) * y)
    (h2 : y ≤ 10 ^ (halfBin / 10) * x) : |lufs x - lufs y| ≤ halfBin := by
  have key : ∀ {a b : ℝ}, 0 < a → 0 < b → a ≤ 10 ^ (halfBin / 10) * b → Real.logb 10 a ≤ halfBin / 10 + Real.logb 10 b := by
    intro a b ha hb h
    have := Real.logb_le_logb_of_le (b := 10) (by norm_num) ha h
    rwa [Real.logb_mul (Real.rpow_pos_of_pos (by norm_num) _).ne' hb.ne', Real.logb_rpow (by norm_num) (by norm_num)] at this
  have k1 := key hx hy h1
  have k2 := key hy hx h2
  unfold lufs
  rw [abs_le]
  constructor <;> linarith

/-- **C34.** The energy a histogram stores in place of a measured one (the centre of the bin found by the code)
differs from it in loudness by at most 0.05 dB (up to `10^-9`), for energies inside the table's range. -/
theorem C34_energy {x : F64} (h0 : Fl.le (bnd 0) x = true) (h1 : Fl.lt x (bnd 1000) = true) {i : Nat}
    (hi : findHistogramIndex (ieeeEnv m bs t) x = .done i) :
    |lufs (centre i).value - lufs x.value| ≤ halfBin := by
  rw [(find_eq _ _).1] at hi
  cases hi
  obtain ⟨p1, p2, r1, r2⟩ := bin_ratio (find_inBin h0) h1
  exact lufs_dist p2 p1 r1 r2

/-- **C34.** Hence the mean of any non-empty collection of blocks changes by at most as much. -/
theorem C34_mean {xs : List F64} (hne : xs ≠ []) (h0 : ∀ x ∈ xs, Fl.le (bnd 0) x = true)
    (h1 : ∀ x ∈ xs, Fl.lt x (bnd 1000) = true) {bin : F64 → Nat}
    (hbin : ∀ x ∈ xs, findHistogramIndex (ieeeEnv m bs t) x = .done (bin x)) :
    |lufs ((xs.map fun x => (centre (bin x)).value).sum / xs.length) - lufs ((xs.map Fl.value).sum / xs.length)| ≤
      halfBin := by
  have pr : (0 : ℝ) < 10 ^ (halfBin / 10) := Real.rpow_pos_of_pos (by norm_num) _
  have key : (xs ≠ [] → 0 < (xs.map Fl.value).sum ∧ 0 < (xs.map fun x => (centre (bin x)).value).sum) ∧
      (xs.map fun x => (centre (bin x)).value).sum ≤ 10 ^ (halfBin / 10) * (xs.map Fl.value).sum ∧
      (xs.map Fl.value).sum ≤ 10 ^ (halfBin / 10) * (xs.map fun x => (centre (bin x)).value).sum := by
    clear hne
    induction xs with
    | nil => simp
    | cons x xs ih =>
      obtain ⟨k1, k2, k3⟩ := ih (fun y hy => h0 y (by simp [hy])) (fun y hy => h1 y (by simp [hy]))
        (fun y hy => hbin y (by simp [hy]))
      have hb := hbin x (by simp)
      rw [(find_eq _ _).1] at hb
      have hb : findP (ieeeEnv m bs t) x = bin x := by injection hb
      obtain ⟨p1, p2, r1, r2⟩ := bin_ratio (find_inBin (m := m) (bs := bs) (t := t) (h0 x (by simp))) (h1 x (by simp))
      rw [hb] at p2 r1 r2
      simp only [List.map_cons, List.sum_cons, mul_add]
      refine ⟨fun _ => ?_, by linarith, by linarith⟩
      by_cases hx : xs = []
      · subst hx; simpa using ⟨p1, p2⟩
      · obtain ⟨q1, q2⟩ := k1 hx
        exact ⟨by linarith, by linarith⟩
  obtain ⟨k1, k2, k3⟩ := key
  obtain ⟨q1, q2⟩ := k1 hne
  have hn : (0 : ℝ) < xs.length := by exact_mod_cast List.length_pos_of_ne_nil hne
  refine lufs_dist (div_pos q2 hn) (div_pos q1 hn) ?_ ?_
  · rw [← mul_div_assoc]; exact div_le_div_of_nonneg_right k2 hn.le
  · rw [← mul_div_assoc]; exact div_le_div_of_nonneg_right k3 hn.le

/-- The hypotheses are met, e.g. by the energies `10^-6` and `1`. -/
example : ∀ x ∈ [Fl.lit Fmt.b64 1 (10 ^ 6), Fl.lit Fmt.b64 1 1],
    Fl.le (bnd 0) x = true ∧ Fl.lt x (bnd 1000) = true := by
  decide +kernel

end Verif
