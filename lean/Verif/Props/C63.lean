import Verif.Proofs.CRefHist
import Verif.Proofs.FloatMono
import Verif.Props.C38
import Verif.Props.C34
import Verif.Props.C57
/-!
# C63: block histories, gating and loudness range agree with the C library

The same blocks are kept, and every query is the same conversion of the same energies, for histograms and for
queues.  The two differ on NaN energies and on a change of the maximum number of blocks.
-/

namespace Verif
open Fl Spec CRef
variable {m : Libm F64} {bs : BSearch} {t : Target}

namespace CRef

theorem toUint_of_le {φ : Fmt} {M N n : Nat} (hn : n < M) (hM : M ≤ N) {x : Fl φ} (h : Fl.toUint N x ≤ n) :
    Fl.toUint M x = Fl.toUint N x := by
  cases x with
  | nan => rfl
  | num s k hk =>
    unfold Fl.toUint at *
    cases s with
    | true => rfl
    | false =>
      simp only [Bool.false_eq_true, if_false] at *
      by_cases hk : k = φ.infK
      · rw [if_pos hk] at h; omega
      · rw [if_neg hk] at h ⊢
        rw [if_neg hk]
        generalize φ.mag k / 2 ^ φ.u = a at *
        omega

theorem toUint_mono {φ : Fmt} {M : Nat} {x y : Fl φ} (h : Fl.le x y = true) : Fl.toUint M x ≤ Fl.toUint M y := by
  cases x with
  | nan => cases h
  | num s k hk =>
    cases y with
    | nan => cases h
    | num s' l hl =>
      rw [Fl.le_num, decide_eq_true_eq] at h
      unfold Fl.toUint
      cases s with
      | true => simp
      | false =>
        cases s' with
        | true =>
          have : k = 0 := by simp [skey] at h; omega
          subst this
          have h0 : (0 : Nat) ≠ φ.infK := (Fl.infK_pos φ).ne
          simp [h0, Fmt.mag_zero]
        | false =>
          have hkl : k ≤ l := by simpa [skey] using h
          simp only [Bool.false_eq_true, if_false]
          by_cases h1 : l = φ.infK
          · rw [if_pos h1]
            split <;> omega
          · rw [if_neg h1, if_neg (by omega)]
            have := Nat.div_le_div_right (c := 2 ^ φ.u) (φ.mag_le hkl)
            omega

theorem mul_factor {φ : Fmt} (hmb : 1 ≤ φ.mb) {k a b : Nat} {hk : k ≤ φ.infK} {ha : a ≤ φ.infK} {hb : b ≤ φ.infK}
    (a0 : a ≠ 0) (hab : a ≤ b) (fb : b ≠ φ.infK) :
    ∃ x y hx hy, Fl.mul (.num false k hk) (.num false a ha) = .num false x hx ∧
      Fl.mul (.num false k hk) (.num false b hb) = .num false y hy ∧ x ≤ y := by
  unfold Fl.mul
  have fa : a ≠ φ.infK := by omega
  have b0 : b ≠ 0 := by omega
  by_cases h : k = φ.infK
  · simp only [if_pos h, if_neg a0, if_neg b0]
    exact ⟨φ.infK, φ.infK, Nat.le_refl _, Nat.le_refl _, rfl, rfl, Nat.le_refl _⟩
  · simp only [if_neg h, if_neg fa, if_neg fb]
    refine ⟨_, _, Nat.min_le_left _ _, Nat.min_le_left _ _, rfl, rfl, ?_⟩
    exact Fmt.rnd_mono φ hmb (Nat.two_pow_pos _) (Nat.two_pow_pos _)
      (Nat.mul_le_mul_right _ (Nat.mul_le_mul_left _ (Fmt.mag_le φ hab)))

theorem lit_factors : ∃ a b ha hb, Fl.lit Fmt.b64 1 10 = .num false a ha ∧ Fl.lit Fmt.b64 95 100 = .num false b hb ∧
    a ≠ 0 ∧ a ≤ b ∧ b ≠ Fmt.b64.infK :=
  ⟨4591870180066957722, 4606732058837280358, by decide +kernel, by decide +kernel, by decide +kernel,
    by decide +kernel, by decide, by decide, by decide +kernel⟩

theorem percentile_factor {M : Nat} {n c1 c2 half : F64} {k a b c : Nat} {hk : k ≤ Fmt.b64.infK}
    {ha : a ≤ Fmt.b64.infK} {hb : b ≤ Fmt.b64.infK} {hc : c ≤ Fmt.b64.infK} (e1 : n = .num false k hk)
    (ea : c1 = .num false a ha) (eb : c2 = .num false b hb) (ec : half = .num false c hc)
    (a0 : a ≠ 0) (hab : a ≤ b) (fb : b ≠ Fmt.b64.infK) :
    Fl.toUint M (Fl.add (Fl.mul n c1) half) ≤ Fl.toUint M (Fl.add (Fl.mul n c2) half) := by
  obtain ⟨x, y, hx, hy, ex, ey, hxy⟩ := mul_factor Fmt.b64_mb (hk := hk) (ha := ha) (hb := hb) a0 hab fb
  rw [e1, ea, eb, ec, ex, ey]
  have hn : ∀ (z : Nat) (hz : z ≤ Fmt.b64.infK), (Fl.add (.num false z hz) (.num false c hc) : F64).isNan = false :=
    fun z hz => (Fl.Nonneg.add Fmt.b64_mb (x := .num false z hz) (y := .num false c hc) rfl rfl).not_nan
  apply toUint_mono
  apply Fl.add_mono Fmt.b64_mb _ (hn _ _) (hn _ _)
  rw [Fl.le_num, decide_eq_true_eq]
  unfold Fl.skey
  rw [if_neg Bool.false_ne_true, if_neg Bool.false_ne_true]
  omega

theorem percentile_mono {E : Env F64 F32} (hE : E.f64 = Fl.arith Fmt.b64) (M n : Nat) :
    percentile E M n 1 10 ≤ percentile E M n 95 100 := by
  unfold percentile
  rw [hE]
  obtain ⟨k, hk, e1, -⟩ := ofInt_nat n
  obtain ⟨a, b, ha, hb, ea, eb, a0, hab, fb⟩ := lit_factors
  obtain ⟨c, hc, ec, -, -⟩ := lit_half
  exact percentile_factor e1 ea eb ec a0 hab fb

theorem rank_eq {E : Env F64 F32} {M n : Nat} (hn : n < M) (hM : M ≤ u64Max) {num : Int} {den : Nat}
    (hE : E.f64 = Fl.arith Fmt.b64) (h : percentile E u64Max n num den ≤ n) :
    rank E.f64 M n num den = percentile E u64Max n num den := by
  unfold rank percentile at *
  rw [hE] at *
  exact toUint_of_le hn hM h

theorem neg_seventy : (ieeeEnv m bs t).f64.neg ((ieeeEnv m bs t).f64.lit 70 1) = (ieeeEnv m bs t).f64.lit (-70) 1 := by
  have : Fl.neg (Fl.lit Fmt.b64 70 1) = Fl.lit Fmt.b64 (-70) 1 := by decide +kernel
  exact this

/-- What adding blocks that are not NaN keeps true. -/
structure Fed (h : Verif.History F64) (k : Nat) : Prop where
  inv : h.Inv
  nonneg : ∀ q max, h = .queue q max → ∀ x ∈ q, x.Nonneg
  count : ∀ c, h = .histogram c → c.sum ≤ k

theorem modify_sum (c : List Nat) (i : Nat) : (c.modify i (· + 1)).sum ≤ c.sum + 1 := by
  induction c generalizing i with
  | nil => simp
  | cons x c ih =>
    cases i with
    | zero => simp [List.modify_zero_cons]; omega
    | succ i =>
      have := ih i
      rw [List.modify_succ_cons, List.sum_cons, List.sum_cons]
      omega

theorem not_below {x : F64} (hx : x.isNan = false) :
    Fl.le (bnd 0) x = !Fl.lt x (bnd 0) := by
  cases h : Fl.lt x (bnd 0) with
  | true => 
    rw [Bool.not_true]
    by_contra hc
    rw [Bool.not_eq_false] at hc
    rw [Fl.lt_rank hx (bnd_not_nan 0)] at h
    rw [Fl.le_rank (bnd_not_nan 0) hx] at hc
    omega
  | false =>
    rw [Bool.not_false]
    exact (Fl.not_lt hx (bnd_not_nan 0)).1 h

theorem nonneg_of_le {x : F64} (h : Fl.lt x (bnd 0) = false) (hx : x.isNan = false) : x.Nonneg := by
  cases x with
  | nan => cases hx
  | num s k hk =>
    rw [Fl.not_lt rfl (bnd_not_nan 0)] at h
    cases s with
    | false => rfl
    | true =>
      exfalso
      obtain ⟨_, e⟩ := bnd_key 0
      have hp := bkey_pos (i := 0) (Nat.zero_le _)
      rw [e, Fl.le_num, decide_eq_true_eq] at h
      unfold Fl.skey at h
      rw [if_neg Bool.false_ne_true, if_pos rfl] at h
      omega

theorem Fed.add {h : Verif.History F64} {k : Nat} (hf : Fed h k) {x : F64} (hx : x.isNan = false) :
    Fed (h.addP (ieeeEnv m bs t) x) (k + 1) := by
  refine ⟨Verif.History.addP_inv _ hf.inv x, ?_, ?_⟩
  · intro q max hq y hy
    unfold Verif.History.addP at hq
    rw [gate0_bnd] at hq
    cases hlt : (ieeeEnv m bs t).f64.lt x (bnd 0) with
    | true => rw [hlt, if_pos rfl] at hq; exact hf.nonneg q max hq y hy
    | false =>
      rw [hlt, if_neg Bool.false_ne_true] at hq
      cases h with
      | histogram c => cases hq
      | queue q' max' =>
        injection hq with hq _
        subst hq
        rw [queueAdd, List.mem_append] at hy
        rcases hy with hy | hy
        · apply hf.nonneg _ _ rfl y
          split at hy
          · exact List.mem_of_mem_drop hy
          · exact hy
        · rw [List.mem_singleton] at hy
          subst hy
          exact nonneg_of_le hlt hx
  · intro c hc
    unfold Verif.History.addP at hc
    split at hc
    · have := hf.count c hc; omega
    · cases h with
      | queue q max => cases hc
      | histogram c' =>
        injection hc with hc
        subst hc
        have h1 := hf.count c' rfl
        have h2 := modify_sum c' (findP (ieeeEnv m bs t) x)
        omega

theorem histories {G : Globals F64} (hG : SameTables (ieeeEnv m bs t) G) (xs : List F64)
    (hx : ∀ x ∈ xs, x.isNan = false) {h : Verif.History F64} {g : History F64} {k : Nat} (hs : SameHistory h g)
    (hf : Fed h k) (hm : g.useHistogram = false → 0 < g.max) :
    ∃ h' g', Run.foldL (fun h x => h.add (ieeeEnv m bs t) x) h xs = .done h' ∧
      Run.foldL (fun g x => g.add (ieeeEnv m bs t).f64 G x) g xs = .done g' ∧ SameHistory h' g' ∧
      Fed h' (k + xs.length) ∧ g'.useHistogram = g.useHistogram := by
  induction xs generalizing h g k with
  | nil => exact ⟨h, g, rfl, rfl, hs, hf, rfl⟩
  | cons x xs ih =>
    have hx0 := hx x (List.mem_cons_self ..)
    have hle : (ieeeEnv m bs t).f64.le (gate0 (ieeeEnv m bs t)) x = !(ieeeEnv m bs t).f64.lt x (gate0 (ieeeEnv m bs t)) := by
      rw [gate0_bnd]
      exact not_below hx0
    obtain ⟨g1, e1, s1, u1, m1⟩ := add_same hG hs hf.inv hle hm
    obtain ⟨h', g', a, b, c, d, u⟩ := ih (fun y hy => hx y (List.mem_cons_of_mem _ hy)) s1 (hf.add hx0)
      (by rw [u1, m1]; exact hm)
    refine ⟨h', g', ?_, ?_, c, ?_, u.trans u1⟩
    · simp only [Run.foldL, Verif.History.add_eq _ hf.inv, Run.done_bind]
      exact a
    · simp only [Run.foldL, e1, Run.done_bind]
      exact b
    · rw [List.length_cons, show k + (xs.length + 1) = k + 1 + xs.length by omega]
      exact d

theorem Fed.calc {h : Verif.History F64} {k : Nat} (hf : Fed h k) :
    (h.calcRelativeThreshold (ieeeEnv m bs t)).2.Nonneg := by
  cases h with
  | queue q max => exact sum_nonneg (hf.nonneg q max rfl)
  | histogram c =>
    rw [calc_hist _ hf.inv]
    have := histPower_ieee (m := m) (bs := bs) (t := t) hf.inv
    rw [histPower_eq _ hf.inv] at this
    show Fl.Nonneg (binTotal (ieeeEnv m bs t).f64 _ _ _)
    rw [this]
    exact binTotal_nonneg _ range_lt

end CRef

/-- **C63.** Both histories, created alike and fed the same block energies, hold the same blocks; the integrated
loudness, the relative threshold and the loudness range are computed from the same energies. -/
theorem C63_histories {G : Globals F64} (hG : SameTables (ieeeEnv m bs t) G) (hq : Sorts G.qsort)
    (ht : t.usizeMax < 2 ^ 64) (useHistogram : Bool) (max : Nat) (hm : useHistogram = false → 0 < max)
    (xs : List F64) (hx : ∀ x ∈ xs, x.isNan = false) (hl : useHistogram = true → xs.length ≤ t.usizeMax) :
    ∃ h g, rustHistory (ieeeEnv m bs t) useHistogram max xs = .done h ∧
      cHistory (ieeeEnv m bs t) G useHistogram max xs = .done g ∧
      SameHistory h g ∧
      (∃ r, gatedLoudnessMultiple (ieeeEnv m bs t) [h] =
          .done (levelOf (energyToLoudness (ieeeEnv m bs t)) (Fl.inf true) r) ∧
        g.gatedLoudness (ieeeEnv m bs t).f64 G = .done (levelOf G.energyToLoudness (Fl.inf true) r)) ∧
      (∃ r, h.relativeThreshold (ieeeEnv m bs t) =
          levelOf (energyToLoudness (ieeeEnv m bs t)) (Fl.lit Fmt.b64 (-70) 1) r ∧
        g.relativeThreshold (ieeeEnv m bs t).f64 G =
          .done (levelOf G.energyToLoudness (Fl.lit Fmt.b64 (-70) 1) r)) ∧
      ∃ r, loudnessRangeMultiple (ieeeEnv m bs t) [h] =
          .done (.ok (spanOf (Fl.arith Fmt.b64) (energyToLoudness (ieeeEnv m bs t)) r)) ∧
        g.loudnessRange (ieeeEnv m bs t).f64 G t.usizeMax =
          .done (spanOf (Fl.arith Fmt.b64) G.energyToLoudness r) := by
  have h0 : SameHistory (.new useHistogram max : History F64) (.create useHistogram max) := by
    cases useHistogram
    · exact .queue [] max
    · exact .histogram _ max
  have f0 : CRef.Fed (.new useHistogram max) 0 := by
    cases useHistogram
    · exact ⟨trivial, fun q max hq x hx => (by cases hq; cases hx), fun c hc => (by cases hc)⟩
    · refine ⟨List.length_replicate .., fun q max hq => (by cases hq), fun c hc => ?_⟩
      injection hc with hc
      rw [← hc, List.sum_replicate, smul_zero]
  obtain ⟨h, g, r1, r2, r3, r4, r5⟩ := CRef.histories hG xs hx h0 f0 (by cases useHistogram <;> exact hm)
  have hN := (r4.calc (m := m) (bs := bs) (t := t)).not_nan
  have hz : (h.calcRelativeThreshold (ieeeEnv m bs t)).2 ≠ Fl.zero true := (r4.calc).ne_negzero
  refine ⟨h, g, r1, r2, r3, CRef.gatedLoudness_same hG r3 r4.inv (totals_one h hz) hN,
    CRef.relativeThreshold_same hG r3 r4.inv CRef.neg_seventy hN, ?_⟩
  cases r3 with
  | histogram c max =>
    have hc := r4.count c rfl
    have hle : c.sum ≤ t.usizeMax := by
      cases useHistogram with
      | true => have := hl rfl; omega
      | false => cases r5
    obtain ⟨r, a, b⟩ := CRef.histRange_same hG (pctOk_ieee m bs t (by unfold u64Max; omega)) r4.inv
      (sizeMax := t.usizeMax) (fun n hn num den => CRef.rank_eq (by omega) (by unfold u64Max; omega) rfl)
      (CRef.percentile_mono rfl u64Max)
      (by rw [histPower_ieee r4.inv]; exact (binTotal_nonneg _ range_lt).not_nan)
    refine ⟨r, ?_, b⟩
    simp only [loudnessRangeMultiple, a, Run.bind_eq, Run.done_bind]
    rfl
  | queue q max =>
    have hn := r4.nonneg q max rfl
    obtain ⟨p1, p2⟩ := hq q fun x hx => (hn x hx).not_nan
    obtain ⟨r, a, b⟩ := CRef.listRange_same hG (pctOk_ieee m bs t ht.le) (q := q)
      (sorted_unique hn p1 p2).symm
    refine ⟨r, ?_, b⟩
    have hany : q.any (ieeeEnv m bs t).f64.isNan = false := by
      rw [List.any_eq_false]
      intro x hx h
      rw [show (ieeeEnv m bs t).f64.isNan x = x.isNan from rfl, (hn x hx).not_nan] at h
      cases h
    rw [loudnessRangeMultiple_eq _ (pctOk_ieee m bs t ht.le) (pctOk_ieee m bs t (by unfold u64Max; omega))
      (s := [.queue q max]) (by simpa using r4.inv), rangeMultP_one]
    unfold rangeP
    simp only [hany]
    rw [if_neg (by simp)]
    rw [queueLoudnessRange_eq _ (pctOk_ieee m bs t ht.le)] at a
    injection a with a
    rw [a]
    rfl

/-- `pow(10, y)` has a relative error of at most `δ` on `[-7, 4]`. -/
def Spec.PowWithin (m : Libm F64) (δ : ℝ) : Prop :=
  ∀ y : F64, y.Finite → -7 ≤ y.value → y.value ≤ 4 →
    (m.powf (Fl.lit Fmt.b64 10 1) y).Finite ∧
      |(m.powf (Fl.lit Fmt.b64 10 1) y).value - (10 : ℝ) ^ y.value| ≤ δ * (10 : ℝ) ^ y.value

namespace CRef

theorem pow_level (hm : PowWithin m (1 / 2 ^ 50)) {y : F64} {L : ℝ} (hy : Ulp y ((L + 691 / 1000) / 10) 39)
    (h0 : -70 ≤ L) (h1 : L ≤ 30) :
    (m.powf (Fl.lit Fmt.b64 10 1) y).Finite ∧
      |(m.powf (Fl.lit Fmt.b64 10 1) y).value - energyOf L| ≤ 42 / 10 ^ 15 * energyOf L := by
  have hv := abs_le.1 (hy.value_le (by norm_num))
  have hp := hm y hy.1 (by norm_num at hv ⊢; linarith [hv.1]) (by norm_num at hv ⊢; linarith [hv.2])
  refine ⟨hp.1, ?_⟩
  have hE : energyOf L = (10 : ℝ) ^ ((L + 691 / 1000) / 10) := rfl
  rw [hE]
  generalize (L + 691 / 1000) / 10 = Y at *
  have hd : |y.value - Y| ≤ 39 * (1 / 2 ^ 52) := hy.2
  have hlog : Real.log 10 ≤ 231 / 100 := by have := log10_near.2; norm_num at this ⊢; linarith
  have hlog0 : 0 < Real.log 10 := Real.log_pos (by norm_num)
  have hx := rpow_exponent (X := 10) (y := y.value) (Y := Y) (by norm_num) (by
    rw [abs_mul, abs_of_pos hlog0]
    have : |y.value - Y| * Real.log 10 ≤ 39 * (1 / 2 ^ 52) * (231 / 100) :=
      mul_le_mul hd hlog hlog0.le (by norm_num)
    refine this.trans (by norm_num))
  have hb : 2 * |y.value - Y| * Real.log 10 ≤ 401 / 10 ^ 16 := by
    have : |y.value - Y| * Real.log 10 ≤ 39 * (1 / 2 ^ 52) * (231 / 100) :=
      mul_le_mul hd hlog hlog0.le (by norm_num)
    have h2 : (2 : ℝ) * (39 * (1 / 2 ^ 52) * (231 / 100)) ≤ 401 / 10 ^ 16 := by norm_num
    linarith
  have hpos : (0 : ℝ) < 10 ^ Y := Real.rpow_pos_of_pos (by norm_num) _
  have hx' : |(10 : ℝ) ^ y.value - 10 ^ Y| ≤ 10 ^ Y * (401 / 10 ^ 16) :=
    hx.trans (mul_le_mul_of_nonneg_left hb hpos.le)
  have h3 := abs_le.1 hx'
  have h4 := abs_le.1 hp.2
  generalize (10 : ℝ) ^ y.value = a at *
  generalize (10 : ℝ) ^ Y = b at *
  rw [abs_le]
  norm_num at *
  constructor <;> linarith [h3.1, h3.2, h4.1, h4.2]

theorem ulp_691 : Ulp (Fl.lit Fmt.b64 691 1000) (691 / 1000) (7 / 10) := by
  have := Ulp.lit (n := 691) (d := 1000) (A := 692 / 1000) (c := 7 / 10) (by norm_num) (by norm_num) (by norm_num)
    (by norm_num)
  norm_num at this ⊢
  exact this

theorem ulp_ten : Ulp (Fl.lit Fmt.b64 10 1) 10 0 := by
  have := Ulp.nat 10 (by norm_num)
  push_cast at this
  exact this

theorem ulp_div_ten {x : F64} {X c A r : ℝ} (hx : Ulp x X c) (hX : |X| ≤ A) (hA : A ≤ 2 ^ 12) (hc : c ≤ 2 ^ 14)
    (hr : (c + A) / 10 + 1 / 1000 ≤ r) : Ulp (Fl.div x (Fl.lit Fmt.b64 10 1)) (X / 10) r := by
  have t1 := eta64
  have t2 := top64
  have c0 := hx.nonneg
  have A0 := (abs_nonneg _).trans hX
  have hy := ulp_ten
  unfold Ulp at *
  rw [zero_mul] at hy
  refine (App.div Fmt.ok64 hx hy hX (L := 10) (by norm_num) (by norm_num) ?_).mono ?_
  · refine _root_.le_trans ?_ t2
    norm_num at *
    linarith
  · rw [eps64]
    generalize eta Fmt.b64 = η at *
    norm_num at *
    linarith

/-- The exponent of an entry. -/
theorem level_arg {x y : F64} {X L : ℝ} (hx : Ulp x X 101) (hy : Ulp y L 71) (h0 : -70 ≤ X - L) (h1 : X - L ≤ 30) :
    Ulp (Fl.div (Fl.add (Fl.sub x y) (Fl.lit Fmt.b64 691 1000)) (Fl.lit Fmt.b64 10 1)) ((X - L + 691 / 1000) / 10) 39 := by
  have hs := hx.sub hy (A := 70) (r := 243) (by rw [abs_le]; constructor <;> linarith) (by norm_num) (by norm_num)
    (by norm_num) (by norm_num)
  have ha := hs.add ulp_691 (A := 71) (r := 315) (by rw [abs_le]; constructor <;> linarith) (by norm_num)
    (by norm_num) (by norm_num) (by norm_num)
  exact ulp_div_ten ha (A := 71) (by rw [abs_le]; constructor <;> linarith) (by norm_num) (by norm_num) (by norm_num)

theorem tenths {i : Nat} (hi : i ≤ 1000) : Ulp (Fl.div (Fl.ofInt Fmt.b64 (i : Int)) (Fl.lit Fmt.b64 10 1)) ((i : ℝ) / 10) 101 := by
  have hi' : (i : ℝ) ≤ 1000 := by exact_mod_cast hi
  have hn : Ulp (Fl.ofInt Fmt.b64 (i : Int)) (i : ℝ) 0 := by
    have := Fl.App.ofNat Fmt.ok64 (n := i) (by have : Fmt.b64.mb = 52 := rfl; rw [this]; omega)
    unfold Ulp
    rw [zero_mul]
    exact this
  exact ulp_div_ten hn (A := 1000) (by rw [abs_of_nonneg (Nat.cast_nonneg i)]; exact hi') (by norm_num) (by norm_num)
    (by norm_num)

theorem near_entry {x y e : ℝ} (he : 0 < e) (hx : |x - e| ≤ 42 / 10 ^ 15 * e)
    (hy : (1 - 4 / 10 ^ 14) * e ≤ y ∧ y ≤ (1 + 4 / 10 ^ 14) * e) : |x - y| ≤ 1 / 10 ^ 13 * y := by
  rw [abs_le] at hx ⊢
  obtain ⟨h1, h2⟩ := hx
  obtain ⟨h3, h4⟩ := hy
  norm_num at *
  constructor <;> linarith

theorem init_energy (hm : PowWithin m (1 / 2 ^ 50)) {i : Nat} (hi : i < 1000) :
    |(m.powf (Fl.lit Fmt.b64 10 1) (Fl.div (Fl.add (Fl.sub (Fl.div (Fl.ofInt Fmt.b64 (i : Int)) (Fl.lit Fmt.b64 10 1))
      (Fl.lit Fmt.b64 6995 100)) (Fl.lit Fmt.b64 691 1000)) (Fl.lit Fmt.b64 10 1))).value - (centre i).value| ≤
      1 / 10 ^ 13 * (centre i).value := by
  have hi' : (i : ℝ) ≤ 999 := by exact_mod_cast Nat.le_of_lt_succ hi
  have hi0 : (0 : ℝ) ≤ i := Nat.cast_nonneg i
  have hl : Ulp (Fl.lit Fmt.b64 6995 100) (6995 / 100) 71 := by
    have := Ulp.lit (n := 6995) (d := 100) (A := 70) (c := 71) (by norm_num) (by norm_num) (by norm_num)
      (by norm_num)
    push_cast at this
    exact this
  have ha := level_arg (tenths hi.le) hl (by linarith) (by linarith)
  refine near_entry (energyOf_pos _) (pow_level hm ha (by linarith) (by linarith)).2 ?_
  have := centre_value hi
  rw [show (i : ℝ) / 10 - 6995 / 100 = -70 + (i : ℝ) / 10 + 1 / 20 by ring]
  exact this

theorem init_boundary (hm : PowWithin m (1 / 2 ^ 50)) {i : Nat} (hi : i ≤ 1000) :
    |(m.powf (Fl.lit Fmt.b64 10 1) (Fl.div (Fl.add (Fl.sub (Fl.div (Fl.ofInt Fmt.b64 (i : Int)) (Fl.lit Fmt.b64 10 1))
      (Fl.lit Fmt.b64 70 1)) (Fl.lit Fmt.b64 691 1000)) (Fl.lit Fmt.b64 10 1))).value - (bnd i).value| ≤
      1 / 10 ^ 13 * (bnd i).value := by
  have hi' : (i : ℝ) ≤ 1000 := by exact_mod_cast hi
  have hi0 : (0 : ℝ) ≤ i := Nat.cast_nonneg i
  have hl : Ulp (Fl.lit Fmt.b64 70 1) 70 71 := by
    have := (Ulp.nat 70 (by norm_num)).weaken (c' := 71) (by norm_num)
    push_cast at this
    exact this
  have ha := level_arg (tenths hi) hl (by linarith) (by linarith)
  refine near_entry (energyOf_pos _) (pow_level hm ha (by linarith) (by linarith)).2 ?_
  have := bnd_value hi
  rw [show (i : ℝ) / 10 - 70 = -70 + (i : ℝ) / 10 by ring]
  exact this

theorem init_first (hm : PowWithin m (1 / 2 ^ 50)) :
    |(m.powf (Fl.lit Fmt.b64 10 1) (Fl.div (Fl.add (Fl.neg (Fl.lit Fmt.b64 70 1)) (Fl.lit Fmt.b64 691 1000))
      (Fl.lit Fmt.b64 10 1))).value - (bnd 0).value| ≤ 1 / 10 ^ 13 * (bnd 0).value := by
  have hl : Ulp (Fl.lit Fmt.b64 70 1) 70 71 := by
    have := (Ulp.nat 70 (by norm_num)).weaken (c' := 71) (by norm_num)
    push_cast at this
    exact this
  have ha := hl.neg.add ulp_691 (A := 71) (r := 315) (by rw [abs_le]; constructor <;> norm_num) (by norm_num)
    (by norm_num) (by norm_num) (by norm_num)
  have hd := ulp_div_ten ha (A := 71) (r := 39) (by rw [abs_le]; constructor <;> norm_num) (by norm_num) (by norm_num)
    (by norm_num)
  refine near_entry (energyOf_pos (-70)) (pow_level hm hd (by norm_num) (by norm_num)).2 ?_
  have := bnd_value (i := 0) (Nat.zero_le _)
  rw [Nat.cast_zero, zero_div, add_zero] at this
  exact this

theorem init_gate {D S : Type} (E : Env D S) (log : D → D) (qsort : List D → List D)
    (h : E.f64.neg (E.f64.lit 10 1) = E.f64.lit (-10) 1) :
    (Globals.init E log qsort).relativeGateFactor = gateFactor E (-10) := by
  unfold Globals.init gateFactor
  dsimp only
  rw [h]

theorem init_minus {D S : Type} (E : Env D S) (log : D → D) (qsort : List D → List D)
    (h : E.f64.neg (E.f64.lit 20 1) = E.f64.lit (-20) 1) :
    (Globals.init E log qsort).minusTwentyDecibels = gateFactor E (-20) := by
  unfold Globals.init gateFactor
  dsimp only
  rw [h]

theorem ops_lit (a : Int) (b : Nat) : (ieeeEnv m bs t).f64.lit a b = Fl.lit Fmt.b64 a b := rfl
theorem ops_neg (a : F64) : (ieeeEnv m bs t).f64.neg a = Fl.neg a := rfl
theorem ops_add (a b : F64) : (ieeeEnv m bs t).f64.add a b = Fl.add a b := rfl
theorem ops_div (a b : F64) : (ieeeEnv m bs t).f64.div a b = Fl.div a b := rfl
theorem ops_pow (a b : F64) : (ieeeEnv m bs t).libm.powf a b = m.powf a b := rfl

theorem same_hist {D : Type} {r c : List Nat} {u : Bool} {l : List D} {max : Nat}
    (h : SameHistory (.histogram r) ⟨u, l, max, c⟩) : r = c := by
  cases h
  rfl

theorem same_queue {D : Type} {r c : List D} {u : Bool} {l : List Nat} {m max : Nat}
    (h : SameHistory (.queue r m) ⟨u, c, max, l⟩) : r = c := by
  cases h
  rfl

end CRef

/-- **C63.** The gate factors of the C program are the crate's, and if `pow` is accurate to four units in the last
place, so are, up to `10^-13` of their size, its tables. -/
theorem C63_tables (hm : PowWithin m (1 / 2 ^ 50)) (log : F64 → F64) (qsort : List F64 → List F64) :
    (Globals.init (ieeeEnv m bs t) log qsort).relativeGateFactor = gateFactor (ieeeEnv m bs t) (-10) ∧
    (Globals.init (ieeeEnv m bs t) log qsort).minusTwentyDecibels = gateFactor (ieeeEnv m bs t) (-20) ∧
    (Globals.init (ieeeEnv m bs t) log qsort).energies.length = 1000 ∧
    (Globals.init (ieeeEnv m bs t) log qsort).boundaries.length = 1001 ∧
    (∀ (i : Nat) (x y : F64), (Globals.init (ieeeEnv m bs t) log qsort).energies[i]? = some x →
      (energies (ieeeEnv m bs t))[i]? = some y → |x.value - y.value| ≤ 1 / 10 ^ 13 * y.value) ∧
    (∀ (i : Nat) (x y : F64), (Globals.init (ieeeEnv m bs t) log qsort).boundaries[i]? = some x →
      (boundaries (ieeeEnv m bs t))[i]? = some y → |x.value - y.value| ≤ 1 / 10 ^ 13 * y.value) := by
  refine ⟨?_, ?_, ?_, ?_, ?_, ?_⟩
  · have : Fl.neg (Fl.lit Fmt.b64 10 1) = Fl.lit Fmt.b64 (-10) 1 := by decide +kernel
    exact CRef.init_gate _ log qsort (by rw [CRef.ops_lit, CRef.ops_lit, CRef.ops_neg]; exact this)
  · have : Fl.neg (Fl.lit Fmt.b64 20 1) = Fl.lit Fmt.b64 (-20) 1 := by decide +kernel
    exact CRef.init_minus _ log qsort (by rw [CRef.ops_lit, CRef.ops_lit, CRef.ops_neg]; exact this)
  · simp only [Globals.init, List.length_map, List.length_range]
  · simp only [Globals.init, List.length_cons, List.length_map, List.length_range']
  · intro i x y hx hy
    have hi : i < 1000 := by
      have := (List.getElem?_eq_some_iff.1 hy).1
      rwa [energies_length] at this
    have hy' : y = centre i := by
      rw [← binEnergy_centre (m := m) (bs := bs) (t := t) hi, binEnergy, List.getD_eq_getElem?_getD, hy, Option.getD_some]
    simp only [Globals.init] at hx
    rw [List.getElem?_map, List.getElem?_range hi, Option.map_some] at hx
    injection hx with hx
    rw [hy', ← hx]
    exact CRef.init_energy hm hi
  · intro i x y hx hy
    have hi : i < 1001 := by
      have := (List.getElem?_eq_some_iff.1 hy).1
      rwa [boundaries_length] at this
    have hy' : y = bnd i := by
      rw [← boundary_bnd (m := m) (bs := bs) (t := t) (by omega), boundary, List.getD_eq_getElem?_getD, hy, Option.getD_some]
    simp only [Globals.init] at hx
    rw [hy']
    cases i with
    | zero =>
      rw [List.getElem?_cons_zero] at hx
      injection hx with hx
      rw [← hx]
      simp only [CRef.ops_lit, CRef.ops_neg, CRef.ops_add, CRef.ops_div, CRef.ops_pow]
      exact CRef.init_first hm
    | succ i =>
      rw [List.getElem?_cons_succ, List.getElem?_map, List.getElem?_range' (by omega), Option.map_some] at hx
      injection hx with hx
      rw [← hx]
      have := CRef.init_boundary hm (i := i + 1) (by omega)
      rw [Nat.one_mul, Nat.add_comm 1 i]
      exact this

/-- **C63.** A change of the maximum number of blocks keeps the two histories the same for histograms, where it has
no effect, and for queues that hold exactly that many blocks.  (The crate's condition is inverted: with fewer
blocks it adds blocks of energy zero, with more it keeps them; C08.) -/
theorem C63_set_max_size {D S : Type} (E : Env D S) {h : History D} {g : CRef.History D} (hs : SameHistory h g) (k : Nat) :
    SameHistory (h.setMaxSize E k) (g.setMaxSize k) ↔ g.useHistogram = true ∨ g.list.length = k := by
  cases hs with
  | histogram c max =>
    simp only [History.setMaxSize, CRef.History.setMaxSize, true_or, iff_true, List.drop_nil]
    exact .histogram c k
  | queue q max =>
    simp only [History.setMaxSize, CRef.History.setMaxSize, Bool.false_eq_true, false_or]
    constructor
    · intro hs
      by_contra hne
      by_cases hlt : q.length < k
      · rw [if_pos hlt, show q.length - k = 0 by omega, List.drop_zero] at hs
        generalize hr : q ++ List.replicate (k - q.length) E.f64.zero = r at hs
        cases hs
        have := congrArg List.length hr
        rw [List.length_append, List.length_replicate] at this
        omega
      · rw [if_neg hlt] at hs
        generalize hr : q.drop (q.length - k) = r at hs
        cases hs
        have := congrArg List.length hr
        rw [List.length_drop] at this
        omega
    · intro hk
      rw [if_neg (by omega), show q.length - k = 0 by omega, List.drop_zero]
      exact .queue q k

/-- **C63.** A block of energy NaN is dropped by C and kept by the crate. -/
theorem C63_nan_differs {G : Globals F64} (hG : SameTables (ieeeEnv m bs t) G) {h : History F64} {g : CRef.History F64}
    (hs : SameHistory h g) (hi : h.Inv) (hn : ∀ x ∈ g.list, x.isNan = false) :
    g.add (ieeeEnv m bs t).f64 G .nan = .done g ∧
      ∃ h', h.add (ieeeEnv m bs t) .nan = .done h' ∧ ¬ SameHistory h' g := by
  have hb : Fl.le (bnd 0) .nan = false := Fl.le_nan _
  have hl : Fl.lt .nan (bnd 0) = false := rfl
  have hb' : (ieeeEnv m bs t).f64.le (gate0 (ieeeEnv m bs t)) .nan = false := by rw [gate0_bnd]; exact hb
  have hl' : (ieeeEnv m bs t).f64.lt .nan (gate0 (ieeeEnv m bs t)) = false := by rw [gate0_bnd]; exact hl
  refine ⟨?_, _, History.add_eq _ hi _, ?_⟩
  · simp only [CRef.History.add, Run.bind_eq, hG.boundaries, index_b0, Run.done_bind, hb']
    rfl
  · unfold History.addP
    rw [hl', if_neg Bool.false_ne_true]
    cases hs with
    | histogram c max =>
      intro hc
      have hlen : findP (ieeeEnv m bs t) .nan < c.length := by rw [show c.length = 1000 from hi]; exact (find_eq _ _).2
      have hr := CRef.same_hist hc
      have := congrArg (fun l => l[findP (ieeeEnv m bs t) .nan]?) hr
      simp [hlen] at this
    | queue q max =>
      intro hc
      have hr := CRef.same_queue hc
      have hmem : (Fl.nan : F64) ∈ q := by
        rw [← hr, queueAdd]
        exact List.mem_append_right _ (List.mem_singleton_self _)
      have := hn _ hmem
      cases this

/-- **C63.** With room for no block, C dereferences a null pointer and the crate keeps the last block. -/
theorem C63_no_room {G : Globals F64} (hG : SameTables (ieeeEnv m bs t) G) {x : F64} (hx : Fl.le (bnd 0) x = true) :
    (CRef.History.create false 0).add (ieeeEnv m bs t).f64 G x = .panic ∧
      (History.new false 0).add (ieeeEnv m bs t) x = .done (.queue [x] 0) := by
  have hb' : (ieeeEnv m bs t).f64.le (gate0 (ieeeEnv m bs t)) x = true := by rw [gate0_bnd]; exact hx
  constructor
  · simp only [CRef.History.add, Run.bind_eq, hG.boundaries, index_b0, Run.done_bind, hb']
    rfl
  · rw [History.add_eq _ (show (History.new false 0 : History F64).Inv from trivial)]
    unfold History.addP
    have hl : (ieeeEnv m bs t).f64.lt x (gate0 (ieeeEnv m bs t)) = false := by
      rw [gate0_bnd]
      by_contra hc
      rw [Bool.not_eq_false] at hc
      cases x with
      | nan => cases hc
      | num s k hk =>
        have := CRef.not_below (x := .num s k hk) rfl
        rw [hx, show Fl.lt (.num s k hk) (bnd 0) = true from hc] at this
        cases this
    rw [hl, if_neg Bool.false_ne_true]
    rfl

/-! ## Examples -/

/-- The tables and gate factors of the crate, with a merge sort for `qsort`. -/
def Demo.tables63 : Globals F64 where
  minusTwentyDecibels := gateFactor Demo.env (-20)
  relativeGateFactor := gateFactor Demo.env (-10)
  energies := energies Demo.env
  boundaries := boundaries Demo.env
  energyToLoudness := energyToLoudness Demo.env
  qsort l := l.mergeSort (sortLe (Fl.arith Fmt.b64))

example : SameTables Demo.env Demo.tables63 := ⟨rfl, rfl, rfl, rfl⟩

example : Sorts Demo.tables63.qsort := by
  intro l hl
  have hperm := List.mergeSort_perm l (sortLe (Fl.arith Fmt.b64))
  refine ⟨hperm, List.Pairwise.imp_of_mem ?_ (List.pairwise_mergeSort sortLe_trans sortLe_total l)⟩
  intro a b ha hb hab
  rwa [sortLe_num (hl a (hperm.mem_iff.1 ha)) (hl b (hperm.mem_iff.1 hb))] at hab

/-- Loud, medium, inaudible, quiet, loud. -/
def Demo.blocks63 : List F64 :=
  [Fl.lit _ 1 2, Fl.lit _ 1 10, Fl.lit _ 1 (10 ^ 9), Fl.lit _ 1 1000, Fl.lit _ 1 4]

def Demo.listOf : Run (CRef.History F64) → List F64
  | .done g => g.list
  | _ => []

def Demo.histOf : Run (CRef.History F64) → List (Nat × Nat)
  | .done g => (g.hist.zipIdx.filter fun p => p.1 ≠ 0).map fun p => (p.2, p.1)
  | _ => []

def Demo.levelIn : Run (CRef.History F64) → Option F64
  | .done g => match g.gatedLoudness Demo.env.f64 Demo.tables63 with
    | .done x => some x
    | _ => none
  | _ => none

/-- A queue with room for three keeps the last three audible blocks. -/
example : Demo.listOf (cHistory Demo.env Demo.tables63 false 3 Demo.blocks63) =
    [Fl.lit _ 1 10, Fl.lit _ 1 1000, Fl.lit _ 1 4] := by decide +kernel

/-- A histogram counts all four. -/
example : (Demo.histOf (cHistory Demo.env Demo.tables63 true 3 Demo.blocks63)).map (·.2) = [1, 1, 1, 1] := by
  decide +kernel

/-- The quiet block is gated out: with the logarithm replaced by the identity the level is computed from the mean of
the others. -/
example : Demo.levelIn (cHistory Demo.env Demo.tables63 false 5 Demo.blocks63) =
    some (energyToLoudness Demo.env (Fl.div (Fl.add (Fl.add (Fl.lit _ 1 2) (Fl.lit _ 1 10)) (Fl.lit _ 1 4))
      (Fl.lit _ 3 1))) := by decide +kernel

def Demo.queueIn : Run (History F64) → List F64
  | .done (.queue q _) => q
  | _ => []

/-- The crate's queue after the same blocks. -/
example : Demo.queueIn (rustHistory Demo.env false 3 Demo.blocks63) =
    [Fl.lit _ 1 10, Fl.lit _ 1 1000, Fl.lit _ 1 4] := by decide +kernel

/-- A library whose `pow` has the accuracy asked for. -/
example : PowWithin { Demo.libm with powf := fun x y => Demo.places (x.value ^ y.value) } (1 / 2 ^ 50) := by
  intro y hy h1 h2
  have e : (Fl.lit Fmt.b64 10 1).value = 10 := by
    have h := CRef.ulp_ten
    unfold Ulp at h
    have := h.2
    rw [zero_mul] at this
    linarith [abs_nonpos_iff.1 this]
  show (Demo.places ((Fl.lit Fmt.b64 10 1).value ^ y.value)).Finite ∧
    |(Demo.places ((Fl.lit Fmt.b64 10 1).value ^ y.value)).value - (10 : ℝ) ^ y.value| ≤ _
  rw [e]
  refine Demo.places_wide ?_ ?_
  · refine _root_.le_trans ?_ (Real.rpow_le_rpow_of_exponent_le (by norm_num : (1 : ℝ) ≤ 10) h1)
    rw [show (-7 : ℝ) = ((-7 : ℤ) : ℝ) by norm_num, Real.rpow_intCast]
    norm_num
  · refine (Real.rpow_le_rpow_of_exponent_le (by norm_num : (1 : ℝ) ≤ 10) h2).trans ?_
    rw [show (4 : ℝ) = ((4 : ℕ) : ℝ) by norm_num, Real.rpow_natCast]
    norm_num

end Verif
