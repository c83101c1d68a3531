import Verif.Proofs.Onset
/-!
# A tone of 1 kHz at 48 kHz
-/

namespace Verif
open Spec

/-- A tone of 1 kHz at 48 kHz. -/
noncomputable def Spec.tone1k : ℂ := Complex.exp ((2 * Real.pi * 1000 / 48000 : ℝ) * Complex.I)

theorem tone1k_norm : ‖tone1k‖ = 1 := Complex.norm_exp_ofReal_mul_I _

theorem cos1k : |tone1k.re - 99144486137381041114 / 10 ^ 20| ≤ 1 / 10 ^ 17 := by
  have hre : tone1k.re = Real.cos (2 * Real.pi * 1000 / 48000) := by
    unfold tone1k
    rw [Complex.exp_ofReal_mul_I_re]
  rw [hre]
  have hx : |2 * Real.pi * 1000 / 48000 - 13089969389957471827 / 10 ^ 20| ≤ 1 / 10 ^ 18 := by
    have := Real.pi_gt_d20
    have := Real.pi_lt_d20
    rw [abs_le]
    constructor <;> linarith
  have hl : |Real.cos (2 * Real.pi * 1000 / 48000) - Real.cos (13089969389957471827 / 10 ^ 20)| ≤ 1 / 10 ^ 18 :=
    (Real.abs_cos_sub_cos_le _ _).trans hx
  have ht := (sin_cos_taylor (x := 13089969389957471827 / 10 ^ 20) (by norm_num [abs_of_pos])).2
  have hc : |cosT (13089969389957471827 / 10 ^ 20) - 99144486137381041114 / 10 ^ 20| ≤ 1 / 10 ^ 18 := by
    unfold cosT
    norm_num [abs_le]
  have hs : |(13089969389957471827 / 10 ^ 20 : ℝ)| ^ 14 / 80000000000 ≤ 1 / 10 ^ 18 := by
    rw [abs_of_pos (by norm_num)]
    norm_num
  rw [abs_le] at *
  constructor <;> linarith

/-- Gain of the filter at 1 kHz: `|H|² = 1.174277`. -/
theorem gain1k (bs : BSearch) (u : Nat) :
    let H := transfer (filterCoefficients (exactEnv bs u) ((exactEnv bs u).f64.ofInt 48000)) tone1k
    1174276 / 1000000 ≤ ‖H‖ ^ 2 ∧ ‖H‖ ^ 2 ≤ 1174278 / 1000000 := by
  intro H
  obtain ⟨b0, b1, b2, a1, a2, c1, c2, hb, ha, r1, r2, r3, r4, r5, r6, r7⟩ := C53_itu bs u
  have hz := tone1k_norm
  have hc : |tone1k.re - 99144486137381041114 / 10 ^ 20| ≤ 5 / 10 ^ 15 := cos1k.trans (by norm_num)
  have one : |(1 : ℝ) - 1| ≤ 5 / 10 ^ 15 := by norm_num
  have two : |(-2 : ℝ) - (-2)| ≤ 5 / 10 ^ 15 := by norm_num
  unfold Rounds at *
  have hH : ‖H‖ ^ 2 = ‖(b0 : ℂ) * tone1k ^ 2 + b1 * tone1k + b2‖ ^ 2 *
      ‖((1 : ℝ) : ℂ) * tone1k ^ 2 + (-2 : ℝ) * tone1k + (1 : ℝ)‖ ^ 2 /
      (‖((1 : ℝ) : ℂ) * tone1k ^ 2 + a1 * tone1k + a2‖ ^ 2 *
      ‖((1 : ℝ) : ℂ) * tone1k ^ 2 + c1 * tone1k + c2‖ ^ 2) := by
    simp only [H, transfer]
    have hb' := congrArg (fun v => quartic v tone1k) hb
    have ha' := congrArg (fun v => quartic v tone1k) ha
    simp only [quartic_cascade] at hb' ha'
    rw [hb', ha', norm_div, norm_mul, norm_mul, div_pow, mul_pow, mul_pow]
  rw [hH, quad_norm _ _ _ hz, quad_norm _ _ _ hz, quad_norm _ _ _ hz, quad_norm _ _ _ hz]
  have n1 := quad_near r1 r2 r3 hc (by norm_num [abs_le]) (by norm_num [abs_le]) (by norm_num [abs_le])
    (by norm_num [abs_le]) (by norm_num [abs_le]) (by norm_num)
  have n2 := quad_near one two one hc (by norm_num [abs_le]) (by norm_num [abs_le]) (by norm_num [abs_le])
    (by norm_num [abs_le]) (by norm_num [abs_le]) (by norm_num)
  have n3 := quad_near one r4 r5 hc (by norm_num [abs_le]) (by norm_num [abs_le]) (by norm_num [abs_le])
    (by norm_num [abs_le]) (by norm_num [abs_le]) (by norm_num)
  have n4 := quad_near one r6 r7 hc (by norm_num [abs_le]) (by norm_num [abs_le]) (by norm_num [abs_le])
    (by norm_num [abs_le]) (by norm_num [abs_le]) (by norm_num)
  generalize (b1 + b0 * tone1k.re + b2 * tone1k.re) ^ 2 + (b0 - b2) ^ 2 * (1 - tone1k.re ^ 2) = Q1 at *
  generalize (-2 + 1 * tone1k.re + 1 * tone1k.re) ^ 2 + (1 - 1) ^ 2 * (1 - tone1k.re ^ 2) = Q2 at *
  generalize (a1 + 1 * tone1k.re + a2 * tone1k.re) ^ 2 + (1 - a2) ^ 2 * (1 - tone1k.re ^ 2) = Q3 at *
  generalize (c1 + 1 * tone1k.re + c2 * tone1k.re) ^ 2 + (1 - c2) ^ 2 * (1 - tone1k.re ^ 2) = Q4 at *
  have m1 : 227169012 / 10 ^ 11 ≤ Q1 ∧ Q1 ≤ 227169014 / 10 ^ 11 := by
    rw [abs_le] at n1; norm_num at n1 ⊢; constructor <;> linarith
  have m2 : 29276158 / 10 ^ 11 ≤ Q2 ∧ Q2 ≤ 29276159 / 10 ^ 11 := by
    rw [abs_le] at n2; norm_num at n2 ⊢; constructor <;> linarith
  have m3 : 194827815 / 10 ^ 11 ≤ Q3 ∧ Q3 ≤ 194827816 / 10 ^ 11 := by
    rw [abs_le] at n3; norm_num at n3 ⊢; constructor <;> linarith
  have m4 : 29069782 / 10 ^ 11 ≤ Q4 ∧ Q4 ≤ 29069783 / 10 ^ 11 := by
    rw [abs_le] at n4; norm_num at n4 ⊢; constructor <;> linarith
  have l1 : (227169012 / 10 ^ 11) * (29276158 / 10 ^ 11) ≤ Q1 * Q2 := mul_le_mul m1.1 m2.1 (by norm_num) (by linarith)
  have l2 : Q1 * Q2 ≤ (227169014 / 10 ^ 11) * (29276159 / 10 ^ 11) := mul_le_mul m1.2 m2.2 (by linarith) (by norm_num)
  have l3 : (194827815 / 10 ^ 11) * (29069782 / 10 ^ 11) ≤ Q3 * Q4 := mul_le_mul m3.1 m4.1 (by norm_num) (by linarith)
  have l4 : Q3 * Q4 ≤ (194827816 / 10 ^ 11) * (29069783 / 10 ^ 11) := mul_le_mul m3.2 m4.2 (by linarith) (by norm_num)
  have p : 0 < Q3 * Q4 := by linarith
  rw [le_div_iff₀ p, div_le_iff₀ p]
  constructor <;> linarith

theorem gain1k_le (bs : BSearch) (u : Nat) :
    ‖transfer (filterCoefficients (exactEnv bs u) ((exactEnv bs u).f64.ofInt 48000)) tone1k‖ ≤ 1084 / 1000 := by
  have h := (gain1k bs u).2
  by_contra hc
  push Not at hc
  nlinarith

theorem tone1k_one : 1307 / 10000 ≤ ‖tone1k - 1‖ := by
  have h := quad_norm 0 1 (-1) tone1k_norm
  have e : ((0 : ℝ) : ℂ) * tone1k ^ 2 + (1 : ℝ) * tone1k + (-1 : ℝ) = tone1k - 1 := by push_cast; ring
  rw [e] at h
  have hc := abs_le.1 cos1k
  by_contra hlt
  have : ‖tone1k - 1‖ ^ 2 ≤ (1307 / 10000) ^ 2 := pow_le_pow_left₀ (norm_nonneg _) (not_le.1 hlt).le 2
  rw [h] at this
  norm_num at this hc
  nlinarith

theorem tone1k_sq : 26 / 100 ≤ ‖1 - tone1k ^ 2‖ := by
  have h := quad_norm (-1) 0 1 tone1k_norm
  have e : ((-1 : ℝ) : ℂ) * tone1k ^ 2 + (0 : ℝ) * tone1k + (1 : ℝ) = 1 - tone1k ^ 2 := by push_cast; ring
  rw [e] at h
  have hc := abs_le.1 cos1k
  have hc2 : tone1k.re ^ 2 ≤ 98308 / 100000 := by
    have h1 : tone1k.re ≤ 9915 / 10000 := by norm_num at hc ⊢; linarith
    have h2 : 0 ≤ tone1k.re := by norm_num at hc ⊢; linarith
    calc _ ≤ (9915 / 10000 : ℝ) ^ 2 := pow_le_pow_left₀ h2 h1 2
      _ ≤ _ := by norm_num
  by_contra hlt
  have : ‖1 - tone1k ^ 2‖ ^ 2 ≤ (26 / 100) ^ 2 := pow_le_pow_left₀ (norm_nonneg _) (not_le.1 hlt).le 2
  rw [h] at this
  norm_num at this
  linarith

theorem tone1k_ne : tone1k ^ 2 ≠ 1 := fun h => by
  have := tone1k_sq
  rw [h] at this
  norm_num at this

/-- 24 samples are half a period. -/
theorem tone1k_period : (tone1k ^ 2) ^ 24 = 1 := by
  rw [← pow_mul, tone1k, ← Complex.exp_nat_mul, Complex.exp_eq_one_iff]
  refine ⟨1, ?_⟩
  push_cast
  ring

/-- The high-pass poles at 48 kHz. -/
theorem pass48 (i : Fin 4) (hi : 2 ≤ (i : Nat)) : ‖zeroAt 48000 i - poleAt 48000 i‖ ≤ 51 / 10000 := by
  have hk := abs_le.1 tan2_48k
  have k0 : 0 < tan2 48000 := lt_of_lt_of_le (by norm_num) (tan2_bounds (rate := 48000) (by norm_num)).1
  have hq : 0 < q2 := by linarith [q2_half]
  have hre : ((tan2 48000 : ℂ) * proto q2).re < 0 := by
    rw [scaled_re, proto_re]
    have : 0 < 1 / (2 * q2) := by positivity
    nlinarith
  have key : ‖1 - bil (tan2 48000 * proto q2)‖ ≤ 51 / 10000 := by
    have hne : 1 - (tan2 48000 : ℂ) * proto q2 ≠ 0 := one_sub_ne hre.le
    have e : 1 - bil (tan2 48000 * proto q2) = -2 * (tan2 48000 * proto q2) / (1 - tan2 48000 * proto q2) := by
      unfold bil
      field_simp
      ring
    have hn : 1 ≤ ‖1 - (tan2 48000 : ℂ) * proto q2‖ := by
      refine le_trans ?_ (Complex.abs_re_le_norm _)
      rw [Complex.sub_re, Complex.one_re]
      rw [abs_of_pos (by linarith)]
      linarith
    have hpr : ‖proto q2‖ = 1 := proto_norm q2_half
    rw [e, norm_div, norm_mul, norm_mul, hpr, Complex.norm_real, Real.norm_of_nonneg k0.le]
    rw [div_le_iff₀ (by linarith)]
    norm_num at hk ⊢
    linarith
  fin_cases i
  · simp at hi
  · simp at hi
  · exact key
  · show ‖1 - bil (cc (tan2 48000 * proto q2))‖ ≤ _
    rw [bil_cc]
    have : (1 : ℂ) - cc (bil (tan2 48000 * proto q2)) = cc (1 - bil (tan2 48000 * proto q2)) := by
      apply Complex.ext <;> simp [cc]
    rw [this, cc_norm]
    exact key

/-- A weight under which the transient is still summable. -/
theorem weight_pole {rate : Nat} (hr : 8000 ≤ rate) (i : Fin 4) :
    (1 - ‖poleAt rate i‖) / 2 ≤ 1 - ‖poleAt rate i‖ * (1 + 1 / (rate / 100 + 10)) := by
  obtain ⟨h1, h2⟩ := poleAt_gain hr i
  have hR : (8000 : ℝ) ≤ rate := by exact_mod_cast hr
  have hp : 0 < 1 - ‖poleAt rate i‖ := by linarith
  have h3 : 1 / (1 - ‖poleAt rate i‖) ≤ rate / 239 + 2 := by
    refine h2.trans ?_
    split_ifs
    · have : (rate : ℝ) / 7400 ≤ rate / 239 := div_le_div_of_nonneg_left (by linarith) (by norm_num) (by norm_num)
      linarith
    · exact le_rfl
  rw [div_le_iff₀ hp] at h3
  have h4 : 1 / ((rate : ℝ) / 100 + 10) ≤ (1 - ‖poleAt rate i‖) / 2 := by
    rw [div_le_iff₀ (by positivity)]
    have : (rate : ℝ) / 239 + 2 ≤ (rate / 100 + 10) / 2 := by linarith
    have := mul_le_mul_of_nonneg_right this hp.le
    linarith
  have h5 : ‖poleAt rate i‖ * (1 / (rate / 100 + 10)) ≤ 1 * (1 / (rate / 100 + 10)) :=
    mul_le_mul_of_nonneg_right h1.le (by positivity)
  linarith

/-- The transient of the filter at time `n` after the onset of a sinusoid of amplitude one. -/
noncomputable def onsetError (bs : BSearch) (u rate : Nat) (z : ℂ) (n : ℕ) : ℝ :=
  let f := filterCoefficients (exactEnv bs u) ((exactEnv bs u).f64.ofInt rate)
  ‖outW f.1 f.2 (z ^ ·) n - transfer f z * z ^ n‖

theorem onsetError_nonneg (bs : BSearch) (u rate : Nat) (z : ℂ) (n : ℕ) : 0 ≤ onsetError bs u rate z n := norm_nonneg _

/-- At any rate from 8 kHz on. -/
theorem onset_sums (bs : BSearch) (u : Nat) {rate : Nat} (hr : 8000 ≤ rate) {z : ℂ} (hz : ‖z‖ = 1) {M : ℝ}
    (hM : ∀ i, 1 ≤ M * ‖z - poleAt rate i‖) (N : ℕ) :
    ∑ n ∈ Finset.range N, onsetError bs u rate z n ≤ 21 * M ∧
    ∑ n ∈ Finset.range N, onsetError bs u rate z n * (1 + 1 / ((rate : ℝ) / 100 + 10)) ^ n ≤ 71 * M := by
  have hR : (8000 : ℝ) ≤ rate := by exact_mod_cast hr
  have M0 : 0 < M := by
    have := hM 0
    have := norm_nonneg (z - poleAt rate 0)
    by_contra hc
    push Not at hc
    nlinarith
  have e1 : ∀ i, ‖zeroAt rate i - poleAt rate i‖ ≤
      (if (i : Nat) < 2 then 4 / 10 else 102 / 100) * ‖z - poleAt rate i‖ := fun i =>
    (zero_pole hr i).trans (mul_le_mul_of_nonneg_left (circle_pole hz) (by split_ifs <;> norm_num))
  constructor
  · have h := (onset_at bs u hr hz (s := 1) le_rfl (k := fun i => if (i : Nat) < 2 then 4 / 10 else 102 / 100)
      (M := fun _ => M) (e := fun i => if (i : Nat) < 2 then 4 / 10 else 102 / 100)
      (fun i => by rw [mul_one]; exact (poleAt_gain hr i).1)
      (fun i => by rw [mul_one]; exact zero_pole hr i) hM e1).1 N
    simp only [one_pow, mul_one, Fin.isValue] at h
    refine h.trans ?_
    norm_num
    linarith
  · have hs : (1 : ℝ) ≤ 1 + 1 / (rate / 100 + 10) := by
      have : 0 ≤ 1 / ((rate : ℝ) / 100 + 10) := by positivity
      linarith
    have hs' : (1 : ℝ) + 1 / (rate / 100 + 10) ≤ 1012 / 1000 := by
      have : 1 / ((rate : ℝ) / 100 + 10) ≤ 12 / 1000 := by
        rw [div_le_iff₀ (by positivity)]
        linarith
      linarith
    have h := (onset_at bs u hr hz hs (k := fun i => if (i : Nat) < 2 then 8 / 10 else 204 / 100)
      (M := fun _ => M) (e := fun i => if (i : Nat) < 2 then 4 / 10 else 102 / 100)
      (fun i => by
        have h1 := weight_pole hr i
        have h2 := (poleAt_gain hr i).1
        linarith)
      (fun i => by
        have h1 := weight_pole hr i
        have h2 := zero_pole hr i
        split_ifs at h2 ⊢ <;> linarith) hM e1).1 N
    refine h.trans ?_
    generalize (1 : ℝ) + 1 / (rate / 100 + 10) = s at *
    norm_num
    have a1 : 1 + 4 / 5 * s ≤ 18096 / 10000 := by linarith
    have a2 : 1 + 51 / 25 * s ≤ 306448 / 100000 := by linarith
    have b1 : 0 ≤ 1 + 4 / 5 * s := by linarith
    have c1 := mul_le_mul_of_nonneg_right a2 (by positivity : 0 ≤ 51 / 25 * M)
    have d1 : 0 ≤ (1 + 51 / 25 * s) * (51 / 25 * M) := mul_nonneg (by linarith) (by positivity)
    have c2 := mul_le_mul a1 (add_le_add_left c1 (51 / 25 * (M * (101 / 50)))) (add_nonneg d1 (by positivity)) (by norm_num)
    have c3 := mul_le_mul a1 (add_le_add_left c2 (4 / 5 * (M * (10201 / 2500))))
      (add_nonneg (mul_nonneg b1 (add_nonneg d1 (by positivity))) (by positivity)) (by norm_num)
    nlinarith

/-- The sums at 48 kHz for a tone of 1 kHz. -/
theorem onset48 (bs : BSearch) (u : Nat) :
    (∀ N, ∑ n ∈ Finset.range N, onsetError bs u 48000 tone1k n ≤ 95) ∧
    (∀ n, onsetError bs u 48000 tone1k n ≤ 24 / 10) ∧
    ∀ q, 4800 ≤ q → ∀ N, ∑ n ∈ Finset.range N, onsetError bs u 48000 tone1k (q + n) ≤ 4 / 100 := by
  have hr : 8000 ≤ 48000 := by norm_num
  have hz := tone1k_norm
  have far : ∀ i : Fin 4, 2 ≤ (i : Nat) → 1256 / 10000 ≤ ‖tone1k - poleAt 48000 i‖ := fun i hi => by
    have h1 := pass48 i hi
    have h2 : zeroAt 48000 i = 1 := by
      fin_cases i
      · simp at hi
      · simp at hi
      · rfl
      · rfl
    rw [h2] at h1
    have h3 : ‖tone1k - 1‖ ≤ ‖tone1k - poleAt 48000 i‖ + ‖1 - poleAt 48000 i‖ := by
      rw [show tone1k - 1 = (tone1k - poleAt 48000 i) - (1 - poleAt 48000 i) by ring]
      exact norm_sub_le _ _
    have := tone1k_one
    linarith
  have hM : ∀ i : Fin 4, 1 ≤ (if (i : Nat) < 2 then 85 / 10 else 8) * ‖tone1k - poleAt 48000 i‖ := fun i => by
    split_ifs with h
    · obtain ⟨h1, h2⟩ := poleAt_gain hr i
      rw [if_pos h, div_le_iff₀ (by linarith)] at h2
      have h3 := circle_pole (p := poleAt 48000 i) hz
      push_cast at h2
      linarith
    · have := far i (by omega)
      linarith
  have he : ∀ i : Fin 4, ‖zeroAt 48000 i - poleAt 48000 i‖ ≤
      (if (i : Nat) < 2 then 4 / 10 else 42 / 1000) * ‖tone1k - poleAt 48000 i‖ := fun i => by
    split_ifs with h
    · have h1 := zero_pole hr i
      rw [if_pos h] at h1
      have h3 := circle_pole (p := poleAt 48000 i) hz
      linarith
    · have h1 := pass48 i (by omega)
      have h2 := far i (by omega)
      linarith
  have A := onset_at bs u hr hz (s := 1) le_rfl (k := fun i => if (i : Nat) < 2 then 4 / 10 else 102 / 100)
      (M := fun i => if (i : Nat) < 2 then 85 / 10 else 8) (e := fun i => if (i : Nat) < 2 then 4 / 10 else 42 / 1000)
      (fun i => by rw [mul_one]; exact (poleAt_gain hr i).1)
      (fun i => by rw [mul_one]; exact zero_pole hr i) hM he
  refine ⟨fun N => ?_, fun n => ?_, ?_⟩
  · have h := A.1 N
    simp only [one_pow, mul_one, Fin.isValue] at h
    refine h.trans ?_
    norm_num
  · have h := A.2 n
    refine h.trans ?_
    norm_num
  · intro q hq N
    have hs : (1 : ℝ) ≤ 491 / 490 := by norm_num
    have hp : ∀ i, (1 - ‖poleAt 48000 i‖) / 2 ≤ 1 - ‖poleAt 48000 i‖ * (491 / 490) := fun i => by
      have := weight_pole hr i
      push_cast at this
      norm_num at this ⊢
      exact this
    have h := (onset_at bs u hr hz hs (k := fun i => if (i : Nat) < 2 then 8 / 10 else 204 / 100)
      (M := fun i => if (i : Nat) < 2 then 85 / 10 else 8) (e := fun i => if (i : Nat) < 2 then 4 / 10 else 42 / 1000)
      (fun i => by
        have h1 := hp i
        have h2 := (poleAt_gain hr i).1
        linarith)
      (fun i => by
        have h1 := hp i
        have h2 := zero_pole hr i
        split_ifs at h2 ⊢ <;> linarith) hM he).1 (q + N)
    have h400 : ∑ n ∈ Finset.range (q + N), onsetError bs u 48000 tone1k n * (491 / 490) ^ n ≤ 400 := by
      refine h.trans ?_
      norm_num
    have hpow : (10000 : ℝ) ≤ (491 / 490) ^ q := by
      have b1 : (1 : ℝ) + (24 : ℕ) * (1 / 490) ≤ (1 + 1 / 490) ^ 24 := one_add_mul_le_pow (by norm_num) 24
      have b2 : (10000 : ℝ) ≤ (1 + (24 : ℕ) * (1 / 490)) ^ 200 := by norm_num
      calc (10000 : ℝ) ≤ (1 + (24 : ℕ) * (1 / 490)) ^ 200 := b2
        _ ≤ ((1 + 1 / 490) ^ 24) ^ 200 := pow_le_pow_left₀ (by norm_num) b1 200
        _ = (491 / 490) ^ 4800 := by rw [← pow_mul]; norm_num
        _ ≤ _ := pow_le_pow_right₀ hs hq
    have hge : (10000 : ℝ) * ∑ n ∈ Finset.range N, onsetError bs u 48000 tone1k (q + n) ≤ 400 := by
      refine le_trans ?_ h400
      rw [Finset.sum_range_add, Finset.mul_sum]
      refine le_trans (Finset.sum_le_sum fun n _ => ?_) (le_add_of_nonneg_left (Finset.sum_nonneg fun n _ =>
        mul_nonneg (onsetError_nonneg ..) (by positivity)))
      rw [mul_comm]
      refine mul_le_mul_of_nonneg_left ?_ (onsetError_nonneg ..)
      exact hpow.trans (pow_le_pow_right₀ hs (by omega))
    linarith

end Verif
