import Verif.Proofs.Settle
import Verif.Proofs.Tone1k
/-!
# How a tone of 1 kHz settles at 48 kHz

The transient of the filter after the onset of a tone of 1 kHz, compared with the computed sequence of
`Proofs/Settle.lean`: its magnitudes sum to 11.5, their squares to 1.45, and after 100 ms hardly anything is left.
-/

namespace Verif
open Spec

theorem ratio_fine {N d t : ℝ} (hd : 1 ≤ d) (h : |N - t * d| ≤ 5 / 10 ^ 17) : |N / d - t| ≤ 5 / 10 ^ 17 := by
  have : N / d - t = (N - t * d) / d := by field_simp
  rw [this, abs_div, abs_of_nonneg (by linarith : 0 ≤ d), div_le_iff₀ (by linarith)]
  refine h.trans ?_
  norm_num
  linarith

/-- The coefficients of the filter at 48 kHz. -/
theorem coefs48 (bs : BSearch) (u : Nat) :
    let f := filterCoefficients (exactEnv bs u) ((exactEnv bs u).f64.ofInt 48000)
    (|f.1.v0 - (1535124859586970072000000 / 10 ^ 24)| ≤ 6 / 10 ^ 16 ∧ |f.1.v1 - (-5761945908580320241000000 / 10 ^ 24)| ≤ 6 / 10 ^ 16 ∧ |f.1.v2 - (8116910049252580296000000 / 10 ^ 24)| ≤ 6 / 10 ^ 16 ∧
      |f.1.v3 - (-5088481811112080157000000 / 10 ^ 24)| ≤ 6 / 10 ^ 16 ∧ |f.1.v4 - (1198392810852850030000000 / 10 ^ 24)| ≤ 6 / 10 ^ 16) ∧
    f.2.v0 = 1 ∧ |f.2.v1 - (-3680706748016389972000000 / 10 ^ 24)| ≤ 6 / 10 ^ 16 ∧ |f.2.v2 - (5087045247971130536391689 / 10 ^ 24)| ≤ 6 / 10 ^ 16 ∧
      |f.2.v3 - (-3131546351446730049855171 / 10 ^ 24)| ≤ 6 / 10 ^ 16 ∧ |f.2.v4 - (725208888477870356458833 / 10 ^ 24)| ≤ 6 / 10 ^ 16 := by
  intro f
  have hb : f.1 = cascade (num0 (tan1 48000)) (num1 (tan1 48000)) (num2 (tan1 48000)) 1 (-2) 1 := by
    have := coef_b bs u 48000
    simp only [f, cascade]
    push_cast at this ⊢
    rw [this]
    congr 1 <;> ring
  have ha : f.2 = cascade 1 (sec1 (tan1 48000) q1) (sec2 (tan1 48000) q1) 1 (sec1 (tan2 48000) q2)
      (sec2 (tan2 48000) q2) := by
    have := coef_a bs u 48000
    simp only [f, cascade]
    push_cast at this ⊢
    rw [this]
    congr 1 <;> ring
  have key : |num0 (tan1 48000) - (1535124859586970072 / 10 ^ 18)| ≤ 5 / 10 ^ 17 ∧ |num1 (tan1 48000) - (-2691696189406380097 / 10 ^ 18)| ≤ 5 / 10 ^ 17 ∧
      |num2 (tan1 48000) - (1198392810852850030 / 10 ^ 18)| ≤ 5 / 10 ^ 17 ∧ |sec1 (tan1 48000) q1 - (-1690659293182409971 / 10 ^ 18)| ≤ 5 / 10 ^ 17 ∧
      |sec2 (tan1 48000) q1 - (732480774215849976 / 10 ^ 18)| ≤ 5 / 10 ^ 17 ∧ |sec1 (tan2 48000) q2 - (-1990047454833980001 / 10 ^ 18)| ≤ 5 / 10 ^ 17 ∧
      |sec2 (tan2 48000) q2 - (990072250366210001 / 10 ^ 18)| ≤ 5 / 10 ^ 17 := by
    have k1 := tan1_48k
    have k2 := tan2_48k
    have gh := gainH_near
    have gb := gainB_near
    have d1 := den1_ge
    have d2 := den2_ge
    have kk1 := mul_near k1 k1 (by norm_num [abs_le]) (by norm_num [abs_le]) (by norm_num)
    have kk2 := mul_near k2 k2 (by norm_num [abs_le]) (by norm_num [abs_le]) (by norm_num)
    have bk := mul_near gb (k1.trans (by norm_num : (1 : ℝ) / 10 ^ 18 ≤ 2 / 10 ^ 18)) (by norm_num [abs_le])
      (by norm_num [abs_le]) (by norm_num)
    unfold num0 num1 num2 sec1 sec2
    refine ⟨ratio_fine d1 ?_, ratio_fine d1 ?_, ratio_fine d1 ?_, ratio_fine d1 ?_, ratio_fine d1 ?_,
      ratio_fine d2 ?_, ratio_fine d2 ?_⟩
    all_goals
      unfold den q1 q2 at *
      clear d1 d2 ha hb
      generalize tan1 48000 * tan1 48000 = KK at *
      generalize gainB * tan1 48000 = BK at *
      generalize tan2 48000 * tan2 48000 = KK' at *
      generalize tan1 48000 = K at *
      generalize tan2 48000 = K' at *
      generalize gainH = H at *
      rw [abs_le] at *
      constructor <;> linarith
  obtain ⟨r1, r2, r3, r4, r5, r6, r7⟩ := key
  rw [hb, ha]
  unfold cascade
  clear hb ha
  have m1 := mul_near r4 r6 (by norm_num [abs_le]) (by norm_num [abs_le]) (by norm_num)
  have m2 := mul_near r4 r7 (by norm_num [abs_le]) (by norm_num [abs_le]) (by norm_num)
  have m3 := mul_near r5 r6 (by norm_num [abs_le]) (by norm_num [abs_le]) (by norm_num)
  have m4 := mul_near r5 r7 (by norm_num [abs_le]) (by norm_num [abs_le]) (by norm_num)
  generalize num0 (tan1 48000) = b0 at *
  generalize num1 (tan1 48000) = b1 at *
  generalize num2 (tan1 48000) = b2 at *
  generalize sec1 (tan1 48000) q1 * sec1 (tan2 48000) q2 = n1 at *
  generalize sec1 (tan1 48000) q1 * sec2 (tan2 48000) q2 = n2 at *
  generalize sec2 (tan1 48000) q1 * sec1 (tan2 48000) q2 = n3 at *
  generalize sec2 (tan1 48000) q1 * sec2 (tan2 48000) q2 = n4 at *
  generalize sec1 (tan1 48000) q1 = a1 at *
  generalize sec2 (tan1 48000) q1 = a2 at *
  generalize sec1 (tan2 48000) q2 = c1 at *
  generalize sec2 (tan2 48000) q2 = c2 at *
  refine ⟨⟨?_, ?_, ?_, ?_, ?_⟩, by norm_num, ?_, ?_, ?_, ?_⟩
  all_goals
    rw [abs_le] at *
    constructor <;> linarith

theorem sin1k : |tone1k.im - 13052619222005159155 / 10 ^ 20| ≤ 1 / 10 ^ 17 := by
  have him : tone1k.im = Real.sin (2 * Real.pi * 1000 / 48000) := by
    unfold tone1k
    rw [Complex.exp_ofReal_mul_I_im]
  rw [him]
  have hx : |2 * Real.pi * 1000 / 48000 - 13089969389957471827 / 10 ^ 20| ≤ 1 / 10 ^ 18 := by
    have := Real.pi_gt_d20
    have := Real.pi_lt_d20
    rw [abs_le]
    constructor <;> linarith
  have hl : |Real.sin (2 * Real.pi * 1000 / 48000) - Real.sin (13089969389957471827 / 10 ^ 20)| ≤ 1 / 10 ^ 18 :=
    (Real.abs_sin_sub_sin_le _ _).trans hx
  have ht := (sin_cos_taylor (x := 13089969389957471827 / 10 ^ 20) (by norm_num [abs_of_pos])).1
  have hc : |sinT (13089969389957471827 / 10 ^ 20) - 13052619222005159155 / 10 ^ 20| ≤ 1 / 10 ^ 18 := by
    unfold sinT
    norm_num [abs_le]
  have hs : |(13089969389957471827 / 10 ^ 20 : ℝ)| ^ 14 / 80000000000 ≤ 1 / 10 ^ 18 := by
    rw [abs_of_pos (by norm_num)]
    norm_num
  rw [abs_le] at *
  constructor <;> linarith

/-! ## The recursion of the transient -/

theorem lit_norm (p q : ℝ) : ‖(⟨p, q⟩ : ℂ)‖ ≤ |p| + |q| := Complex.norm_le_abs_re_add_abs_im _

theorem tone1k_near : ‖tone1k - ⟨99144486137381041114 / 10 ^ 20, 13052619222005159155 / 10 ^ 20⟩‖ ≤ 2 / 10 ^ 17 := by
  refine (Complex.norm_le_abs_re_add_abs_im _).trans ?_
  have h1 := cos1k
  have h2 := sin1k
  rw [Complex.sub_re, Complex.sub_im]
  refine (add_le_add h1 h2).trans (by norm_num)

/-- One step of Horner's rule. -/
theorem horner_near {z z' x x' c c' y : ℂ} {e ez ec er : ℝ} (hz : ‖z‖ = 1) (h1 : ‖z - z'‖ ≤ ez) (h2 : ‖x - x'‖ ≤ e)
    (hx : ‖x'‖ ≤ 3) (h3 : ‖c - c'‖ ≤ ec) (hy : ‖z' * x' + c' - y‖ ≤ er) : ‖z * x + c - y‖ ≤ e + 3 * ez + ec + er := by
  have e1 : z * x + c - y = z * (x - x') + (z - z') * x' + (c - c') + (z' * x' + c' - y) := by ring
  have ez0 : 0 ≤ ez := (norm_nonneg _).trans h1
  have h4 : ‖z * (x - x')‖ ≤ e := by rw [norm_mul, hz, one_mul]; exact h2
  have h5 : ‖(z - z') * x'‖ ≤ ez * 3 := by rw [norm_mul]; exact mul_le_mul h1 hx (norm_nonneg _) ez0
  rw [e1]
  have a1 := norm_add_le (z * (x - x') + (z - z') * x' + (c - c')) (z' * x' + c' - y)
  have a2 := norm_add_le (z * (x - x') + (z - z') * x') (c - c')
  have a3 := norm_add_le (z * (x - x')) ((z - z') * x')
  linarith

/-- A coefficient of `B - H A`. -/
theorem term_near {b a b' a' e : ℝ} {h : ℂ} (hb : |b - b'| ≤ e) (ha : |a - a'| ≤ e) (hh : ‖h‖ ≤ 2) :
    ‖((b : ℂ) - h * a) - (b' - h * a')‖ ≤ 3 * e := by
  have e1 : ((b : ℂ) - h * a) - (b' - h * a') = ((b - b' : ℝ) : ℂ) - h * ((a - a' : ℝ) : ℂ) := by push_cast; ring
  rw [e1]
  refine (norm_sub_le _ _).trans ?_
  rw [norm_mul, Complex.norm_real, Complex.norm_real, Real.norm_eq_abs, Real.norm_eq_abs]
  have : ‖h‖ * |a - a'| ≤ 2 * e := mul_le_mul hh ha (abs_nonneg _) (by norm_num)
  linarith

/-- The steps of Horner's rule for a filter `b` without `h` times `a`, at `z`. -/
noncomputable def hornerSteps (b a : V5 ℝ) (h z : ℂ) : Fin 5 → ℂ :=
  let p0 := (b.v0 : ℂ) - h * a.v0
  let p1 := z * p0 + (b.v1 - h * a.v1)
  let p2 := z * p1 + (b.v2 - h * a.v2)
  let p3 := z * p2 + (b.v3 - h * a.v3)
  ![p0, p1, p2, p3, z * p3 + (b.v4 - h * a.v4)]

theorem horner48 (bs : BSearch) (u : Nat) :
    let f := filterCoefficients (exactEnv bs u) ((exactEnv bs u).f64.ofInt 48000)
    let p := hornerSteps f.1 f.2 ⟨(1022644303034417517 / 10 ^ 18), (358434538545553398 / 10 ^ 18)⟩ tone1k
    ‖p 0 - ⟨(51248055655255255500 / 10 ^ 20), (-35843453854555339800 / 10 ^ 20)⟩‖ ≤ 2 / 10 ^ 15 ∧ ‖p 1 - ⟨(-144301081175650062956 / 10 ^ 20), (103081647900049483139 / 10 ^ 20)⟩‖ ≤ 4 / 10 ^ 15 ∧
    ‖p 2 - ⟨(134945800303214911759 / 10 ^ 20), (-98972572148333916727 / 10 ^ 20)⟩‖ ≤ 6 / 10 ^ 15 ∧ ‖p 3 - ⟨(-41892544260341412924 / 10 ^ 20), (31733550537733763587 / 10 ^ 20)⟩‖ ≤ 8 / 10 ^ 15 ∧
    ‖p 4‖ ≤ 1 / 10 ^ 14 := by
  intro f p
  obtain ⟨⟨b0, b1, b2, b3, b4⟩, a0, a1, a2, a3, a4⟩ := coefs48 bs u
  change |f.1.v0 - _| ≤ _ at b0
  change |f.1.v1 - _| ≤ _ at b1
  change |f.1.v2 - _| ≤ _ at b2
  change |f.1.v3 - _| ≤ _ at b3
  change |f.1.v4 - _| ≤ _ at b4
  change f.2.v0 = 1 at a0
  change |f.2.v1 - _| ≤ _ at a1
  change |f.2.v2 - _| ≤ _ at a2
  change |f.2.v3 - _| ≤ _ at a3
  change |f.2.v4 - _| ≤ _ at a4
  have hz := tone1k_norm
  have hz' := tone1k_near
  have hh : ‖(⟨(1022644303034417517 / 10 ^ 18), (358434538545553398 / 10 ^ 18)⟩ : ℂ)‖ ≤ 2 := (lit_norm _ _).trans (by norm_num [abs_of_pos])
  have t0 := term_near b0 (show |f.2.v0 - 1| ≤ 6 / 10 ^ 16 by rw [a0]; norm_num) hh
  have t1 := term_near b1 a1 hh
  have t2 := term_near b2 a2 hh
  have t3 := term_near b3 a3 hh
  have t4 := term_near b4 a4 hh
  have q0 : ‖p 0 - ⟨(51248055655255255500 / 10 ^ 20), (-35843453854555339800 / 10 ^ 20)⟩‖ ≤ 2 / 10 ^ 15 := by
    have e : p 0 - ⟨(51248055655255255500 / 10 ^ 20), (-35843453854555339800 / 10 ^ 20)⟩ = ((f.1.v0 : ℂ) - ⟨(1022644303034417517 / 10 ^ 18), (358434538545553398 / 10 ^ 18)⟩ * f.2.v0) - (((1535124859586970072000000 / 10 ^ 24) : ℝ) - ⟨(1022644303034417517 / 10 ^ 18), (358434538545553398 / 10 ^ 18)⟩ * (1 : ℝ)) := by
      have : (((1535124859586970072000000 / 10 ^ 24) : ℝ) : ℂ) - ⟨(1022644303034417517 / 10 ^ 18), (358434538545553398 / 10 ^ 18)⟩ * (1 : ℝ) = ⟨(51248055655255255500 / 10 ^ 20), (-35843453854555339800 / 10 ^ 20)⟩ := by
        apply Complex.ext <;> simp <;> norm_num
      rw [this]
      rfl
    rw [e]
    refine t0.trans (by norm_num)
  have q1 : ‖p 1 - ⟨(-144301081175650062956 / 10 ^ 20), (103081647900049483139 / 10 ^ 20)⟩‖ ≤ 4 / 10 ^ 15 := by
    refine (horner_near (x := p 0) (er := 1 / 10 ^ 19) hz hz' q0 ((lit_norm _ _).trans (by norm_num [abs_of_pos, abs_of_neg])) t1
      ((Complex.norm_le_abs_re_add_abs_im _).trans ?_)).trans (by norm_num)
    simp
    norm_num [abs_of_pos, abs_of_neg]
  have q2 : ‖p 2 - ⟨(134945800303214911759 / 10 ^ 20), (-98972572148333916727 / 10 ^ 20)⟩‖ ≤ 6 / 10 ^ 15 := by
    refine (horner_near (x := p 1) (er := 1 / 10 ^ 19) hz hz' q1 ((lit_norm _ _).trans (by norm_num [abs_of_pos, abs_of_neg])) t2
      ((Complex.norm_le_abs_re_add_abs_im _).trans ?_)).trans (by norm_num)
    simp
    norm_num [abs_of_pos, abs_of_neg]
  have q3 : ‖p 3 - ⟨(-41892544260341412924 / 10 ^ 20), (31733550537733763587 / 10 ^ 20)⟩‖ ≤ 8 / 10 ^ 15 := by
    refine (horner_near (x := p 2) (er := 1 / 10 ^ 19) hz hz' q2 ((lit_norm _ _).trans (by norm_num [abs_of_pos, abs_of_neg])) t3
      ((Complex.norm_le_abs_re_add_abs_im _).trans ?_)).trans (by norm_num)
    simp
    norm_num [abs_of_pos, abs_of_neg]
  have q4 : ‖p 4 - 0‖ ≤ 10 / 10 ^ 15 := by
    refine (horner_near (x := p 3) (er := 1 / 10 ^ 19) hz hz' q3 ((lit_norm _ _).trans (by norm_num [abs_of_pos, abs_of_neg])) t4
      ((Complex.norm_le_abs_re_add_abs_im _).trans ?_)).trans (by norm_num)
    simp
    norm_num [abs_of_pos, abs_of_neg]
  rw [sub_zero] at q4
  exact ⟨q0, q1, q2, q3, q4.trans (by norm_num)⟩

theorem abs_complex {x y e : ℝ} (h : |x - y| ≤ e) : ‖(x : ℂ) - y‖ ≤ e := by
  rw [← Complex.ofReal_sub, Complex.norm_real]
  exact h

/-- The denominator of the filter at 1 kHz. -/
theorem quartic48 (bs : BSearch) (u : Nat) :
    1 / 1500 ≤ ‖quartic (filterCoefficients (exactEnv bs u) ((exactEnv bs u).f64.ofInt 48000)).2 tone1k‖ := by
  obtain ⟨-, a0, a1, a2, a3, a4⟩ := coefs48 bs u
  generalize (filterCoefficients (exactEnv bs u) ((exactEnv bs u).f64.ofInt 48000)).2 = a at *
  have hz := tone1k_norm
  have hz' := tone1k_near
  have q0 : ‖(1 : ℂ) - ⟨1, 0⟩‖ ≤ 0 := by
    rw [show (1 : ℂ) - ⟨1, 0⟩ = 0 by apply Complex.ext <;> simp, norm_zero]
  have q1 : ‖tone1k * (1 : ℂ) + a.v1 - ⟨(-268926188664257956086 / 10 ^ 20), (13052619222005159155 / 10 ^ 20)⟩‖ ≤ 1 / 10 ^ 15 := by
    refine (horner_near (er := 1 / 10 ^ 19) hz hz' q0 ((lit_norm _ _).trans (by norm_num [abs_of_pos, abs_of_neg])) (abs_complex a1)
      ((Complex.norm_le_abs_re_add_abs_im _).trans ?_)).trans (by norm_num)
    simp
    norm_num [abs_of_pos, abs_of_neg]
  have q2 : ‖tone1k * (tone1k * (1 : ℂ) + a.v1) + a.v2 - ⟨(240375328271544053886 / 10 ^ 20), (-22160959139470755221 / 10 ^ 20)⟩‖ ≤ 2 / 10 ^ 15 := by
    refine (horner_near (er := 1 / 10 ^ 19) hz hz' q1 ((lit_norm _ _).trans (by norm_num [abs_of_pos, abs_of_neg])) (abs_complex a2)
      ((Complex.norm_le_abs_re_add_abs_im _).trans ?_)).trans (by norm_num)
    simp
    norm_num [abs_of_pos, abs_of_neg]
  have q3 : ‖tone1k * (tone1k * (tone1k * (1 : ℂ) + a.v1) + a.v2) + a.v3 - ⟨(-71943165516388571033 / 10 ^ 20), (9403907240986301099 / 10 ^ 20)⟩‖ ≤ 3 / 10 ^ 15 := by
    refine (horner_near (er := 1 / 10 ^ 19) hz hz' q2 ((lit_norm _ _).trans (by norm_num [abs_of_pos, abs_of_neg])) (abs_complex a3)
      ((Complex.norm_le_abs_re_add_abs_im _).trans ?_)).trans (by norm_num)
    simp
    norm_num [abs_of_pos, abs_of_neg]
  have q4 : ‖tone1k * (tone1k * (tone1k * (tone1k * (1 : ℂ) + a.v1) + a.v2) + a.v3) + a.v4 - ⟨(-34249118558441626 / 10 ^ 20), (-67011940199286615 / 10 ^ 20)⟩‖ ≤ 4 / 10 ^ 15 := by
    refine (horner_near (er := 1 / 10 ^ 19) hz hz' q3 ((lit_norm _ _).trans (by norm_num [abs_of_pos, abs_of_neg])) (abs_complex a4)
      ((Complex.norm_le_abs_re_add_abs_im _).trans ?_)).trans (by norm_num)
    simp
    norm_num [abs_of_pos, abs_of_neg]
  have e : quartic a tone1k = tone1k * (tone1k * (tone1k * (tone1k * (1 : ℂ) + a.v1) + a.v2) + a.v3) + a.v4 := by
    unfold quartic
    rw [a0]
    push_cast
    ring
  rw [e]
  generalize tone1k * (tone1k * (tone1k * (tone1k * (1 : ℂ) + a.v1) + a.v2) + a.v3) + a.v4 = w at q4
  have h1 : ‖(⟨(-34249118558441626 / 10 ^ 20), (-67011940199286615 / 10 ^ 20)⟩ : ℂ)‖ ≤ ‖w‖ + ‖w - ⟨(-34249118558441626 / 10 ^ 20), (-67011940199286615 / 10 ^ 20)⟩‖ := by
    have := norm_sub_le w (w - ⟨(-34249118558441626 / 10 ^ 20), (-67011940199286615 / 10 ^ 20)⟩)
    rwa [sub_sub_cancel] at this
  have h2 : 67 / 100000 ≤ ‖(⟨(-34249118558441626 / 10 ^ 20), (-67011940199286615 / 10 ^ 20)⟩ : ℂ)‖ := by
    refine le_trans ?_ (Complex.abs_im_le_norm _)
    norm_num [abs_of_pos, abs_of_neg]
  norm_num at q4 ⊢
  linarith

/-- What drives the transient: the steps of Horner's rule. -/
theorem transient_rec {b a : V5 ℝ} (h : a.v0 = 1) (z H : ℂ) :
    let d := fun n => outW b a (z ^ ·) n - H * z ^ n
    let p := hornerSteps b a H z
    d 0 = p 0 ∧ d 1 + a.v1 * d 0 = p 1 ∧ d 2 + a.v1 * d 1 + a.v2 * d 0 = p 2 ∧
    d 3 + a.v1 * d 2 + a.v2 * d 1 + a.v3 * d 0 = p 3 ∧
    ∀ n, d (n + 4) + a.v1 * d (n + 3) + a.v2 * d (n + 2) + a.v3 * d (n + 1) + a.v4 * d n = p 4 * z ^ n := by
  have w0 := stateW_zero a (z ^ ·) (n := 0) (by norm_num)
  have w1 := stateW_zero a (z ^ ·) (n := 1) (by norm_num)
  have w2 := stateW_zero a (z ^ ·) (n := 2) (by norm_num)
  have w3 := stateW_zero a (z ^ ·) (n := 3) (by norm_num)
  have w4 := stateW_rec a (z ^ ·) 0
  have w5 := stateW_rec a (z ^ ·) 1
  have w6 := stateW_rec a (z ^ ·) 2
  have w7 := stateW_rec a (z ^ ·) 3
  simp only [Nat.reduceAdd] at w4 w5 w6 w7
  refine ⟨?_, ?_, ?_, ?_, fun n => ?_⟩
  · simp only [outW, hornerSteps, Nat.reduceAdd, Matrix.cons_val]
    rw [h, w4, w3, w2, w1, w0]
    push_cast
    ring
  · simp only [outW, hornerSteps, Nat.reduceAdd, Matrix.cons_val]
    rw [h, w5, w4, w3, w2, w1, w0]
    push_cast
    ring
  · simp only [outW, hornerSteps, Nat.reduceAdd, Matrix.cons_val]
    rw [h, w6, w5, w4, w3, w2, w1, w0]
    push_cast
    ring
  · simp only [outW, hornerSteps, Nat.reduceAdd, Matrix.cons_val]
    rw [h, w7, w6, w5, w4, w3, w2, w1, w0]
    push_cast
    ring
  · have r0 := stateW_rec a (z ^ ·) n
    have r1 := stateW_rec a (z ^ ·) (n + 1)
    have r2 := stateW_rec a (z ^ ·) (n + 2)
    have r3 := stateW_rec a (z ^ ·) (n + 3)
    have r4 := stateW_rec a (z ^ ·) (n + 4)
    simp only [add_assoc, Nat.reduceAdd] at r0 r1 r2 r3 r4
    simp only [outW, hornerSteps, add_assoc, Nat.reduceAdd, Matrix.cons_val]
    rw [h]
    push_cast
    simp only [pow_add, pow_one] at r0 r1 r2 r3 r4 ⊢
    linear_combination (b.v0 : ℂ) * r4 + b.v1 * r3 + b.v2 * r2 + b.v3 * r1 + b.v4 * r0

/-- The last step is the value of the polynomial. -/
theorem horner_last (b a : V5 ℝ) (h z : ℂ) : hornerSteps b a h z 4 = quartic b z - h * quartic a z := by
  simp only [hornerSteps, quartic, Matrix.cons_val]
  ring

/-- The gain at 1 kHz. -/
theorem transfer48 (bs : BSearch) (u : Nat) :
    let f := filterCoefficients (exactEnv bs u) ((exactEnv bs u).f64.ofInt 48000)
    ‖transfer f tone1k - ⟨(1022644303034417517 / 10 ^ 18), (358434538545553398 / 10 ^ 18)⟩‖ ≤ 15 / 10 ^ 12 ∧ hornerSteps f.1 f.2 (transfer f tone1k) tone1k 4 = 0 := by
  intro f
  have h1 := quartic48 bs u
  have h2 := (horner48 bs u).2.2.2.2
  change 1 / 1500 ≤ ‖quartic f.2 tone1k‖ at h1
  change ‖hornerSteps f.1 f.2 _ tone1k 4‖ ≤ _ at h2
  have h3 : quartic f.2 tone1k ≠ 0 := fun h => by rw [h, norm_zero] at h1; norm_num at h1
  have h4 : quartic f.1 tone1k = transfer f tone1k * quartic f.2 tone1k := by
    unfold transfer
    field_simp
  rw [horner_last, h4, ← sub_mul, norm_mul] at h2
  refine ⟨?_, by rw [horner_last, h4, sub_self]⟩
  generalize ‖transfer f tone1k - _‖ = x at *
  by_contra hc
  push Not at hc
  have : (15 / 10 ^ 12) * (1 / 1500) < x * ‖quartic f.2 tone1k‖ := by
    refine mul_lt_mul hc h1 (by norm_num) (by linarith)
  norm_num at this h2
  linarith

/-- The steps for the actual gain. -/
theorem steps48 (bs : BSearch) (u : Nat) :
    let f := filterCoefficients (exactEnv bs u) ((exactEnv bs u).f64.ofInt 48000)
    let p := hornerSteps f.1 f.2 (transfer f tone1k) tone1k
    ‖p 0 - ⟨(51248055655255255500 / 10 ^ 20), (-35843453854555339800 / 10 ^ 20)⟩‖ ≤ 2 / 10 ^ 11 ∧ ‖p 1 - ⟨(-144301081175650062956 / 10 ^ 20), (103081647900049483139 / 10 ^ 20)⟩‖ ≤ 8 / 10 ^ 11 ∧
    ‖p 2 - ⟨(134945800303214911759 / 10 ^ 20), (-98972572148333916727 / 10 ^ 20)⟩‖ ≤ 16 / 10 ^ 11 ∧ ‖p 3 - ⟨(-41892544260341412924 / 10 ^ 20), (31733550537733763587 / 10 ^ 20)⟩‖ ≤ 21 / 10 ^ 11 := by
  intro f p
  have hH := (transfer48 bs u).1
  obtain ⟨q0, q1, q2, q3, -⟩ := horner48 bs u
  obtain ⟨-, a0, a1, a2, a3, -⟩ := coefs48 bs u
  change ‖transfer f tone1k - _‖ ≤ _ at hH
  change ‖hornerSteps f.1 f.2 _ tone1k 0 - _‖ ≤ _ at q0
  change ‖hornerSteps f.1 f.2 _ tone1k 1 - _‖ ≤ _ at q1
  change ‖hornerSteps f.1 f.2 _ tone1k 2 - _‖ ≤ _ at q2
  change ‖hornerSteps f.1 f.2 _ tone1k 3 - _‖ ≤ _ at q3
  change f.2.v0 = 1 at a0
  change |f.2.v1 - _| ≤ _ at a1
  change |f.2.v2 - _| ≤ _ at a2
  change |f.2.v3 - _| ≤ _ at a3
  have hz := tone1k_norm
  have coef : ∀ {x y e : ℝ}, |x - y| ≤ e → ‖(x : ℂ)‖ ≤ |y| + e := fun {x y e} h => by
    rw [Complex.norm_real, Real.norm_eq_abs]
    have := abs_sub_abs_le_abs_sub x y
    linarith
  have n1 := coef a1
  have n2 := coef a2
  have n3 := coef a3
  clear a1 a2 a3 coef
  simp only [hornerSteps, Matrix.cons_val, a0] at q0 q1 q2 q3
  simp only [p, hornerSteps, Matrix.cons_val, a0]
  clear p a0
  generalize transfer f tone1k = H at *
  generalize (⟨(1022644303034417517 / 10 ^ 18), (358434538545553398 / 10 ^ 18)⟩ : ℂ) = H' at *
  generalize tone1k = z at *
  have part : ∀ {t k e : ℝ} {x y l v : ℂ}, ‖y - l‖ ≤ e → x = y - (H - H') * v → ‖v‖ ≤ k →
      15 / 10 ^ 12 * k + e ≤ t → ‖x - l‖ ≤ t := by
    intro t k e x y l v h1 h2 h3 h4
    rw [h2, show y - (H - H') * v - l = (y - l) - (H - H') * v by ring]
    refine (norm_sub_le _ _).trans ?_
    rw [norm_mul]
    have := mul_le_mul hH h3 (norm_nonneg _) (by norm_num)
    linarith
  have s1 : ‖z + f.2.v1‖ ≤ 5 := by
    refine (norm_add_le _ _).trans ?_
    rw [hz]
    have := n1.trans (show _ ≤ (369 / 100 : ℝ) by norm_num [abs_of_pos, abs_of_neg])
    linarith
  have s2 : ‖z * (z + f.2.v1) + f.2.v2‖ ≤ 102 / 10 := by
    refine (norm_add_le _ _).trans ?_
    rw [norm_mul, hz, one_mul]
    have := n2.trans (show _ ≤ (509 / 100 : ℝ) by norm_num [abs_of_pos, abs_of_neg])
    linarith
  have s3 : ‖z * (z * (z + f.2.v1) + f.2.v2) + f.2.v3‖ ≤ 135 / 10 := by
    refine (norm_add_le _ _).trans ?_
    rw [norm_mul, hz, one_mul]
    have := n3.trans (show _ ≤ (314 / 100 : ℝ) by norm_num [abs_of_pos, abs_of_neg])
    linarith
  refine ⟨?_, ?_, ?_, ?_⟩
  · refine part q0 (v := 1) (by push_cast; ring) (by rw [norm_one]) (by norm_num)
  · refine part q1 (by push_cast; ring) s1 (by norm_num)
  · refine part q2 (by push_cast; ring) s2 (by norm_num)
  · refine part q3 (by push_cast; ring) s3 (by norm_num)

/-! ## The computed sequence -/

theorem settleSeq_first (x0 x1 x2 x3 : ℕ) : settleSeq x0 x1 x2 x3 0 = x0 ∧ settleSeq x0 x1 x2 x3 1 = x1 ∧
    settleSeq x0 x1 x2 x3 2 = x2 ∧ settleSeq x0 x1 x2 x3 3 = x3 := ⟨rfl, rfl, rfl, rfl⟩

theorem settleVal_first :
    settleVal 0 = ⟨51248055655255255500 / 10 ^ 20, -35843453854555339800 / 10 ^ 20⟩ ∧ settleVal 1 = ⟨44327983097367471823 / 10 ^ 20, -28847594574626439808 / 10 ^ 20⟩ ∧
    settleVal 2 = ⟨37402928826825570895 / 10 ^ 20, -22814836561514211379 / 10 ^ 20⟩ ∧ settleVal 3 = ⟨30763874206477984285 / 10 ^ 20, -17737590594353455453 / 10 ^ 20⟩ := by
  unfold settleVal settleRe settleIm
  obtain ⟨h0, h1, h2, h3⟩ := settleSeq_first 1000051248055655255255500 1000044327983097367471823 1000037402928826825570895 1000030763874206477984285
  obtain ⟨g0, g1, g2, g3⟩ := settleSeq_first 999964156546145444660200 999971152405425373560192 999977185163438485788621 999982262409405646544547
  rw [h0, h1, h2, h3, g0, g1, g2, g3]
  refine ⟨?_, ?_, ?_, ?_⟩ <;> congr 1 <;> norm_num

/-- The computed sequence, cut off where it is negligible. -/
noncomputable def settleCut (k : ℕ) : ℂ := if k < 6244 then settleVal k else 0

theorem settleVal_last {k : ℕ} (h : 6240 ≤ k) (h' : k < 6244) : ‖settleVal k‖ ≤ 3 / 10 ^ 14 := by
  obtain ⟨-, -, -, -, -, ⟨r0, r1, r2, r3⟩, i0, i1, i2, i3⟩ := settled
  refine (Complex.norm_le_abs_re_add_abs_im _).trans ?_
  unfold settleVal
  obtain rfl | rfl | rfl | rfl : k = 6240 ∨ k = 6241 ∨ k = 6242 ∨ k = 6243 := by omega
  · rw [r0, i0]; norm_num [abs_of_pos, abs_of_neg]
  · rw [r1, i1]; norm_num [abs_of_pos, abs_of_neg]
  · rw [r2, i2]; norm_num [abs_of_pos, abs_of_neg]
  · rw [r3, i3]; norm_num [abs_of_pos, abs_of_neg]

theorem settleVal_small (N : ℕ) (hN : N ≤ 6240) : ∑ k ∈ Finset.range N, ‖settleVal k‖ ^ 2 ≤ 14407 / 10000 := by
  obtain ⟨-, -, -, h, -⟩ := settled
  have h1 : ∑ k ∈ Finset.range 6240, ‖settleVal k‖ ^ 2 ≤ 14407 / 10000 := by
    rw [Finset.sum_congr rfl fun k _ => settleVal_sq k, ← Finset.sum_div, ← Nat.cast_sum, h]
    norm_num
  exact (Finset.sum_le_sum_of_subset_of_nonneg (Finset.range_mono hN) fun _ _ _ => by positivity).trans h1

theorem settleCut_le (k : ℕ) : ‖settleCut k‖ ≤ 2 := by
  unfold settleCut
  split_ifs with h
  · by_cases h1 : k < 6240
    · have h2 := settleVal_small (k + 1) h1
      rw [Finset.sum_range_succ] at h2
      have h3 : 0 ≤ ∑ k ∈ Finset.range k, ‖settleVal k‖ ^ 2 := Finset.sum_nonneg fun _ _ => by positivity
      by_contra hc
      push Not at hc
      nlinarith
    · exact (settleVal_last (by omega) h).trans (by norm_num)
  · simp

theorem settleCut_last {k : ℕ} (h : 6240 ≤ k) : ‖settleCut k‖ ≤ 3 / 10 ^ 14 := by
  unfold settleCut
  split_ifs with h'
  · exact settleVal_last h h'
  · rw [norm_zero]; norm_num

theorem mix_near {a1 a2 a3 a4 c1 c2 c3 c4 e er : ℝ} {t0 t1 t2 t3 t4 l : ℂ} (h1 : |a1 - c1| ≤ e) (h2 : |a2 - c2| ≤ e)
    (h3 : |a3 - c3| ≤ e) (h4 : |a4 - c4| ≤ e) (n0 : ‖t0‖ ≤ 2) (n1 : ‖t1‖ ≤ 2) (n2 : ‖t2‖ ≤ 2) (n3 : ‖t3‖ ≤ 2)
    (h : ‖t4 + c1 * t3 + c2 * t2 + c3 * t1 + c4 * t0 - l‖ ≤ er) :
    ‖t4 + a1 * t3 + a2 * t2 + a3 * t1 + a4 * t0 - l‖ ≤ 8 * e + er := by
  have e0 : 0 ≤ e := (abs_nonneg _).trans h1
  have one : ∀ {a c : ℝ} {t : ℂ}, |a - c| ≤ e → ‖t‖ ≤ 2 → ‖((a - c : ℝ) : ℂ) * t‖ ≤ e * 2 := fun ha ht => by
    rw [norm_mul, Complex.norm_real, Real.norm_eq_abs]
    exact mul_le_mul ha ht (norm_nonneg _) e0
  have m1 := one h1 n3
  have m2 := one h2 n2
  have m3 := one h3 n1
  have m4 := one h4 n0
  rw [show t4 + a1 * t3 + a2 * t2 + a3 * t1 + a4 * t0 - l = (t4 + c1 * t3 + c2 * t2 + c3 * t1 + c4 * t0 - l) +
    ((a1 - c1 : ℝ) : ℂ) * t3 + ((a2 - c2 : ℝ) : ℂ) * t2 + ((a3 - c3 : ℝ) : ℂ) * t1 + ((a4 - c4 : ℝ) : ℂ) * t0 by
      push_cast; ring]
  refine (norm_add_le _ _).trans ?_
  refine (add_le_add_left (norm_add_le _ _) _).trans ?_
  refine (add_le_add_left (add_le_add_left (norm_add_le _ _) _) _).trans ?_
  refine (add_le_add_left (add_le_add_left (add_le_add_left (norm_add_le _ _) _) _) _).trans ?_
  linarith

/-- Sum of a constant over an interval. -/
theorem sum_interval {c : ℝ} (hc : 0 ≤ c) (lo m N : ℕ) :
    ∑ n ∈ Finset.range N, (if lo ≤ n ∧ n < lo + m then c else 0) ≤ m * c := by
  rw [← Finset.sum_filter, Finset.sum_const, nsmul_eq_mul]
  refine mul_le_mul_of_nonneg_right ?_ hc
  have : (Finset.range N).filter (fun n => lo ≤ n ∧ n < lo + m) ⊆ Finset.Ico lo (lo + m) := fun n hn => by
    rw [Finset.mem_filter] at hn
    exact Finset.mem_Ico.2 hn.2
  have h := Finset.card_le_card this
  rw [Nat.card_Ico, Nat.add_sub_cancel_left] at h
  exact_mod_cast h

/-- Taking one pole into account multiplies the sum of the magnitudes by at most `1 / (1 - ‖p‖)`. -/
theorem peel_sum {p : ℂ} (hp : ‖p‖ < 1) {g : ℕ → ℂ} (h0 : g 0 = 0) {c T : ℝ} (hc : 1 / (1 - ‖p‖) ≤ c)
    (h : ∀ N, ∑ n ∈ Finset.range N, ‖peel p g n‖ ≤ T) (N : ℕ) : ∑ n ∈ Finset.range N, ‖g n‖ ≤ c * T := by
  have T0 : 0 ≤ T := by simpa using h 0
  have q0 : 0 < 1 - ‖p‖ := by linarith
  have key : (1 - ‖p‖) * ∑ n ∈ Finset.range N, ‖g n‖ ≤ T := by
    have h1 : ∑ n ∈ Finset.range (N + 1), ‖g n‖ ≤ ‖p‖ * ∑ n ∈ Finset.range N, ‖g n‖ + ∑ n ∈ Finset.range N, ‖peel p g n‖ := by
      rw [Finset.sum_range_succ', h0, norm_zero, add_zero, Finset.mul_sum, ← Finset.sum_add_distrib]
      refine Finset.sum_le_sum fun n _ => ?_
      rw [peel_rec p g n]
      refine (norm_add_le _ _).trans ?_
      rw [norm_mul]
    have h2 : ∑ n ∈ Finset.range N, ‖g n‖ ≤ ∑ n ∈ Finset.range (N + 1), ‖g n‖ := by
      rw [Finset.sum_range_succ]
      linarith [norm_nonneg (g N)]
    linarith [h N]
  have h3 : ∑ n ∈ Finset.range N, ‖g n‖ ≤ 1 / (1 - ‖p‖) * T := by
    rw [one_div, inv_mul_eq_div, le_div_iff₀ q0]
    linarith
  exact h3.trans (mul_le_mul_of_nonneg_right hc T0)

/-! ## The transient -/

/-- The transient of the filter at 1 kHz. -/
noncomputable def transient48 (bs : BSearch) (u n : Nat) : ℂ :=
  let f := filterCoefficients (exactEnv bs u) ((exactEnv bs u).f64.ofInt 48000)
  outW f.1 f.2 (tone1k ^ ·) n - transfer f tone1k * tone1k ^ n

/-- What is not accounted for by the computed sequence, after four zeros. -/
noncomputable def leftover (bs : BSearch) (u n : Nat) : ℂ :=
  if n < 4 then 0 else transient48 bs u (n - 4) - settleCut (n - 4)

theorem leftover_zero (bs : BSearch) (u : Nat) {n : ℕ} (h : n < 4) : leftover bs u n = 0 := if_pos h

theorem leftover_add (bs : BSearch) (u n : Nat) : leftover bs u (n + 4) = transient48 bs u n - settleCut n := by
  unfold leftover
  rw [if_neg (by omega), Nat.add_sub_cancel]

/-- The computed sequence obeys the recursion of the filter, almost. -/
theorem settleCut_rec (bs : BSearch) (u k : Nat) :
    let a := (filterCoefficients (exactEnv bs u) ((exactEnv bs u).f64.ofInt 48000)).2
    ‖settleCut (k + 4) + a.v1 * settleCut (k + 3) + a.v2 * settleCut (k + 2) + a.v3 * settleCut (k + 1) +
      a.v4 * settleCut k‖ ≤ if k < 6240 then 5 / 10 ^ 15 else if k < 6244 then 1 / 10 ^ 12 else 0 := by
  intro a
  obtain ⟨-, a0, a1, a2, a3, a4⟩ := coefs48 bs u
  change |a.v1 - _| ≤ _ at a1
  change |a.v2 - _| ≤ _ at a2
  change |a.v3 - _| ≤ _ at a3
  change |a.v4 - _| ≤ _ at a4
  split_ifs with h1 h2
  · have h := settleVal_rec h1
    have e : ∀ j, j < 6244 → settleVal j = settleCut j := fun j hj => (if_pos hj).symm
    rw [e k (by omega), e (k + 1) (by omega), e (k + 2) (by omega), e (k + 3) (by omega), e (k + 4) (by omega)] at h
    have m := mix_near (l := 0) (t4 := settleCut (k + 4)) a1 a2 a3 a4 (settleCut_le k) (settleCut_le (k + 1)) (settleCut_le (k + 2))
      (settleCut_le (k + 3)) (er := 2 / 10 ^ 20) (by
        refine le_trans (le_of_eq (congrArg norm ?_)) h
        push_cast
        ring)
    rw [sub_zero] at m
    exact m.trans (by norm_num)
  · have z : settleCut (k + 4) = 0 := if_neg (by omega)
    have s0 := settleCut_last (k := k) (by omega)
    have s1 := settleCut_last (k := k + 1) (by omega)
    have s2 := settleCut_last (k := k + 2) (by omega)
    have s3 := settleCut_last (k := k + 3) (by omega)
    have one : ∀ {x y e : ℝ} {t : ℂ}, |x - y| ≤ e → |y| + e ≤ 6 → ‖t‖ ≤ 3 / 10 ^ 14 → ‖(x : ℂ) * t‖ ≤ 18 / 10 ^ 14 :=
      fun {x y e t} hx hy ht => by
        rw [norm_mul, Complex.norm_real, Real.norm_eq_abs]
        have h3 : |x| ≤ 6 := by
          have := abs_sub_abs_le_abs_sub x y
          linarith
        refine (mul_le_mul h3 ht (norm_nonneg _) (by norm_num)).trans (by norm_num)
    have m1 := one a1 (by norm_num [abs_of_pos, abs_of_neg]) s3
    have m2 := one a2 (by norm_num [abs_of_pos, abs_of_neg]) s2
    have m3 := one a3 (by norm_num [abs_of_pos, abs_of_neg]) s1
    have m4 := one a4 (by norm_num [abs_of_pos, abs_of_neg]) s0
    rw [z, zero_add]
    have b1 := norm_add_le ((a.v1 : ℂ) * settleCut (k + 3) + a.v2 * settleCut (k + 2) + a.v3 * settleCut (k + 1)) (a.v4 * settleCut k)
    have b2 := norm_add_le ((a.v1 : ℂ) * settleCut (k + 3) + a.v2 * settleCut (k + 2)) (a.v3 * settleCut (k + 1))
    have b3 := norm_add_le ((a.v1 : ℂ) * settleCut (k + 3)) (a.v2 * settleCut (k + 2))
    have : (4 : ℝ) * (18 / 10 ^ 14) ≤ 1 / 10 ^ 12 := by norm_num
    linarith
  · have z : ∀ j, settleCut (k + j) = 0 := fun j => if_neg (by omega)
    have z0 := z 0
    rw [add_zero] at z0
    rw [z, z, z, z, z0]
    simp

/-- What drives the remainder. -/
theorem leftover_rec (bs : BSearch) (u : Nat) :
    let a := (filterCoefficients (exactEnv bs u) ((exactEnv bs u).f64.ofInt 48000)).2
    ∃ ρ : ℕ → ℂ, (∀ n, leftover bs u (n + 4) = ρ n - a.v1 * leftover bs u (n + 3) - a.v2 * leftover bs u (n + 2) -
      a.v3 * leftover bs u (n + 1) - a.v4 * leftover bs u n) ∧
      ∀ N, ∑ n ∈ Finset.range N, ‖ρ n‖ ≤ 92 / 10 ^ 11 := by
  intro a
  refine ⟨fun n => leftover bs u (n + 4) + a.v1 * leftover bs u (n + 3) + a.v2 * leftover bs u (n + 2) +
      a.v3 * leftover bs u (n + 1) + a.v4 * leftover bs u n, fun n => by ring, ?_⟩
  have hρ : ∀ n, ‖leftover bs u (n + 4) + a.v1 * leftover bs u (n + 3) + a.v2 * leftover bs u (n + 2) +
      a.v3 * leftover bs u (n + 1) + a.v4 * leftover bs u n‖ ≤ (if 0 ≤ n ∧ n < 0 + 4 then 22 / 10 ^ 11 else 0) +
      (if 4 ≤ n ∧ n < 4 + 6240 then 5 / 10 ^ 15 else 0) + (if 6244 ≤ n ∧ n < 6244 + 4 then 1 / 10 ^ 12 else 0) := by
    obtain ⟨t0, t1, t2, t3, t4⟩ := transient_rec (b := (filterCoefficients (exactEnv bs u) ((exactEnv bs u).f64.ofInt 48000)).1)
      (coefs48 bs u).2.1 tone1k (transfer (filterCoefficients (exactEnv bs u) ((exactEnv bs u).f64.ofInt 48000)) tone1k)
    obtain ⟨p0, p1, p2, p3⟩ := steps48 bs u
    have p4 := (transfer48 bs u).2
    rw [← t0] at p0
    rw [← t1] at p1
    rw [← t2] at p2
    rw [← t3] at p3
    rw [p4] at t4
    change ‖transient48 bs u 0 - _‖ ≤ _ at p0
    change ‖transient48 bs u 1 + a.v1 * transient48 bs u 0 - _‖ ≤ _ at p1
    change ‖transient48 bs u 2 + a.v1 * transient48 bs u 1 + a.v2 * transient48 bs u 0 - _‖ ≤ _ at p2
    change ‖transient48 bs u 3 + a.v1 * transient48 bs u 2 + a.v2 * transient48 bs u 1 + a.v3 * transient48 bs u 0 - _‖ ≤ _ at p3
    change ∀ n, transient48 bs u (n + 4) + a.v1 * transient48 bs u (n + 3) + a.v2 * transient48 bs u (n + 2) +
      a.v3 * transient48 bs u (n + 1) + a.v4 * transient48 bs u n = _ at t4
    clear t0 t1 t2 t3 p4
    obtain ⟨-, -, a1, a2, a3, a4⟩ := coefs48 bs u
    change |a.v1 - _| ≤ _ at a1
    change |a.v2 - _| ≤ _ at a2
    change |a.v3 - _| ≤ _ at a3
    change |a.v4 - _| ≤ _ at a4
    have z0 := leftover_zero bs u (n := 0) (by norm_num)
    have z1 := leftover_zero bs u (n := 1) (by norm_num)
    have z2 := leftover_zero bs u (n := 2) (by norm_num)
    have z3 := leftover_zero bs u (n := 3) (by norm_num)
    have l0 := leftover_add bs u 0
    have l1 := leftover_add bs u 1
    have l2 := leftover_add bs u 2
    have l3 := leftover_add bs u 3
    have c0 : settleCut 0 = _ := (if_pos (by norm_num)).trans settleVal_first.1
    have c1 : settleCut 1 = _ := (if_pos (by norm_num)).trans settleVal_first.2.1
    have c2 : settleCut 2 = _ := (if_pos (by norm_num)).trans settleVal_first.2.2.1
    have c3 : settleCut 3 = _ := (if_pos (by norm_num)).trans settleVal_first.2.2.2
    have n0 : ‖(0 : ℂ)‖ ≤ 2 := by simp
    have two : ∀ {x y l : ℂ} {e e' : ℝ}, ‖x - l‖ ≤ e → ‖y - l‖ ≤ e' → ‖x - y‖ ≤ e + e' := fun {x y l e e'} hx hy => by
      rw [show x - y = (x - l) - (y - l) by ring]
      exact (norm_sub_le _ _).trans (add_le_add hx hy)
    intro n
    match n with
    | 0 =>
      simp only [Nat.reduceAdd] at l0
      simp only [Nat.reduceAdd]
      rw [l0, z3, z2, z1, z0, c0]
      rw [if_pos (by omega), if_neg (by omega), if_neg (by omega)]
      simp only [mul_zero, add_zero]
      exact p0.trans (by norm_num)
    | 1 =>
      simp only [Nat.reduceAdd] at l0 l1
      simp only [Nat.reduceAdd]
      rw [l1, l0, z3, z2, z1]
      rw [if_pos (by omega), if_neg (by omega), if_neg (by omega)]
      have m := mix_near (t4 := settleCut 1) (t3 := settleCut 0) (t2 := 0) (t1 := 0) (t0 := 0) (l := ⟨(-144301081175650062956 / 10 ^ 20), (103081647900049483139 / 10 ^ 20)⟩) a1 a2 a3 a4 n0 n0 n0 (settleCut_le 0)
        (er := 1 / 10 ^ 18) (by
          rw [c1, c0]
          refine (Complex.norm_le_abs_re_add_abs_im _).trans ?_
          simp
          norm_num [abs_of_pos, abs_of_neg])
      simp only [mul_zero, add_zero] at m ⊢
      have h := two p1 m
      refine (le_of_eq (congrArg norm ?_)).trans (h.trans (by norm_num))
      ring
    | 2 =>
      simp only [Nat.reduceAdd] at l0 l1 l2
      simp only [Nat.reduceAdd]
      rw [l2, l1, l0, z3, z2]
      rw [if_pos (by omega), if_neg (by omega), if_neg (by omega)]
      have m := mix_near (t4 := settleCut 2) (t3 := settleCut 1) (t2 := settleCut 0) (t1 := 0) (t0 := 0) (l := ⟨(134945800303214911759 / 10 ^ 20), (-98972572148333916727 / 10 ^ 20)⟩) a1 a2 a3 a4 n0 n0 (settleCut_le 0) (settleCut_le 1)
        (er := 1 / 10 ^ 18) (by
          rw [c2, c1, c0]
          refine (Complex.norm_le_abs_re_add_abs_im _).trans ?_
          simp
          norm_num [abs_of_pos, abs_of_neg])
      simp only [mul_zero, add_zero] at m ⊢
      have h := two p2 m
      refine (le_of_eq (congrArg norm ?_)).trans (h.trans (by norm_num))
      ring
    | 3 =>
      simp only [Nat.reduceAdd] at l0 l1 l2 l3
      simp only [Nat.reduceAdd]
      rw [l3, l2, l1, l0, z3]
      rw [if_pos (by omega), if_neg (by omega), if_neg (by omega)]
      have m := mix_near (t4 := settleCut 3) (t3 := settleCut 2) (t2 := settleCut 1) (t1 := settleCut 0) (t0 := 0) (l := ⟨(-41892544260341412924 / 10 ^ 20), (31733550537733763587 / 10 ^ 20)⟩) a1 a2 a3 a4 n0 (settleCut_le 0) (settleCut_le 1) (settleCut_le 2)
        (er := 1 / 10 ^ 18) (by
          rw [c3, c2, c1, c0]
          refine (Complex.norm_le_abs_re_add_abs_im _).trans ?_
          simp
          norm_num [abs_of_pos, abs_of_neg])
      simp only [mul_zero, add_zero] at m ⊢
      have h := two p3 m
      refine (le_of_eq (congrArg norm ?_)).trans (h.trans (by norm_num))
      ring
    | k + 4 =>
      have h := settleCut_rec bs u k
      change ‖settleCut (k + 4) + a.v1 * settleCut (k + 3) + a.v2 * settleCut (k + 2) + a.v3 * settleCut (k + 1) +
        a.v4 * settleCut k‖ ≤ _ at h
      have e4 := leftover_add bs u (k + 4)
      have e3 := leftover_add bs u (k + 3)
      have e2 := leftover_add bs u (k + 2)
      have e1 := leftover_add bs u (k + 1)
      have e0 := leftover_add bs u k
      have e : leftover bs u (k + 4 + 4) + a.v1 * leftover bs u (k + 4 + 3) + a.v2 * leftover bs u (k + 4 + 2) +
          a.v3 * leftover bs u (k + 4 + 1) + a.v4 * leftover bs u (k + 4) =
          -(settleCut (k + 4) + a.v1 * settleCut (k + 3) + a.v2 * settleCut (k + 2) + a.v3 * settleCut (k + 1) +
            a.v4 * settleCut k) := by
        rw [e4, show k + 4 + 3 = k + 3 + 4 by omega, e3, show k + 4 + 2 = k + 2 + 4 by omega, e2,
          show k + 4 + 1 = k + 1 + 4 by omega, e1, e0]
        have := t4 k
        rw [zero_mul] at this
        linear_combination this
      rw [e, norm_neg]
      refine h.trans ?_
      split_ifs <;> first | omega | norm_num
  intro N
  refine (Finset.sum_le_sum fun n _ => hρ n).trans ?_
  rw [Finset.sum_add_distrib, Finset.sum_add_distrib]
  have s1 := sum_interval (c := 22 / 10 ^ 11) (by norm_num) 0 4 N
  have s2 := sum_interval (c := 5 / 10 ^ 15) (by norm_num) 4 6240 N
  have s3 := sum_interval (c := 1 / 10 ^ 12) (by norm_num) 6244 4 N
  refine (add_le_add (add_le_add s1 s2) s3).trans (by norm_num)

theorem leftover_sum (bs : BSearch) (u N : Nat) : ∑ n ∈ Finset.range N, ‖leftover bs u n‖ ≤ 28 / 10000 := by
  have hr : 8000 ≤ 48000 := by norm_num
  obtain ⟨ρ, h1, h2⟩ := leftover_rec bs u
  have all := peel_all (poleAt_poles bs u hr) h1
  have z0 := leftover_zero bs u (n := 0) (by norm_num)
  have z1 := leftover_zero bs u (n := 1) (by norm_num)
  have z2 := leftover_zero bs u (n := 2) (by norm_num)
  have z3 := leftover_zero bs u (n := 3) (by norm_num)
  have g : ∀ i : Fin 4, 1 / (1 - ‖poleAt 48000 i‖) ≤ if (i : Nat) < 2 then 849 / 100 else 203 := fun i => by
    refine (poleAt_gain hr i).2.trans ?_
    split_ifs <;> norm_num
  have k3 := peel_sum (poleAt_gain hr 3).1 (g := peel (poleAt 48000 2) (peel (poleAt 48000 1) (peel (poleAt 48000 0) (leftover bs u))))
    (by simp [peel, z0, z1, z2, z3]) (g 3) (T := 92 / 10 ^ 11) (fun N => by rw [Finset.sum_congr rfl fun n _ => by rw [all n]]; exact h2 N)
  have k2 := peel_sum (poleAt_gain hr 2).1 (by simp [peel, z0, z1, z2]) (g 2) k3
  have k1 := peel_sum (poleAt_gain hr 1).1 (by simp [peel, z0, z1]) (g 1) k2
  have k0 := peel_sum (poleAt_gain hr 0).1 z0 (g 0) k1
  refine (k0 N).trans ?_
  norm_num

theorem onset_split (bs : BSearch) (u n : Nat) :
    onsetError bs u 48000 tone1k n ≤ ‖settleCut n‖ + ‖leftover bs u (n + 4)‖ := by
  have : onsetError bs u 48000 tone1k n = ‖transient48 bs u n‖ := rfl
  rw [this, leftover_add]
  have h := norm_add_le (settleCut n) (transient48 bs u n - settleCut n)
  rwa [add_sub_cancel] at h

theorem leftover_tail (bs : BSearch) (u q N : Nat) : ∑ n ∈ Finset.range N, ‖leftover bs u (q + n + 4)‖ ≤ 28 / 10000 := by
  have h := leftover_sum bs u (q + 4 + N)
  rw [Finset.sum_range_add] at h
  refine le_trans (le_trans (le_of_eq ?_) (le_add_of_nonneg_left (Finset.sum_nonneg fun _ _ => norm_nonneg _))) h
  exact Finset.sum_congr rfl fun n _ => by rw [show q + n + 4 = q + 4 + n by omega]

theorem settleCut_sums (N : ℕ) :
    ∑ n ∈ Finset.range N, ‖settleCut n‖ ≤ 1152 / 100 ∧ ∑ n ∈ Finset.range N, ‖settleCut n‖ ^ 2 ≤ 1441 / 1000 ∧
    (∀ q, 960 ≤ q → ∑ n ∈ Finset.range N, ‖settleCut (q + n)‖ ≤ 241 / 1000) ∧
    ∀ q, 4800 ≤ q → ∑ n ∈ Finset.range N, ‖settleCut (q + n)‖ ≤ 1 / 10 ^ 6 := by
  obtain ⟨s1, s2, s3, s4, -⟩ := settled
  have mag : ∀ {k t : ℕ} {lo : ℕ}, ∑ j ∈ Finset.range k, settleMag settleRe settleIm (lo + j) = t → lo + k ≤ 6240 →
      ∑ j ∈ Finset.range k, ‖settleCut (lo + j)‖ ≤ t / 10 ^ 20 := fun {k t lo} h hk => by
    rw [← h, Nat.cast_sum, Finset.sum_div]
    refine Finset.sum_le_sum fun j hj => ?_
    rw [Finset.mem_range] at hj
    rw [settleCut, if_pos (by omega)]
    exact settleVal_norm _
  have m1 := mag (lo := 0) (k := 960) (by simpa only [zero_add] using s1) (by norm_num)
  have m2 := mag s2 (by norm_num)
  have m3 := mag s3 (by norm_num)
  simp only [zero_add] at m1
  clear s1 s2 s3 s4 mag
  have rest : ∀ N, ∑ n ∈ Finset.range N, ‖settleCut (6240 + n)‖ ≤ 12 / 10 ^ 14 := fun N => by
    have h1 : ∀ n, ‖settleCut (6240 + n)‖ ≤ if 0 ≤ n ∧ n < 0 + 4 then 3 / 10 ^ 14 else 0 := fun n => by
      split_ifs with h
      · exact settleCut_last (by omega)
      · rw [settleCut, if_neg (by omega), norm_zero]
    refine (Finset.sum_le_sum fun n _ => h1 n).trans ?_
    refine (sum_interval (by norm_num) 0 4 N).trans (by norm_num)
  -- from some point on
  have grow : ∀ (lo q N : ℕ), lo ≤ q → ∑ n ∈ Finset.range N, ‖settleCut (q + n)‖ ≤
      ∑ n ∈ Finset.range (q + N), ‖settleCut (lo + n)‖ := fun lo q N h => by
    have : Finset.range (q + N) = Finset.range ((q - lo) + (lo + N)) := by congr 1; omega
    rw [this, Finset.sum_range_add]
    refine le_trans ?_ (le_add_of_nonneg_left (Finset.sum_nonneg fun _ _ => norm_nonneg _))
    refine le_trans (le_of_eq (Finset.sum_congr rfl fun n _ => ?_)) (Finset.sum_le_sum_of_subset_of_nonneg
      (Finset.range_mono (by omega : N ≤ lo + N)) fun _ _ _ => norm_nonneg _)
    rw [show lo + (q - lo + n) = q + n by omega]
  have tail3 : ∀ N, ∑ n ∈ Finset.range N, ‖settleCut (4800 + n)‖ ≤ 1 / 10 ^ 8 := fun N => by
    refine (Finset.sum_le_sum_of_subset_of_nonneg (Finset.range_mono (by omega : N ≤ 1440 + N)) fun _ _ _ =>
      norm_nonneg _).trans ?_
    rw [Finset.sum_range_add]
    simp only [← add_assoc, Nat.reduceAdd]
    refine (add_le_add m3 (rest N)).trans (by norm_num)
  have tail2 : ∀ N, ∑ n ∈ Finset.range N, ‖settleCut (960 + n)‖ ≤ 2402 / 10000 := fun N => by
    refine (Finset.sum_le_sum_of_subset_of_nonneg (Finset.range_mono (by omega : N ≤ 3840 + N)) fun _ _ _ =>
      norm_nonneg _).trans ?_
    rw [Finset.sum_range_add]
    simp only [← add_assoc, Nat.reduceAdd]
    refine (add_le_add m2 (tail3 N)).trans (by norm_num)
  refine ⟨?_, ?_, fun q hq => ((grow 960 q N hq).trans (tail2 _)).trans (by norm_num),
    fun q hq => ((grow 4800 q N hq).trans (tail3 _)).trans (by norm_num)⟩
  · refine (Finset.sum_le_sum_of_subset_of_nonneg (Finset.range_mono (by omega : N ≤ 960 + N)) fun _ _ _ =>
      norm_nonneg _).trans ?_
    rw [Finset.sum_range_add]
    refine (add_le_add m1 (tail2 N)).trans (by norm_num)
  · refine (Finset.sum_le_sum_of_subset_of_nonneg (Finset.range_mono (by omega : N ≤ 6240 + N)) fun _ _ _ =>
      by positivity).trans ?_
    rw [Finset.sum_range_add]
    have h1 : ∑ n ∈ Finset.range 6240, ‖settleCut n‖ ^ 2 ≤ 14407 / 10000 := by
      refine le_trans (le_of_eq (Finset.sum_congr rfl fun n hn => ?_)) (settleVal_small 6240 le_rfl)
      rw [settleCut, if_pos (by rw [Finset.mem_range] at hn; omega)]
    have h2 : ∑ n ∈ Finset.range N, ‖settleCut (6240 + n)‖ ^ 2 ≤ 12 / 10 ^ 14 := by
      refine (Finset.sum_le_sum fun n _ => ?_).trans (rest N)
      have h3 := settleCut_last (k := 6240 + n) (by omega)
      have h4 : ‖settleCut (6240 + n)‖ ≤ 1 := h3.trans (by norm_num)
      have := norm_nonneg (settleCut (6240 + n))
      nlinarith
    refine (add_le_add h1 h2).trans (by norm_num)

/-- **The transient at 1 kHz**, closely: the sums of its magnitudes and of their squares, and what is left after 20 ms
and after 100 ms. -/
theorem onset48_sharp (bs : BSearch) (u N : Nat) :
    ∑ n ∈ Finset.range N, onsetError bs u 48000 tone1k n ≤ 1153 / 100 ∧
    ∑ n ∈ Finset.range N, onsetError bs u 48000 tone1k n ^ 2 ≤ 1453 / 1000 ∧
    (∀ q, 960 ≤ q → ∑ n ∈ Finset.range N, onsetError bs u 48000 tone1k (q + n) ≤ 244 / 1000) ∧
    ∀ q, 4800 ≤ q → ∑ n ∈ Finset.range N, onsetError bs u 48000 tone1k (q + n) ≤ 3 / 1000 := by
  obtain ⟨h1, h2, h3, h4⟩ := settleCut_sums N
  have t0 := leftover_tail bs u 0 N
  simp only [zero_add] at t0
  have split : ∀ q, ∑ n ∈ Finset.range N, onsetError bs u 48000 tone1k (q + n) ≤
      ∑ n ∈ Finset.range N, ‖settleCut (q + n)‖ + ∑ n ∈ Finset.range N, ‖leftover bs u (q + n + 4)‖ := fun q => by
    rw [← Finset.sum_add_distrib]
    exact Finset.sum_le_sum fun n _ => onset_split bs u (q + n)
  refine ⟨?_, ?_, fun q hq => ?_, fun q hq => ?_⟩
  · refine (Finset.sum_le_sum fun n _ => onset_split bs u n).trans ?_
    rw [Finset.sum_add_distrib]
    refine (add_le_add h1 t0).trans (by norm_num)
  · have h5 : ∀ n ∈ Finset.range N, onsetError bs u 48000 tone1k n ^ 2 ≤
        ‖settleCut n‖ ^ 2 + 4003 / 1000 * ‖leftover bs u (n + 4)‖ := fun n hn => by
      have e := onset_split bs u n
      have e0 := onsetError_nonneg bs u 48000 tone1k n
      have l1 := settleCut_le n
      have l0 := norm_nonneg (settleCut n)
      have l2 : ‖leftover bs u (n + 4)‖ ≤ 28 / 10000 :=
        (Finset.single_le_sum (f := fun n => ‖leftover bs u (n + 4)‖) (fun _ _ => norm_nonneg _) hn).trans t0
      have l3 := norm_nonneg (leftover bs u (n + 4))
      have := pow_le_pow_left₀ e0 e 2
      nlinarith
    refine (Finset.sum_le_sum h5).trans ?_
    rw [Finset.sum_add_distrib, ← Finset.mul_sum]
    linarith
  · refine (split q).trans ((add_le_add (h3 q hq) (leftover_tail bs u q N)).trans (by norm_num))
  · refine (split q).trans ((add_le_add (h4 q hq) (leftover_tail bs u q N)).trans (by norm_num))

end Verif
