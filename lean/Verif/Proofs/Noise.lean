import Verif.Props.C53
/-!
# How disturbances travel through the K-weighting filter

A disturbance added to the input of the recursive part of the filter reaches the state amplified by at most
`stateGain rate`, and the output amplified by at most 13, at every sample rate from 8 kHz on and for all time.
-/

set_option linter.unusedSimpArgs false

namespace Verif
open Spec

/-! ## One pole, one zero -/

theorem drive_bound {g : ℕ → ℂ} {p : ℂ} {F : ℝ} (hp : ‖p‖ < 1) (h0 : g 0 = 0) (hF : 0 ≤ F) {N : ℕ}
    (hf : ∀ m < N, ‖peel p g m‖ ≤ F) : ∀ m ≤ N, ‖g m‖ ≤ F / (1 - ‖p‖) := by
  have h1 : 0 < 1 - ‖p‖ := by linarith
  intro m
  induction m with
  | zero => intro _; rw [h0, norm_zero]; positivity
  | succ m ih =>
    intro hm
    have h2 := ih (by omega)
    have h3 := hf m (by omega)
    rw [peel_rec p g m]
    refine (norm_add_le _ _).trans ?_
    rw [norm_mul, le_div_iff₀ h1]
    rw [le_div_iff₀ h1] at h2
    nlinarith [norm_nonneg p, mul_le_mul_of_nonneg_left h2 (norm_nonneg p)]

theorem peel_comm (r s : ℂ) (w : ℕ → ℂ) : peel r (peel s w) = peel s (peel r w) := by
  funext n
  simp only [peel]
  ring

/-- A zero in place of a pole. -/
theorem swap_bound {g : ℕ → ℂ} {p : ℂ} {F : ℝ} (hp : ‖p‖ < 1) (h0 : g 0 = 0) (hf : ∀ m, ‖peel p g m‖ ≤ F) (z : ℂ)
    (m : ℕ) : ‖peel z g m‖ ≤ (1 + ‖z - p‖ / (1 - ‖p‖)) * F := by
  have hF : 0 ≤ F := (norm_nonneg _).trans (hf 0)
  have h1 := drive_bound hp h0 hF (fun k _ => hf k) m le_rfl
  have e : peel z g m = peel p g m - (z - p) * g m := by simp only [peel]; ring
  rw [e]
  refine (norm_sub_le _ _).trans ?_
  rw [norm_mul]
  have h2 := mul_le_mul_of_nonneg_left h1 (norm_nonneg (z - p))
  have h3 := hf m
  have e2 : (1 + ‖z - p‖ / (1 - ‖p‖)) * F = F + ‖z - p‖ * (F / (1 - ‖p‖)) := by ring
  rw [e2]
  linarith

/-- The state while the input is bounded. -/
theorem state_prefix {a : V5 ℝ} {r : Fin 4 → ℂ} (h : Poles a r) (hs : ∀ i, ‖r i‖ < 1) {w x : ℕ → ℂ}
    (hw : ∀ n, w (n + 4) = x n - a.v1 * w (n + 3) - a.v2 * w (n + 2) - a.v3 * w (n + 1) - a.v4 * w n)
    (hz : ∀ n < 4, w n = 0) {F : ℝ} (hF : 0 ≤ F) {N : ℕ} (hx : ∀ n < N, ‖x n‖ ≤ F) :
    ∀ m ≤ N + 3, ‖w m‖ ≤ F / (1 - ‖r 3‖) / (1 - ‖r 2‖) / (1 - ‖r 1‖) / (1 - ‖r 0‖) := by
  have p : ∀ i, 0 < 1 - ‖r i‖ := fun i => by linarith [hs i]
  have w0 := hz 0 (by omega)
  have w1 := hz 1 (by omega)
  have w2 := hz 2 (by omega)
  have w3 := hz 3 (by omega)
  have e3 : 0 ≤ F / (1 - ‖r 3‖) := div_nonneg hF (p 3).le
  have e2 := div_nonneg e3 (p 2).le
  have e1 := div_nonneg e2 (p 1).le
  have h3 : ∀ m ≤ N, ‖peel (r 2) (peel (r 1) (peel (r 0) w)) m‖ ≤ F / (1 - ‖r 3‖) := by
    refine drive_bound (hs 3) (by simp [peel, w0, w1, w2, w3]) hF fun m hm => ?_
    rw [peel_all h hw]
    exact hx m hm
  have h2 : ∀ m ≤ N + 1, ‖peel (r 1) (peel (r 0) w) m‖ ≤ F / (1 - ‖r 3‖) / (1 - ‖r 2‖) :=
    drive_bound (hs 2) (by simp [peel, w0, w1, w2, w3]) e3 fun m hm => h3 m (by omega)
  have h1 : ∀ m ≤ N + 2, ‖peel (r 0) w m‖ ≤ F / (1 - ‖r 3‖) / (1 - ‖r 2‖) / (1 - ‖r 1‖) :=
    drive_bound (hs 1) (by simp [peel, w0, w1, w2, w3]) e2 fun m hm => h2 m (by omega)
  exact drive_bound (hs 0) w0 e1 fun m hm => h1 m (by omega)

/-- The amplification of one pole and one zero. -/
noncomputable def pair (z p : ℂ) : ℝ := 1 + ‖z - p‖ / (1 - ‖p‖)

/-- The output while the input is bounded: each pole is paired with a zero. -/
theorem shaped {a : V5 ℝ} {r : Fin 4 → ℂ} (h : Poles a r) (hs : ∀ i, ‖r i‖ < 1) {w x : ℕ → ℂ}
    (hw : ∀ n, w (n + 4) = x n - a.v1 * w (n + 3) - a.v2 * w (n + 2) - a.v3 * w (n + 1) - a.v4 * w n)
    (hz : ∀ n < 4, w n = 0) {F : ℝ} (hx : ∀ n, ‖x n‖ ≤ F) (z : Fin 4 → ℂ) (n : ℕ) :
    ‖peel (z 0) (peel (z 1) (peel (z 2) (peel (z 3) w))) n‖ ≤
      pair (z 0) (r 0) * (pair (z 1) (r 1) * (pair (z 2) (r 2) * (pair (z 3) (r 3) * F))) := by
  have w0 := hz 0 (by omega)
  have w1 := hz 1 (by omega)
  have w2 := hz 2 (by omega)
  have w3 := hz 3 (by omega)
  have s3 : ∀ m, ‖peel (z 3) (peel (r 2) (peel (r 1) (peel (r 0) w))) m‖ ≤ pair (z 3) (r 3) * F :=
    swap_bound (hs 3) (by simp [peel, w0, w1, w2, w3]) (fun m => by rw [peel_all h hw]; exact hx m) _
  rw [peel_comm (z 3)] at s3
  have s2 : ∀ m, ‖peel (z 2) (peel (z 3) (peel (r 1) (peel (r 0) w))) m‖ ≤
      pair (z 2) (r 2) * (pair (z 3) (r 3) * F) :=
    swap_bound (hs 2) (by simp [peel, w0, w1, w2, w3]) s3 _
  rw [peel_comm (z 3), peel_comm (z 2)] at s2
  have s1 : ∀ m, ‖peel (z 1) (peel (z 2) (peel (z 3) (peel (r 0) w))) m‖ ≤
      pair (z 1) (r 1) * (pair (z 2) (r 2) * (pair (z 3) (r 3) * F)) :=
    swap_bound (hs 1) (by simp [peel, w0, w1, w2, w3]) s2 _
  rw [peel_comm (z 3), peel_comm (z 2), peel_comm (z 1)] at s1
  exact swap_bound (hs 0) (by simp [peel, w0, w1, w2, w3]) s1 _ n

/-! ## The bilinear transformation -/

noncomputable def bil (s : ℂ) : ℂ := (1 + s) / (1 - s)

theorem one_sub_ne {s : ℂ} (h : s.re ≤ 0) : 1 - s ≠ 0 := fun e => by
  have := congrArg Complex.re e
  simp at this
  linarith

theorem norm_one_add (s : ℂ) : ‖1 + s‖ ^ 2 = ‖1 - s‖ ^ 2 + 4 * s.re := by
  rw [← Complex.normSq_eq_norm_sq, ← Complex.normSq_eq_norm_sq, Complex.normSq_apply, Complex.normSq_apply]
  simp
  ring

theorem bil_inside {s : ℂ} (h : s.re < 0) : ‖bil s‖ < 1 ∧ -(2 * s.re) / ‖1 - s‖ ^ 2 ≤ 1 - ‖bil s‖ := by
  have hn := one_sub_ne h.le
  have hp : 0 < ‖1 - s‖ := norm_pos_iff.2 hn
  have e := norm_one_add s
  have h1 : ‖1 + s‖ < ‖1 - s‖ := by
    by_contra hc
    push Not at hc
    have := mul_self_le_mul_self hp.le hc
    nlinarith
  have hb : ‖bil s‖ = ‖1 + s‖ / ‖1 - s‖ := by rw [bil, norm_div]
  refine ⟨by rw [hb, div_lt_one hp]; exact h1, ?_⟩
  rw [hb, div_le_iff₀ (by positivity)]
  have e2 : (1 - ‖1 + s‖ / ‖1 - s‖) * ‖1 - s‖ ^ 2 = ‖1 - s‖ * ‖1 - s‖ - ‖1 + s‖ * ‖1 - s‖ := by
    field_simp
  rw [e2]
  nlinarith [sq_nonneg (‖1 + s‖ - ‖1 - s‖)]

theorem bil_sub {s z : ℂ} (hs : s.re ≤ 0) (hz : z.re ≤ 0) :
    ‖bil z - bil s‖ = 2 * ‖z - s‖ / (‖1 - z‖ * ‖1 - s‖) := by
  have h1 := one_sub_ne hs
  have h2 := one_sub_ne hz
  have e : bil z - bil s = 2 * (z - s) / ((1 - z) * (1 - s)) := by
    unfold bil; field_simp; ring
  rw [e, norm_div, norm_mul, norm_mul]
  simp

theorem pair_le {s z : ℂ} (hs : s.re < 0) (hz : z.re ≤ 0) :
    pair (bil z) (bil s) ≤ 1 + ‖z - s‖ * ‖1 - s‖ / (-s.re * ‖1 - z‖) := by
  obtain ⟨h1, h2⟩ := bil_inside hs
  have p1 : 0 < ‖1 - s‖ := norm_pos_iff.2 (one_sub_ne hs.le)
  have p2 : 0 < ‖1 - z‖ := norm_pos_iff.2 (one_sub_ne hz)
  have p3 : 0 < -s.re := by linarith
  unfold pair
  rw [bil_sub hs.le hz]
  have h3 : 2 * ‖z - s‖ / (‖1 - z‖ * ‖1 - s‖) / (1 - ‖bil s‖) ≤
      2 * ‖z - s‖ / (‖1 - z‖ * ‖1 - s‖) / (-(2 * s.re) / ‖1 - s‖ ^ 2) :=
    div_le_div_of_nonneg_left (by positivity) (div_pos (by linarith) (by positivity)) h2
  have e : 2 * ‖z - s‖ / (‖1 - z‖ * ‖1 - s‖) / (-(2 * s.re) / ‖1 - s‖ ^ 2) =
      ‖z - s‖ * ‖1 - s‖ / (-s.re * ‖1 - z‖) := by
    have : s.re ≠ 0 := hs.ne
    field_simp
  linarith

theorem pair_nonneg {z p : ℂ} (hp : ‖p‖ < 1) : 0 ≤ pair z p := by
  unfold pair
  have : 0 < 1 - ‖p‖ := by linarith
  positivity

/-- A quadratic in both variables. -/
theorem bil_pair {s s' t u : ℂ} (h1 : s + s' = -t) (h2 : s * s' = u) (hs : 1 - s ≠ 0) (hs' : 1 - s' ≠ 0) :
    bil s + bil s' = 2 * (1 - u) / (1 + t + u) ∧ bil s * bil s' = (1 - t + u) / (1 + t + u) := by
  have e : 1 + t + u = (1 - s) * (1 - s') := by rw [← h2, show t = -(s + s') by rw [h1]; ring]; ring
  rw [e]
  have ht : t = -(s + s') := by rw [h1]; ring
  unfold bil
  subst ht h2
  constructor
  · field_simp; ring
  · field_simp; ring

/-! ## The poles and zeros of the filter -/

/-- The pole of a section, for `K = 1`. -/
noncomputable def proto (Q : ℝ) : ℂ := ⟨-(1 / (2 * Q)), Real.sqrt (1 - (1 / (2 * Q)) ^ 2)⟩

/-- The zero of the first section, for `K = 1`. -/
noncomputable def protoZ : ℂ := ⟨-(gainB / (2 * q1 * gainH)), Real.sqrt (1 / gainH - (gainB / (2 * q1 * gainH)) ^ 2)⟩

/-- The other one of a pair. -/
noncomputable def cc (s : ℂ) : ℂ := ⟨s.re, -s.im⟩

theorem cc_norm (s : ℂ) : ‖cc s‖ = ‖s‖ := by
  have := Complex.norm_conj s
  rwa [show (starRingEnd ℂ) s = cc s from rfl] at this

theorem cc_sub (s z : ℂ) : cc s - cc z = cc (s - z) := by
  apply Complex.ext <;> simp [cc]; ring

theorem one_sub_cc (s : ℂ) : 1 - cc s = cc (1 - s) := by
  apply Complex.ext <;> simp [cc]

theorem scaled_re (K : ℝ) (s : ℂ) : ((K : ℂ) * s).re = K * s.re := by simp

theorem pair_sum (K x y : ℝ) : (K : ℂ) * ⟨-x, y⟩ + cc ((K : ℂ) * ⟨-x, y⟩) = -((K * (2 * x) : ℝ) : ℂ) := by
  apply Complex.ext <;> simp [cc]; ring

theorem pair_prod (K x y : ℝ) : (K : ℂ) * ⟨-x, y⟩ * cc ((K : ℂ) * ⟨-x, y⟩) = ((K * K * (x ^ 2 + y ^ 2) : ℝ) : ℂ) := by
  apply Complex.ext
  · rw [Complex.ofReal_re]; simp [cc]; ring
  · rw [Complex.ofReal_im]; simp [cc]; ring

theorem norm_one_sub (K x y : ℝ) : ‖1 - (K : ℂ) * ⟨-x, y⟩‖ ^ 2 = 1 + K * (2 * x) + K * K * (x ^ 2 + y ^ 2) := by
  rw [← Complex.normSq_eq_norm_sq, Complex.normSq_apply]
  simp
  ring

theorem proto_sq {Q : ℝ} (hQ : 1 / 2 < Q) : (1 / (2 * Q)) ^ 2 + Real.sqrt (1 - (1 / (2 * Q)) ^ 2) ^ 2 = 1 := by
  have hQ0 : 0 < 2 * Q := by linarith
  have h1 : 1 / (2 * Q) < 1 := by rw [div_lt_one hQ0]; linarith
  have h2 : 0 < 1 / (2 * Q) := by positivity
  rw [Real.sq_sqrt (by nlinarith)]
  ring

theorem proto_norm {Q : ℝ} (hQ : 1 / 2 < Q) : ‖proto Q‖ = 1 := by
  have : ‖proto Q‖ ^ 2 = 1 := by
    rw [← Complex.normSq_eq_norm_sq, Complex.normSq_apply, ← proto_sq hQ]
    simp only [proto]; ring
  have h0 := norm_nonneg (proto Q)
  nlinarith

theorem sec_roots {K Q : ℝ} (hQ : 1 / 2 < Q) (hK : 0 < K) :
    (sec1 K Q : ℂ) = -(bil (K * proto Q) + bil (cc (K * proto Q))) ∧
    (sec2 K Q : ℂ) = bil (K * proto Q) * bil (cc (K * proto Q)) := by
  have hre : (proto Q).re ≤ 0 := by
    have : 0 < 2 * Q := by linarith
    simp only [proto]; rw [neg_nonpos]; positivity
  have hre1 : ((K : ℂ) * proto Q).re ≤ 0 := by rw [scaled_re]; nlinarith
  obtain ⟨h1, h2⟩ := bil_pair (s := K * proto Q) (s' := cc (K * proto Q)) (pair_sum K _ _) (pair_prod K _ _)
    (one_sub_ne hre1) (one_sub_ne hre1)
  rw [h1, h2, proto_sq hQ]
  have hd := den_pos (K := K) hQ
  have e : (1 : ℂ) + ((K * (2 * (1 / (2 * Q))) : ℝ) : ℂ) + ((K * K * 1 : ℝ) : ℂ) = (den K Q : ℂ) := by
    rw [← Complex.ofReal_one, ← Complex.ofReal_add, ← Complex.ofReal_add]
    congr 1
    unfold den
    field_simp
  rw [e]
  constructor
  · rw [sec1]; push_cast; ring
  · rw [sec2]
    push_cast
    congr 1
    have : (Q : ℂ) ≠ 0 := by exact_mod_cast (by linarith : Q ≠ 0)
    field_simp

theorem gainH_bounds : 158486 / 100000 ≤ gainH ∧ gainH ≤ 158487 / 100000 := by
  have := abs_le.1 gainH_near
  constructor <;> norm_num at this ⊢ <;> linarith [this.1, this.2]

theorem gainB_bounds : 125872 / 100000 ≤ gainB ∧ gainB ≤ 125873 / 100000 := by
  have := abs_le.1 gainB_near
  constructor <;> norm_num at this ⊢ <;> linarith [this.1, this.2]

theorem protoZ_x : 5614 / 10000 ≤ gainB / (2 * q1 * gainH) ∧ gainB / (2 * q1 * gainH) ≤ 5617 / 10000 := by
  obtain ⟨h1, h2⟩ := gainH_bounds
  obtain ⟨b1, b2⟩ := gainB_bounds
  unfold q1
  have hp : (0 : ℝ) < 2 * (7071752369554196 / 10 ^ 16) * gainH := by positivity
  constructor
  · rw [le_div_iff₀ hp]; norm_num; linarith
  · rw [div_le_iff₀ hp]; norm_num; linarith

theorem protoZ_sq : (gainB / (2 * q1 * gainH)) ^ 2 + Real.sqrt (1 / gainH - (gainB / (2 * q1 * gainH)) ^ 2) ^ 2 =
    1 / gainH := by
  obtain ⟨h1, h2⟩ := gainH_bounds
  obtain ⟨x1, x2⟩ := protoZ_x
  have h3 : 6 / 10 ≤ 1 / gainH := by rw [le_div_iff₀ (by linarith)]; linarith
  rw [Real.sq_sqrt (by nlinarith)]
  ring

theorem num0_pos {K : ℝ} (hK : 0 < K) : 0 < num0 K ∧ num0 K ≤ gainH := by
  obtain ⟨h1, h2⟩ := gainH_bounds
  obtain ⟨b1, b2⟩ := gainB_bounds
  have hd := den_pos (K := K) q1_half
  have hq : 0 < q1 := by linarith [q1_half]
  have hk : 0 < K / q1 := by positivity
  have e : gainB * K / q1 = gainB * (K / q1) := by ring
  have hk2 : 0 < K * K := by positivity
  unfold num0
  rw [e]
  refine ⟨div_pos (by nlinarith) hd, ?_⟩
  rw [div_le_iff₀ hd, den]
  nlinarith

theorem num_roots {K : ℝ} (hK : 0 < K) :
    (num1 K : ℂ) = -(num0 K * (bil (K * protoZ) + bil (cc (K * protoZ)))) ∧
    (num2 K : ℂ) = num0 K * (bil (K * protoZ) * bil (cc (K * protoZ))) := by
  obtain ⟨h1, h2⟩ := gainH_bounds
  obtain ⟨x1, x2⟩ := protoZ_x
  have hre1 : ((K : ℂ) * protoZ).re ≤ 0 := by
    rw [scaled_re]; simp only [protoZ]; nlinarith
  obtain ⟨g1, g2⟩ := bil_pair (s := K * protoZ) (s' := cc (K * protoZ)) (pair_sum K _ _) (pair_prod K _ _)
    (one_sub_ne hre1) (one_sub_ne hre1)
  rw [g1, g2, protoZ_sq]
  have hd := den_pos (K := K) q1_half
  have hN := (num0_pos hK).1
  have hq : 0 < q1 := by linarith [q1_half]
  have hH : 0 < gainH := by linarith
  have e : (1 : ℂ) + ((K * (2 * (gainB / (2 * q1 * gainH))) : ℝ) : ℂ) + ((K * K * (1 / gainH) : ℝ) : ℂ) =
      ((num0 K * den K q1 / gainH : ℝ) : ℂ) := by
    rw [← Complex.ofReal_one, ← Complex.ofReal_add, ← Complex.ofReal_add]
    congr 1
    rw [num0, div_mul_cancel₀ _ hd.ne']
    field_simp
  rw [e]
  constructor
  · rw [← Complex.ofReal_one, ← Complex.ofReal_sub, show (2 : ℂ) = ((2 : ℝ) : ℂ) by norm_num, ← Complex.ofReal_mul,
      ← Complex.ofReal_div, ← Complex.ofReal_mul, ← Complex.ofReal_neg]
    congr 1
    rw [num1]
    field_simp
    ring
  · rw [← Complex.ofReal_one, ← Complex.ofReal_sub, ← Complex.ofReal_add,
      ← Complex.ofReal_div, ← Complex.ofReal_mul]
    congr 1
    rw [num2]
    field_simp

/-! ## Bounds at every rate from 8 kHz on -/

theorem tan1_bounds {rate : Nat} (hr : 8000 ≤ rate) : 5284 / rate ≤ tan1 rate ∧ tan1 rate ≤ 1 := by
  have hR : (8000 : ℝ) ≤ rate := by exact_mod_cast hr
  have hR0 : (0 : ℝ) < rate := by linarith
  have pi1 := Real.pi_gt_d2
  have pi2 := Real.pi_lt_d2
  have h1 : 5284 / (rate : ℝ) ≤ piC * (1681974450955533 / 10 ^ 12) / rate :=
    div_le_div_of_nonneg_right (by unfold piC; norm_num) hR0.le
  have h2 : piC * (1681974450955533 / 10 ^ 12) / rate ≤ 5285 / 8000 :=
    div_le_div₀ (by norm_num) (by unfold piC; norm_num) (by norm_num) hR
  have h0 : 0 < 5284 / (rate : ℝ) := by positivity
  unfold tan1
  generalize piC * (1681974450955533 / 10 ^ 12) / (rate : ℝ) = x at *
  refine ⟨h1.trans (Real.le_tan (by linarith) (by linarith)), ?_⟩
  rw [← Real.tan_pi_div_four]
  exact (Real.strictMonoOn_tan.monotoneOn) ⟨by linarith, by linarith⟩ ⟨by linarith, by linarith⟩ (by linarith)

theorem tan2_bounds {rate : Nat} (hr : 8000 ≤ rate) : 1198 / 10 / rate ≤ tan2 rate ∧ tan2 rate ≤ 15 / 1000 := by
  have hR : (8000 : ℝ) ≤ rate := by exact_mod_cast hr
  have hR0 : (0 : ℝ) < rate := by linarith
  have pi1 := Real.pi_gt_d2
  have pi2 := Real.pi_lt_d2
  have h1 : 1198 / 10 / (rate : ℝ) ≤ piC * (3813547087602444 / 10 ^ 14) / rate :=
    div_le_div_of_nonneg_right (by unfold piC; norm_num) hR0.le
  have h2 : piC * (3813547087602444 / 10 ^ 14) / rate ≤ piC * (3813547087602444 / 10 ^ 14) / (8000 : Nat) := by
    refine div_le_div_of_nonneg_left (by unfold piC; norm_num) (by norm_num) ?_
    push_cast; exact hR
  have h3 : piC * (3813547087602444 / 10 ^ 14) / (8000 : Nat) ≤ 1 := by unfold piC; norm_num
  have h0 : 0 < 1198 / 10 / (rate : ℝ) := by positivity
  have h8 := abs_le.1 tan2_8k
  have h9 : tan2 8000 ≤ 15 / 1000 := by norm_num at h8 ⊢; linarith [h8.2]
  refine ⟨?_, le_trans ?_ h9⟩
  · unfold tan2
    exact h1.trans (Real.le_tan (by linarith) (by linarith))
  · unfold tan2
    exact (Real.strictMonoOn_tan.monotoneOn) ⟨by linarith, by linarith⟩ ⟨by linarith, by linarith⟩ h2

theorem proto_re (Q : ℝ) : (proto Q).re = -(1 / (2 * Q)) := rfl

theorem proto_one_sub {K Q : ℝ} (hQ : 1 / 2 < Q) : ‖1 - (K : ℂ) * proto Q‖ ^ 2 = den K Q := by
  unfold proto
  rw [norm_one_sub, proto_sq hQ, den]
  have : Q ≠ 0 := by linarith
  field_simp

theorem section_gain {K Q : ℝ} (hQ : 1 / 2 < Q) (hK : 0 < K) :
    ‖bil (K * proto Q)‖ < 1 ∧ K / (Q * den K Q) ≤ 1 - ‖bil (K * proto Q)‖ := by
  have hQ0 : 0 < Q := by linarith
  have hre : ((K : ℂ) * proto Q).re = -(K / (2 * Q)) := by rw [scaled_re, proto_re]; ring
  have hre1 : ((K : ℂ) * proto Q).re < 0 := by rw [hre, neg_lt_zero]; positivity
  obtain ⟨h1, h2⟩ := bil_inside hre1
  rw [proto_one_sub hQ, hre] at h2
  refine ⟨h1, le_trans (le_of_eq ?_) h2⟩
  have := den_pos (K := K) hQ
  field_simp

theorem bil_cc (s : ℂ) : bil (cc s) = cc (bil s) := by
  have : ∀ z : ℂ, cc z = (starRingEnd ℂ) z := fun _ => rfl
  rw [this, this, bil, bil, map_div₀, map_add, map_sub, map_one]

/-- How much the state can be larger than the input. -/
noncomputable def Spec.stateGain (rate : Nat) : ℝ := (rate / 7400 + 2) ^ 2 * (rate / 239 + 2) ^ 2

noncomputable def poleAt (rate : Nat) : Fin 4 → ℂ :=
  ![bil (tan1 rate * proto q1), bil (cc (tan1 rate * proto q1)), bil (tan2 rate * proto q2),
    bil (cc (tan2 rate * proto q2))]

noncomputable def zeroAt (rate : Nat) : Fin 4 → ℂ :=
  ![bil (tan1 rate * protoZ), bil (cc (tan1 rate * protoZ)), 1, 1]

theorem poleAt_poles (bs : BSearch) (u : Nat) {rate : Nat} (hr : 8000 ≤ rate) :
    Poles (filterCoefficients (exactEnv bs u) ((exactEnv bs u).f64.ofInt rate)).2 (poleAt rate) := by
  have hR0 : (0 : ℝ) < rate := by exact_mod_cast (by omega : 0 < rate)
  have k1 : 0 < tan1 rate := lt_of_lt_of_le (by positivity) (tan1_bounds hr).1
  have k2 : 0 < tan2 rate := lt_of_lt_of_le (by positivity) (tan2_bounds hr).1
  obtain ⟨h2, h3⟩ := sec_roots q1_half k1
  obtain ⟨g2, g3⟩ := sec_roots q2_half k2
  unfold poleAt
  generalize bil (tan1 rate * proto q1) = r0 at *
  generalize bil (cc (tan1 rate * proto q1)) = r1 at *
  generalize bil (tan2 rate * proto q2) = r2 at *
  generalize bil (cc (tan2 rate * proto q2)) = r3 at *
  refine ⟨?_, ?_, ?_, ?_, ?_⟩
  · rw [coef_a]; push_cast; rw [h2, g2]; simp; ring
  · rw [coef_a]; push_cast; rw [h2, g2, h3, g3]; simp; ring
  · rw [coef_a]; push_cast; rw [h2, g2, h3, g3]; simp; ring
  · rw [coef_a]; push_cast; rw [h3, g3]; ring
  · intro z
    rw [quartic_a, h2, h3, g2, g3]; simp; ring

theorem poleAt_gain {rate : Nat} (hr : 8000 ≤ rate) (i : Fin 4) : ‖poleAt rate i‖ < 1 ∧
    1 / (1 - ‖poleAt rate i‖) ≤ if (i : Nat) < 2 then (rate / 7400 + 2 : ℝ) else rate / 239 + 2 := by
  have hR : (8000 : ℝ) ≤ rate := by exact_mod_cast hr
  have hR0 : (0 : ℝ) < rate := by linarith
  obtain ⟨l1, u1⟩ := tan1_bounds hr
  obtain ⟨l2, u2⟩ := tan2_bounds hr
  have k1 : 0 < tan1 rate := lt_of_lt_of_le (by positivity) l1
  have k2 : 0 < tan2 rate := lt_of_lt_of_le (by positivity) l2
  obtain ⟨p1, g1⟩ := section_gain q1_half k1
  obtain ⟨p2, g2⟩ := section_gain q2_half k2
  have inv : ∀ {K Q c d : ℝ}, 1 / 2 < Q → 0 < K → 0 < c → c / rate ≤ K → K / (Q * den K Q) ≤ d →
      1 / d ≤ Q * (rate / c) + 1 + Q * K := by
    intro K Q c d hQ hK hc hl hd
    have hQ0 : 0 < Q := by linarith
    have hden := den_pos (K := K) hQ
    have hp : 0 < K / (Q * den K Q) := by positivity
    have h1 : 1 / d ≤ 1 / (K / (Q * den K Q)) := one_div_le_one_div_of_le hp hd
    have h2 : 1 / (K / (Q * den K Q)) = Q * (1 / K) + 1 + Q * K := by
      unfold den at hden ⊢
      field_simp
    have h3 : 1 / K ≤ rate / c := by
      rw [div_le_div_iff₀ hK hc]
      rw [div_le_iff₀ hR0] at hl
      linarith
    have := mul_le_mul_of_nonneg_left h3 hQ0.le
    linarith
  have b1 := inv q1_half k1 (by norm_num) l1 g1
  have b2 := inv q2_half k2 (by norm_num) l2 g2
  have c1 : q1 * (rate / 5284) + 1 + q1 * tan1 rate ≤ rate / 7400 + 2 := by
    unfold q1; norm_num; linarith
  have c2 : q2 * (rate / (1198 / 10)) + 1 + q2 * tan2 rate ≤ rate / 239 + 2 := by
    unfold q2; norm_num; linarith
  fin_cases i
  · exact ⟨p1, by simpa [poleAt] using b1.trans c1⟩
  · simp only [poleAt, bil_cc]
    exact ⟨by simpa [cc_norm] using p1, by simpa [cc_norm] using b1.trans c1⟩
  · exact ⟨p2, by simpa [poleAt] using b2.trans c2⟩
  · simp only [poleAt, bil_cc]
    exact ⟨by simpa [cc_norm] using p2, by simpa [cc_norm] using b2.trans c2⟩

/-- The state of the filter, driven by a bounded input. -/
theorem state_le (bs : BSearch) (u : Nat) {rate : Nat} (hr : 8000 ≤ rate) {w x : ℕ → ℝ}
    (hw : let a := (filterCoefficients (exactEnv bs u) ((exactEnv bs u).f64.ofInt rate)).2
      ∀ n, w (n + 4) = x n - a.v1 * w (n + 3) - a.v2 * w (n + 2) - a.v3 * w (n + 1) - a.v4 * w n)
    (hz : ∀ n < 4, w n = 0) {F : ℝ} (hF : 0 ≤ F) {N : ℕ} (hx : ∀ n < N, |x n| ≤ F) :
    ∀ m ≤ N + 3, |w m| ≤ stateGain rate * F := by
  intro m hm
  have hR0 : (0 : ℝ) < rate := by exact_mod_cast (by omega : 0 < rate)
  have hp := poleAt_poles bs u hr
  generalize (filterCoefficients (exactEnv bs u) ((exactEnv bs u).f64.ofInt rate)).2 = a at *
  have h := state_prefix hp (fun i => (poleAt_gain hr i).1) (w := fun n => (w n : ℂ)) (x := fun n => (x n : ℂ))
    (fun n => by
      show ((w (n + 4) : ℝ) : ℂ) = _
      rw [hw n]; push_cast; ring) (fun n hn => by
      show ((w n : ℝ) : ℂ) = 0
      rw [hz n hn]; simp) hF (N := N) (fun n hn => by
      show ‖((x n : ℝ) : ℂ)‖ ≤ _
      rw [Complex.norm_real]; exact hx n hn) m hm
  simp only [Complex.norm_real, Real.norm_eq_abs] at h
  refine h.trans ?_
  have g : ∀ i, 0 < 1 - ‖poleAt rate i‖ := fun i => by linarith [(poleAt_gain hr i).1]
  have g0 := (poleAt_gain hr 0).2
  have g1 := (poleAt_gain hr 1).2
  have g2 := (poleAt_gain hr 2).2
  have g3 := (poleAt_gain hr 3).2
  rw [if_pos (by decide)] at g0 g1
  rw [if_neg (by decide)] at g2 g3
  have e : F / (1 - ‖poleAt rate 3‖) / (1 - ‖poleAt rate 2‖) / (1 - ‖poleAt rate 1‖) / (1 - ‖poleAt rate 0‖) =
      (1 / (1 - ‖poleAt rate 0‖)) * (1 / (1 - ‖poleAt rate 1‖)) *
        ((1 / (1 - ‖poleAt rate 2‖)) * (1 / (1 - ‖poleAt rate 3‖))) * F := by
    have := (g 0).ne'
    have := (g 1).ne'
    have := (g 2).ne'
    have := (g 3).ne'
    field_simp
  rw [e, stateGain, sq, sq]
  have q0 : ∀ i, 0 ≤ 1 / (1 - ‖poleAt rate i‖) := fun i => by
    have := g i
    positivity
  refine mul_le_mul_of_nonneg_right (mul_le_mul (mul_le_mul g0 g1 (q0 1) (by positivity))
    (mul_le_mul g2 g3 (q0 3) (by positivity)) (mul_nonneg (q0 2) (q0 3)) (by positivity)) hF

theorem protoZ_proto : ‖protoZ - proto q1‖ ≤ 22 / 100 := by
  obtain ⟨h1, h2⟩ := gainH_bounds
  obtain ⟨x1, x2⟩ := protoZ_x
  have y1 : 55 / 100 ≤ protoZ.im ∧ protoZ.im ≤ 57 / 100 := by
    have h3 : 1 / gainH ≤ 6310 / 10000 := by rw [div_le_iff₀ (by linarith)]; linarith
    have h4 : 6309 / 10000 ≤ 1 / gainH := by rw [le_div_iff₀ (by linarith)]; linarith
    simp only [protoZ]
    constructor
    · apply Real.le_sqrt_of_sq_le; nlinarith
    · rw [Real.sqrt_le_left (by norm_num)]; nlinarith
  have y2 : 70 / 100 ≤ (proto q1).im ∧ (proto q1).im ≤ 7073 / 10000 := by
    simp only [proto, q1]
    constructor
    · apply Real.le_sqrt_of_sq_le; norm_num
    · rw [Real.sqrt_le_left (by norm_num)]; norm_num
  have x3 : 707 / 1000 ≤ 1 / (2 * q1) ∧ 1 / (2 * q1) ≤ 7071 / 10000 := by unfold q1; constructor <;> norm_num
  have e : ‖protoZ - proto q1‖ ^ 2 = (1 / (2 * q1) - gainB / (2 * q1 * gainH)) ^ 2 + (protoZ.im - (proto q1).im) ^ 2 := by
    rw [← Complex.normSq_eq_norm_sq, Complex.normSq_apply]
    simp only [Complex.sub_re, Complex.sub_im, proto_re]
    rw [show protoZ.re = -(gainB / (2 * q1 * gainH)) from rfl]
    ring
  have b1 : (1 / (2 * q1) - gainB / (2 * q1 * gainH)) ^ 2 ≤ (1457 / 10000) ^ 2 := by
    apply sq_le_sq'
    · linarith
    · linarith
  have b2 : (protoZ.im - (proto q1).im) ^ 2 ≤ (1573 / 10000) ^ 2 := by
    apply sq_le_sq'
    · linarith [y1.1, y2.2]
    · linarith [y1.2, y2.1]
  by_contra hc
  push Not at hc
  nlinarith [norm_nonneg (protoZ - proto q1)]

theorem protoZ_one_sub {K : ℝ} : ‖1 - (K : ℂ) * protoZ‖ ^ 2 = num0 K * den K q1 / gainH := by
  unfold protoZ
  have hd := den_pos (K := K) q1_half
  obtain ⟨h1, h2⟩ := gainH_bounds
  have hq : 0 < q1 := by linarith [q1_half]
  rw [norm_one_sub, protoZ_sq, num0, div_mul_cancel₀ _ hd.ne']
  have : gainH ≠ 0 := by linarith
  field_simp

theorem pair_shelf {K : ℝ} (hK : 0 < K) : pair (bil (K * protoZ)) (bil (K * proto q1)) ≤ 14 / 10 := by
  obtain ⟨h1, h2⟩ := gainH_bounds
  obtain ⟨b1, b2⟩ := gainB_bounds
  obtain ⟨x1, x2⟩ := protoZ_x
  have hq : 0 < q1 := by linarith [q1_half]
  have hd := den_pos (K := K) q1_half
  have hre : ((K : ℂ) * proto q1).re = -(K / (2 * q1)) := by rw [scaled_re, proto_re]; ring
  have hre1 : ((K : ℂ) * proto q1).re < 0 := by rw [hre, neg_lt_zero]; positivity
  have hre2 : ((K : ℂ) * protoZ).re ≤ 0 := by rw [scaled_re]; simp only [protoZ]; nlinarith
  refine (pair_le hre1 hre2).trans ?_
  have p1 : 0 < ‖1 - (K : ℂ) * proto q1‖ := norm_pos_iff.2 (one_sub_ne hre1.le)
  have p2 : 0 < ‖1 - (K : ℂ) * protoZ‖ := norm_pos_iff.2 (one_sub_ne hre2)
  have s1 := proto_one_sub (K := K) q1_half
  have s2 := protoZ_one_sub (K := K)
  have hN : den K q1 ≤ num0 K * den K q1 := by
    rw [num0, div_mul_cancel₀ _ hd.ne', den]
    have : 0 < K / q1 := by positivity
    rw [show gainB * K / q1 = gainB * (K / q1) by ring]
    nlinarith
  have r : ‖1 - (K : ℂ) * proto q1‖ ≤ 126 / 100 * ‖1 - (K : ℂ) * protoZ‖ := by
    by_contra hc
    push Not at hc
    have h3 : (126 / 100 * ‖1 - (K : ℂ) * protoZ‖) ^ 2 < ‖1 - (K : ℂ) * proto q1‖ ^ 2 :=
      pow_lt_pow_left₀ hc (by positivity) (by norm_num)
    rw [mul_pow, s1, s2] at h3
    have h4 : (126 / 100) ^ 2 * (num0 K * den K q1 / gainH) = (126 / 100) ^ 2 / gainH * (num0 K * den K q1) := by ring
    have h5 : 1 ≤ (126 / 100) ^ 2 / gainH := by rw [le_div_iff₀ (by linarith)]; norm_num; linarith
    rw [h4] at h3
    nlinarith
  have e : ‖(K : ℂ) * protoZ - K * proto q1‖ = K * ‖protoZ - proto q1‖ := by
    rw [← mul_sub, norm_mul, Complex.norm_real, Real.norm_of_nonneg hK.le]
  rw [e, hre]
  have hm := protoZ_proto
  have f : K * ‖protoZ - proto q1‖ * ‖1 - (K : ℂ) * proto q1‖ / (- -(K / (2 * q1)) * ‖1 - (K : ℂ) * protoZ‖) =
      2 * q1 * ‖protoZ - proto q1‖ * (‖1 - (K : ℂ) * proto q1‖ / ‖1 - (K : ℂ) * protoZ‖) := by
    field_simp
  rw [f]
  have g : ‖1 - (K : ℂ) * proto q1‖ / ‖1 - (K : ℂ) * protoZ‖ ≤ 126 / 100 := by rw [div_le_iff₀ p2]; exact r
  have g0 : 0 ≤ ‖1 - (K : ℂ) * proto q1‖ / ‖1 - (K : ℂ) * protoZ‖ := by positivity
  have hq2 : 2 * q1 ≤ 1415 / 1000 := by unfold q1; norm_num
  have m1 : 2 * q1 * ‖protoZ - proto q1‖ ≤ 1415 / 1000 * (22 / 100) :=
    mul_le_mul hq2 hm (norm_nonneg _) (by norm_num)
  have m2 := mul_le_mul m1 g g0 (by norm_num)
  linarith

theorem pair_pass {K : ℝ} (hK : 0 < K) (hu : K ≤ 15 / 1000) : pair 1 (bil (K * proto q2)) ≤ 202 / 100 := by
  have hq : 0 < q2 := by linarith [q2_half]
  have hre : ((K : ℂ) * proto q2).re = -(K / (2 * q2)) := by rw [scaled_re, proto_re]; ring
  have hre1 : ((K : ℂ) * proto q2).re < 0 := by rw [hre, neg_lt_zero]; positivity
  have h := pair_le (z := 0) hre1 (by simp)
  rw [show bil 0 = 1 by simp [bil]] at h
  refine h.trans ?_
  have s1 := proto_one_sub (K := K) q2_half
  have hd : den K q2 ≤ 1031 / 1000 := by
    unfold den
    have : K / q2 ≤ 15 / 1000 / q2 := div_le_div_of_nonneg_right hu hq.le
    have : 15 / 1000 / q2 ≤ 30 / 1000 := by unfold q2; norm_num
    nlinarith
  have r : ‖1 - (K : ℂ) * proto q2‖ ≤ 1016 / 1000 := by
    by_contra hc
    push Not at hc
    nlinarith [norm_nonneg (1 - (K : ℂ) * proto q2)]
  have e : ‖(0 : ℂ) - K * proto q2‖ = K := by
    rw [zero_sub, norm_neg, norm_mul, proto_norm q2_half, Complex.norm_real, Real.norm_of_nonneg hK.le, mul_one]
  rw [e, hre, sub_zero, norm_one, mul_one]
  have f : K * ‖1 - (K : ℂ) * proto q2‖ / - -(K / (2 * q2)) = 2 * q2 * ‖1 - (K : ℂ) * proto q2‖ := by
    field_simp
  rw [f]
  have hq2 : 2 * q2 ≤ 1001 / 1000 := by unfold q2; norm_num
  have := mul_le_mul hq2 r (norm_nonneg _) (by norm_num)
  linarith

theorem pair_cc (z p : ℂ) : pair (cc z) (cc p) = pair z p := by
  unfold pair
  rw [cc_sub, cc_norm, cc_norm]

/-- The output of the filter, driven by a bounded input. -/
theorem out_le (bs : BSearch) (u : Nat) {rate : Nat} (hr : 8000 ≤ rate) {w x : ℕ → ℝ}
    (hw : let a := (filterCoefficients (exactEnv bs u) ((exactEnv bs u).f64.ofInt rate)).2
      ∀ n, w (n + 4) = x n - a.v1 * w (n + 3) - a.v2 * w (n + 2) - a.v3 * w (n + 1) - a.v4 * w n)
    (hz : ∀ n < 4, w n = 0) {F : ℝ} (hx : ∀ n, |x n| ≤ F) (n : ℕ) :
    let b := (filterCoefficients (exactEnv bs u) ((exactEnv bs u).f64.ofInt rate)).1
    |b.v0 * w (n + 4) + b.v1 * w (n + 3) + b.v2 * w (n + 2) + b.v3 * w (n + 1) + b.v4 * w n| ≤ 13 * F := by
  have hF : 0 ≤ F := (abs_nonneg _).trans (hx 0)
  have hR0 : (0 : ℝ) < rate := by exact_mod_cast (by omega : 0 < rate)
  obtain ⟨l1, u1⟩ := tan1_bounds hr
  obtain ⟨l2, u2⟩ := tan2_bounds hr
  have k1 : 0 < tan1 rate := lt_of_lt_of_le (by positivity) l1
  have k2 : 0 < tan2 rate := lt_of_lt_of_le (by positivity) l2
  have hp := poleAt_poles bs u hr
  generalize (filterCoefficients (exactEnv bs u) ((exactEnv bs u).f64.ofInt rate)).2 = a at *
  have h := shaped hp (fun i => (poleAt_gain hr i).1) (w := fun n => (w n : ℂ)) (x := fun n => (x n : ℂ))
    (fun n => by
      show ((w (n + 4) : ℝ) : ℂ) = _
      rw [hw n]; push_cast; ring) (fun n hn => by
      show ((w n : ℝ) : ℂ) = 0
      rw [hz n hn]; simp) (F := F) (fun n => by
      show ‖((x n : ℝ) : ℂ)‖ ≤ _
      rw [Complex.norm_real]; exact hx n) (zeroAt rate) n
  intro b
  obtain ⟨n1, n2⟩ := num_roots k1
  obtain ⟨m1, m2⟩ := num0_pos k1
  have e : ((b.v0 * w (n + 4) + b.v1 * w (n + 3) + b.v2 * w (n + 2) + b.v3 * w (n + 1) + b.v4 * w n : ℝ) : ℂ) =
      num0 (tan1 rate) * peel (zeroAt rate 0) (peel (zeroAt rate 1) (peel (zeroAt rate 2) (peel (zeroAt rate 3)
        fun n => (w n : ℂ)))) n := by
    have z0 : zeroAt rate 0 = bil (tan1 rate * protoZ) := rfl
    have z1 : zeroAt rate 1 = bil (cc (tan1 rate * protoZ)) := rfl
    have z2 : zeroAt rate 2 = 1 := rfl
    have z3 : zeroAt rate 3 = 1 := rfl
    rw [z0, z1, z2, z3]
    show (((filterCoefficients (exactEnv bs u) ((exactEnv bs u).f64.ofInt rate)).1.v0 * w (n + 4) + _ + _ + _ + _ : ℝ) : ℂ) = _
    dsimp only [b]
    rw [coef_b]
    push_cast
    rw [n1, n2]
    simp only [peel]
    ring
  have e2 := congrArg norm e
  rw [Complex.norm_real, Real.norm_eq_abs, norm_mul, Complex.norm_real, Real.norm_of_nonneg m1.le] at e2
  rw [e2]
  have q0 : pair (zeroAt rate 0) (poleAt rate 0) ≤ 14 / 10 := pair_shelf k1
  have q1' : pair (zeroAt rate 1) (poleAt rate 1) ≤ 14 / 10 := by
    show pair (bil (cc (tan1 rate * protoZ))) (bil (cc (tan1 rate * proto q1))) ≤ _
    rw [bil_cc, bil_cc, pair_cc]
    exact pair_shelf k1
  have q2' : pair (zeroAt rate 2) (poleAt rate 2) ≤ 202 / 100 := pair_pass k2 u2
  have q3 : pair (zeroAt rate 3) (poleAt rate 3) ≤ 202 / 100 := by
    show pair 1 (bil (cc (tan2 rate * proto q2))) ≤ _
    have : pair 1 (cc (bil (tan2 rate * proto q2))) = pair (cc 1) (cc (bil (tan2 rate * proto q2))) := by
      congr 1
      apply Complex.ext <;> simp [cc]
    rw [bil_cc, this, pair_cc]
    exact pair_pass k2 u2
  have p0 : ∀ i, 0 ≤ pair (zeroAt rate i) (poleAt rate i) := fun i => pair_nonneg (poleAt_gain hr i).1
  have t3 := mul_le_mul_of_nonneg_right q3 hF
  have t2 := mul_le_mul q2' t3 (mul_nonneg (p0 3) hF) (by norm_num)
  have t1 := mul_le_mul q1' t2 (mul_nonneg (p0 2) (mul_nonneg (p0 3) hF)) (by norm_num)
  have t0 := mul_le_mul q0 t1 (mul_nonneg (p0 1) (mul_nonneg (p0 2) (mul_nonneg (p0 3) hF))) (by norm_num)
  have hh := gainH_bounds.2
  have := mul_le_mul (m2.trans hh) (h.trans t0) (norm_nonneg _) (by norm_num)
  refine this.trans ?_
  nlinarith

end Verif
