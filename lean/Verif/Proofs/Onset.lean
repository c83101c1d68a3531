import Verif.Proofs.Noise
import Verif.Props.C54
/-!
# The filter at the onset of a sinusoid

The response of the K-weighting filter to a sinusoid starting from silence is the steady response plus a transient.
The sum of the magnitudes of the transient is bounded by taking the poles one at a time, each with a zero.
-/

namespace Verif
open Spec

/-- `v` is the sinusoid `F z ^ n` with `‖F‖ ≤ B`, up to a transient: with weights `s ^ n` its magnitudes sum to at
most `T`, and each is at most `D`. -/
structure Onset (s : ℝ) (z : ℂ) (B T D : ℝ) (F : ℂ) (v : ℕ → ℂ) : Prop where
  gain : ‖F‖ ≤ B
  total : ∀ N, ∑ n ∈ Finset.range N, ‖v n - F * z ^ n‖ * s ^ n ≤ T
  peak : ∀ n, ‖v n - F * z ^ n‖ ≤ D

/-- One pole and one zero. -/
theorem Onset.stage {s : ℝ} {z p c : ℂ} {B T D k M e : ℝ} {F : ℂ} {g : ℕ → ℂ} (h : Onset s z B T D F (peel p g))
    (hs : 1 ≤ s) (h0 : g 0 = 0) (hz : ‖z‖ = 1) (hp : ‖p‖ * s < 1) (hk : ‖c - p‖ ≤ k * (1 - ‖p‖ * s))
    (hM : 1 ≤ M * ‖z - p‖) (he : ‖c - p‖ ≤ e * ‖z - p‖) :
    Onset s z ((1 + e) * B) ((1 + k * s) * T + k * (M * B)) ((1 + k) * D + e * B) (F * ((z - c) / (z - p)))
      (peel c g) := by
  have s0 : 0 < s := by linarith
  have hq : 0 < 1 - ‖p‖ * s := by linarith
  have hp1 : ‖p‖ < 1 := by
    have := norm_nonneg p
    nlinarith
  have hq1 : 0 < 1 - ‖p‖ := by linarith
  have hqs : 1 - ‖p‖ * s ≤ 1 - ‖p‖ := by
    have := norm_nonneg p
    nlinarith
  have hzp : z - p ≠ 0 := fun h => by
    rw [sub_eq_zero.1 h] at hz
    linarith
  have d0 : 0 < ‖z - p‖ := norm_pos_iff.2 hzp
  have B0 : 0 ≤ B := (norm_nonneg _).trans h.gain
  have T0 : 0 ≤ T := by simpa using h.total 0
  have D0 : 0 ≤ D := (norm_nonneg _).trans (h.peak 0)
  have k0 : 0 ≤ k := by
    have := (norm_nonneg (c - p)).trans hk
    by_contra hc
    push Not at hc
    nlinarith
  have e0 : 0 ≤ e := by
    have := (norm_nonneg (c - p)).trans he
    by_contra hc
    push Not at hc
    nlinarith
  have M0 : 0 < M := by
    by_contra hc
    push Not at hc
    nlinarith
  -- the state without its sinusoid
  let γ : ℕ → ℂ := fun n => g n - F / (z - p) * z ^ n
  let τ : ℕ → ℂ := fun n => peel p g n - F * z ^ n
  have γ0 : ‖γ 0‖ ≤ M * B := by
    have : γ 0 = -(F / (z - p)) := by simp [γ, h0]
    rw [this, norm_neg, norm_div, div_le_iff₀ d0]
    calc ‖F‖ ≤ B * 1 := by rw [mul_one]; exact h.gain
      _ ≤ B * (M * ‖z - p‖) := mul_le_mul_of_nonneg_left hM B0
      _ = _ := by ring
  have hrec : ∀ n, γ (n + 1) = p * γ n + τ n := fun n => by
    simp only [γ, τ, peel]
    field_simp
    ring
  have hrec' : ∀ n, ‖γ (n + 1)‖ ≤ ‖p‖ * ‖γ n‖ + ‖τ n‖ := fun n => by
    rw [hrec]
    refine (norm_add_le _ _).trans ?_
    rw [norm_mul]
  have out : ∀ n, peel c g n - F * ((z - c) / (z - p)) * z ^ n = τ n + (p - c) * γ n := fun n => by
    simp only [γ, τ, peel]
    field_simp
    ring
  have out' : ∀ n, ‖peel c g n - F * ((z - c) / (z - p)) * z ^ n‖ ≤ ‖τ n‖ + ‖c - p‖ * ‖γ n‖ := fun n => by
    rw [out]
    refine (norm_add_le _ _).trans ?_
    rw [norm_mul, norm_sub_rev p c]
  -- its sum
  have sum : ∀ N, (1 - ‖p‖ * s) * ∑ n ∈ Finset.range N, ‖γ n‖ * s ^ n ≤ M * B + s * T := by
    have key : ∀ N, ∑ n ∈ Finset.range (N + 1), ‖γ n‖ * s ^ n ≤
        M * B + ‖p‖ * s * ∑ n ∈ Finset.range N, ‖γ n‖ * s ^ n + s * ∑ n ∈ Finset.range N, ‖τ n‖ * s ^ n := by
      intro N
      rw [Finset.sum_range_succ', Finset.mul_sum, Finset.mul_sum, add_assoc, ← Finset.sum_add_distrib, add_comm]
      refine add_le_add (by simpa using γ0) (Finset.sum_le_sum fun n _ => ?_)
      have := mul_le_mul_of_nonneg_right (hrec' n) (by positivity : 0 ≤ s ^ (n + 1))
      refine this.trans (le_of_eq ?_)
      rw [pow_succ]
      ring
    intro N
    have h1 := key N
    have h2 := mul_le_mul_of_nonneg_left (h.total N) s0.le
    have h3 : ∑ n ∈ Finset.range N, ‖γ n‖ * s ^ n ≤ ∑ n ∈ Finset.range (N + 1), ‖γ n‖ * s ^ n := by
      rw [Finset.sum_range_succ]
      have : 0 ≤ ‖γ N‖ * s ^ N := by positivity
      linarith
    have h4 : s * ∑ n ∈ Finset.range N, ‖τ n‖ * s ^ n ≤ s * T := h2
    linarith
  have peak : ∀ n, (1 - ‖p‖) * ‖γ n‖ ≤ (1 - ‖p‖) * (M * B) + D ∧ ‖γ n‖ ≤ ‖F‖ / ‖z - p‖ + D / (1 - ‖p‖) := by
    have key : ∀ n, ‖γ n‖ ≤ ‖F‖ / ‖z - p‖ + D / (1 - ‖p‖) := by
      intro n
      have c0 : 0 ≤ ‖F‖ / ‖z - p‖ := by positivity
      have c1 : 0 ≤ D / (1 - ‖p‖) := by positivity
      induction n with
      | zero =>
        have : γ 0 = -(F / (z - p)) := by simp [γ, h0]
        rw [this, norm_neg, norm_div]
        linarith
      | succ n ih =>
        have h1 := hrec' n
        have h2 : ‖τ n‖ ≤ D := h.peak n
        have h3 := mul_le_mul_of_nonneg_left ih (norm_nonneg p)
        have h4 : ‖p‖ * (D / (1 - ‖p‖)) + D = D / (1 - ‖p‖) := by field_simp; ring
        have h5 : ‖p‖ * (‖F‖ / ‖z - p‖) ≤ ‖F‖ / ‖z - p‖ := by nlinarith
        linarith
    intro n
    refine ⟨?_, key n⟩
    have h1 := mul_le_mul_of_nonneg_left (key n) hq1.le
    have h2 : (1 - ‖p‖) * (D / (1 - ‖p‖)) = D := by field_simp
    have h3 : ‖F‖ / ‖z - p‖ ≤ M * B := by
      rw [div_le_iff₀ d0]
      calc ‖F‖ ≤ B * 1 := by rw [mul_one]; exact h.gain
        _ ≤ B * (M * ‖z - p‖) := mul_le_mul_of_nonneg_left hM B0
        _ = _ := by ring
    have h4 := mul_le_mul_of_nonneg_left h3 hq1.le
    linarith
  refine ⟨?_, fun N => ?_, fun n => ?_⟩
  · rw [norm_mul, norm_div, mul_comm]
    refine mul_le_mul ?_ h.gain (norm_nonneg _) (by linarith)
    rw [div_le_iff₀ d0]
    have : ‖z - c‖ ≤ ‖z - p‖ + ‖c - p‖ := by
      rw [show z - c = (z - p) - (c - p) by ring]
      exact norm_sub_le _ _
    linarith
  · have h1 : ∑ n ∈ Finset.range N, ‖peel c g n - F * ((z - c) / (z - p)) * z ^ n‖ * s ^ n ≤
        ∑ n ∈ Finset.range N, ‖τ n‖ * s ^ n + ‖c - p‖ * ∑ n ∈ Finset.range N, ‖γ n‖ * s ^ n := by
      rw [Finset.mul_sum, ← Finset.sum_add_distrib]
      refine Finset.sum_le_sum fun n _ => ?_
      have := mul_le_mul_of_nonneg_right (out' n) (by positivity : 0 ≤ s ^ n)
      linarith
    have S0 : 0 ≤ ∑ n ∈ Finset.range N, ‖γ n‖ * s ^ n := Finset.sum_nonneg fun n _ => by positivity
    have h2 := mul_le_mul_of_nonneg_right hk S0
    have h3 := mul_le_mul_of_nonneg_left (sum N) k0
    have h4 : ∑ n ∈ Finset.range N, ‖τ n‖ * s ^ n ≤ T := h.total N
    nlinarith
  · have h1 := out' n
    have h2 : ‖τ n‖ ≤ D := h.peak n
    have h3 := mul_le_mul_of_nonneg_left (peak n).2 (norm_nonneg (c - p))
    have h4 : ‖c - p‖ * (‖F‖ / ‖z - p‖) ≤ e * B := by
      rw [← mul_div_assoc, div_le_iff₀ d0]
      have := mul_le_mul he h.gain (norm_nonneg _) (by positivity)
      linarith
    have h5 : ‖c - p‖ * (D / (1 - ‖p‖)) ≤ k * D := by
      rw [← mul_div_assoc, div_le_iff₀ hq1]
      have := mul_le_mul_of_nonneg_right (hk.trans (mul_le_mul_of_nonneg_left hqs k0)) D0
      linarith
    linarith

/-- Four poles and four zeros, a sinusoid from silence. -/
theorem onset_all {a : V5 ℝ} {r : Fin 4 → ℂ} (h : Poles a r) {w : ℕ → ℂ} {z : ℂ} (hz : ‖z‖ = 1)
    (hw : ∀ n, w (n + 4) = z ^ n - a.v1 * w (n + 3) - a.v2 * w (n + 2) - a.v3 * w (n + 1) - a.v4 * w n)
    (h0 : ∀ n < 4, w n = 0) {s : ℝ} (hs : 1 ≤ s) (c : Fin 4 → ℂ) {k M e : Fin 4 → ℝ}
    (hp : ∀ i, ‖r i‖ * s < 1) (hk : ∀ i, ‖c i - r i‖ ≤ k i * (1 - ‖r i‖ * s))
    (hM : ∀ i, 1 ≤ M i * ‖z - r i‖) (he : ∀ i, ‖c i - r i‖ ≤ e i * ‖z - r i‖) :
    Onset s z ((1 + e 0) * ((1 + e 1) * ((1 + e 2) * (1 + e 3))))
      ((1 + k 0 * s) * ((1 + k 1 * s) * ((1 + k 2 * s) * (k 3 * M 3) + k 2 * (M 2 * (1 + e 3))) +
        k 1 * (M 1 * ((1 + e 2) * (1 + e 3)))) + k 0 * (M 0 * ((1 + e 1) * ((1 + e 2) * (1 + e 3)))))
      ((1 + k 0) * ((1 + k 1) * ((1 + k 2) * e 3 + e 2 * (1 + e 3)) + e 1 * ((1 + e 2) * (1 + e 3))) +
        e 0 * ((1 + e 1) * ((1 + e 2) * (1 + e 3))))
      ((z - c 3) / (z - r 3) * ((z - c 2) / (z - r 2)) * ((z - c 1) / (z - r 1)) * ((z - c 0) / (z - r 0)))
      (peel (c 0) (peel (c 1) (peel (c 2) (peel (c 3) w)))) := by
  have w0 := h0 0 (by omega)
  have w1 := h0 1 (by omega)
  have w2 := h0 2 (by omega)
  have w3 := h0 3 (by omega)
  have s4 : Onset s z 1 0 0 1 (peel (r 3) (peel (r 2) (peel (r 1) (peel (r 0) w)))) :=
    ⟨by simp, fun N => by simp [peel_all h hw], fun n => by simp [peel_all h hw]⟩
  have s3 := s4.stage hs (by simp [peel, w0, w1, w2, w3]) hz (hp 3) (hk 3) (hM 3) (he 3)
  rw [peel_comm (c 3)] at s3
  have s2 := s3.stage hs (by simp [peel, w0, w1, w2, w3]) hz (hp 2) (hk 2) (hM 2) (he 2)
  rw [peel_comm (c 3), peel_comm (c 2)] at s2
  have s1 := s2.stage hs (by simp [peel, w0, w1, w2, w3]) hz (hp 1) (hk 1) (hM 1) (he 1)
  rw [peel_comm (c 3), peel_comm (c 2), peel_comm (c 1)] at s1
  have s0 := s1.stage hs (by simp [peel, w0, w1, w2, w3]) hz (hp 0) (hk 0) (hM 0) (he 0)
  simpa only [mul_one, mul_zero, zero_add, one_mul] using s0

/-! ## Signals -/

/-- The complex amplitude at time `n` of a sinusoid whose amplitude changes by `a` at time `t`, for each `(t, a)`. -/
noncomputable def Spec.amplitude (steps : List (ℕ × ℂ)) (n : ℕ) : ℂ :=
  (steps.map fun x => if x.1 ≤ n then x.2 else 0).sum

/-- The sinusoid itself. -/
noncomputable def Spec.stepped (steps : List (ℕ × ℂ)) (z : ℂ) (n : ℕ) : ℝ := (amplitude steps n * z ^ n).re

/-- The state of the filter for a complex signal. -/
noncomputable def stateW (a : V5 ℝ) (u : ℕ → ℂ) (n : ℕ) : ℂ :=
  ⟨stateSeq a (fun n => (u n).re) n, stateSeq a (fun n => (u n).im) n⟩

theorem stateW_rec (a : V5 ℝ) (u : ℕ → ℂ) (n : ℕ) :
    stateW a u (n + 4) = u n - a.v1 * stateW a u (n + 3) - a.v2 * stateW a u (n + 2) -
      a.v3 * stateW a u (n + 1) - a.v4 * stateW a u n := by
  apply Complex.ext
  · simp [stateW, stateSeq_rec a _ n]
  · simp [stateW, stateSeq_rec a _ n]

theorem stateW_zero (a : V5 ℝ) (u : ℕ → ℂ) {n : ℕ} (h : n < 4) : stateW a u n = 0 := by
  apply Complex.ext <;> simp [stateW, stateSeq_zero a _ h]

/-- The state is determined by its recursion. -/
theorem stateW_unique {a : V5 ℝ} {u w : ℕ → ℂ}
    (hw : ∀ n, w (n + 4) = u n - a.v1 * w (n + 3) - a.v2 * w (n + 2) - a.v3 * w (n + 1) - a.v4 * w n)
    (h0 : ∀ n < 4, w n = 0) (n : ℕ) : stateW a u n = w n := by
  induction n using Nat.strong_induction_on with
  | _ n ih =>
    by_cases hn : n < 4
    · rw [stateW_zero a u hn, h0 n hn]
    · obtain ⟨k, rfl⟩ : ∃ k, n = k + 4 := ⟨n - 4, by omega⟩
      rw [stateW_rec, hw, ih (k + 3) (by omega), ih (k + 2) (by omega), ih (k + 1) (by omega), ih k (by omega)]

/-- The output of the filter for a complex signal. -/
noncomputable def outW (b a : V5 ℝ) (u : ℕ → ℂ) (n : ℕ) : ℂ :=
  b.v0 * stateW a u (n + 4) + b.v1 * stateW a u (n + 3) + b.v2 * stateW a u (n + 2) + b.v3 * stateW a u (n + 1) +
    b.v4 * stateW a u n

theorem outW_re (b a : V5 ℝ) (u : ℕ → ℂ) (n : ℕ) : (outW b a u n).re =
    b.v0 * stateSeq a (fun n => (u n).re) (n + 4) + b.v1 * stateSeq a (fun n => (u n).re) (n + 3) +
      b.v2 * stateSeq a (fun n => (u n).re) (n + 2) + b.v3 * stateSeq a (fun n => (u n).re) (n + 1) +
      b.v4 * stateSeq a (fun n => (u n).re) n := by
  simp [outW, stateW]

/-- The state for a sinusoid with steps: each step brings the state of a sinusoid starting there. -/
theorem stateW_steps (a : V5 ℝ) (z : ℂ) (steps : List (ℕ × ℂ)) (n : ℕ) :
    stateW a (fun n => amplitude steps n * z ^ n) n =
      (steps.map fun x => x.2 * z ^ x.1 * stateW a (z ^ ·) (n - x.1)).sum := by
  refine stateW_unique (w := fun n => (steps.map fun x => x.2 * z ^ x.1 * stateW a (z ^ ·) (n - x.1)).sum)
    (fun n => ?_) (fun n hn => ?_) n
  · induction steps with
    | nil => simp [amplitude]
    | cons x l ih =>
      have e : stateW a (z ^ ·) (n + 4 - x.1) = (if x.1 ≤ n then z ^ (n - x.1) else 0) -
          a.v1 * stateW a (z ^ ·) (n + 3 - x.1) - a.v2 * stateW a (z ^ ·) (n + 2 - x.1) -
          a.v3 * stateW a (z ^ ·) (n + 1 - x.1) - a.v4 * stateW a (z ^ ·) (n - x.1) := by
        by_cases h : x.1 ≤ n
        · obtain ⟨k, rfl⟩ := Nat.exists_eq_add_of_le h
          rw [if_pos h]
          have := stateW_rec a (z ^ ·) k
          simpa only [show x.1 + k + 4 - x.1 = k + 4 by omega, show x.1 + k + 3 - x.1 = k + 3 by omega,
            show x.1 + k + 2 - x.1 = k + 2 by omega, show x.1 + k + 1 - x.1 = k + 1 by omega,
            show x.1 + k - x.1 = k by omega] using this
        · rw [if_neg h, stateW_zero a _ (show n + 4 - x.1 < 4 by omega),
            stateW_zero a _ (show n + 3 - x.1 < 4 by omega), stateW_zero a _ (show n + 2 - x.1 < 4 by omega),
            stateW_zero a _ (show n + 1 - x.1 < 4 by omega), stateW_zero a _ (show n - x.1 < 4 by omega)]
          simp
      have f : amplitude (x :: l) n * z ^ n = x.2 * z ^ x.1 * (if x.1 ≤ n then z ^ (n - x.1) else 0) +
          amplitude l n * z ^ n := by
        unfold amplitude
        rw [List.map_cons, List.sum_cons]
        by_cases h : x.1 ≤ n
        · obtain ⟨k, rfl⟩ := Nat.exists_eq_add_of_le h
          rw [if_pos h, if_pos h, Nat.add_sub_cancel_left, pow_add]
          ring
        · rw [if_neg h, if_neg h]
          ring
      rw [List.map_cons, List.sum_cons, ih, e, f]
      simp only [List.map_cons, List.sum_cons]
      ring
  · refine List.sum_eq_zero fun y hy => ?_
    obtain ⟨x, -, rfl⟩ := List.mem_map.1 hy
    rw [stateW_zero a _ (by omega), mul_zero]

theorem outW_steps (b a : V5 ℝ) (z : ℂ) (steps : List (ℕ × ℂ)) (n : ℕ) :
    outW b a (fun n => amplitude steps n * z ^ n) n =
      (steps.map fun x => if x.1 ≤ n then x.2 * z ^ x.1 * outW b a (z ^ ·) (n - x.1) else 0).sum := by
  unfold outW
  simp only [stateW_steps]
  induction steps with
  | nil => simp
  | cons x l ih =>
    simp only [List.map_cons, List.sum_cons] at ih ⊢
    rw [← ih]
    by_cases h : x.1 ≤ n
    · obtain ⟨k, rfl⟩ := Nat.exists_eq_add_of_le h
      rw [if_pos h]
      simp only [show x.1 + k + 4 - x.1 = k + 4 by omega, show x.1 + k + 3 - x.1 = k + 3 by omega,
            show x.1 + k + 2 - x.1 = k + 2 by omega, show x.1 + k + 1 - x.1 = k + 1 by omega,
            show x.1 + k - x.1 = k by omega]
      ring
    · rw [if_neg h, stateW_zero a _ (show n + 4 - x.1 < 4 by omega),
            stateW_zero a _ (show n + 3 - x.1 < 4 by omega), stateW_zero a _ (show n + 2 - x.1 < 4 by omega),
            stateW_zero a _ (show n + 1 - x.1 < 4 by omega), stateW_zero a _ (show n - x.1 < 4 by omega)]
      ring

/-- The transients of all the steps. -/
theorem steps_near (b a : V5 ℝ) {z H : ℂ} (hz : ‖z‖ = 1) {δ : ℕ → ℝ} (hδ : ∀ n, ‖outW b a (z ^ ·) n - H * z ^ n‖ ≤ δ n)
    (steps : List (ℕ × ℂ)) (n : ℕ) :
    ‖outW b a (fun n => amplitude steps n * z ^ n) n - H * (amplitude steps n * z ^ n)‖ ≤
      (steps.map fun x => if x.1 ≤ n then ‖x.2‖ * δ (n - x.1) else 0).sum := by
  rw [outW_steps]
  unfold amplitude
  induction steps with
  | nil => simp
  | cons x l ih =>
    simp only [List.map_cons, List.sum_cons] at ih ⊢
    rw [add_mul, mul_add, add_sub_add_comm]
    refine (norm_add_le _ _).trans (add_le_add ?_ ih)
    by_cases h : x.1 ≤ n
    · obtain ⟨k, rfl⟩ := Nat.exists_eq_add_of_le h
      rw [if_pos h, if_pos h, if_pos h, Nat.add_sub_cancel_left]
      have e : x.2 * z ^ x.1 * outW b a (z ^ ·) k - H * (x.2 * z ^ (x.1 + k)) =
          x.2 * z ^ x.1 * (outW b a (z ^ ·) k - H * z ^ k) := by
        rw [pow_add]; ring
      rw [e, norm_mul, norm_mul, norm_pow, hz, one_pow, mul_one]
      exact mul_le_mul_of_nonneg_left (hδ k) (norm_nonneg _)
    · rw [if_neg h, if_neg h, if_neg h]
      simp

/-! ## The filter of the code -/

/-- The output, through poles and zeros. -/
theorem out_peel (bs : BSearch) (u : Nat) {rate : Nat} (hr : 8000 ≤ rate) (w : ℕ → ℂ) (n : ℕ) :
    let b := (filterCoefficients (exactEnv bs u) ((exactEnv bs u).f64.ofInt rate)).1
    b.v0 * w (n + 4) + b.v1 * w (n + 3) + b.v2 * w (n + 2) + b.v3 * w (n + 1) + b.v4 * w n =
      num0 (tan1 rate) * peel (zeroAt rate 0) (peel (zeroAt rate 1) (peel (zeroAt rate 2) (peel (zeroAt rate 3) w))) n := by
  have hR0 : (0 : ℝ) < rate := by exact_mod_cast (by omega : 0 < rate)
  have k1 : 0 < tan1 rate := lt_of_lt_of_le (by positivity) (tan1_bounds hr).1
  obtain ⟨n1, n2⟩ := num_roots k1
  have z0 : zeroAt rate 0 = bil (tan1 rate * protoZ) := rfl
  have z1 : zeroAt rate 1 = bil (cc (tan1 rate * protoZ)) := rfl
  have z2 : zeroAt rate 2 = 1 := rfl
  have z3 : zeroAt rate 3 = 1 := rfl
  rw [z0, z1, z2, z3]
  intro b
  dsimp only [b]
  rw [coef_b]
  push_cast
  rw [n1, n2]
  simp only [peel]
  ring

theorem pairs_le {rate : Nat} (hr : 8000 ≤ rate) (i : Fin 4) :
    pair (zeroAt rate i) (poleAt rate i) ≤ if (i : Nat) < 2 then 14 / 10 else 202 / 100 := by
  have hR0 : (0 : ℝ) < rate := by exact_mod_cast (by omega : 0 < rate)
  obtain ⟨l1, u1⟩ := tan1_bounds hr
  obtain ⟨l2, u2⟩ := tan2_bounds hr
  have k1 : 0 < tan1 rate := lt_of_lt_of_le (by positivity) l1
  have k2 : 0 < tan2 rate := lt_of_lt_of_le (by positivity) l2
  fin_cases i
  · exact (pair_shelf k1).trans (by norm_num)
  · show pair (bil (cc (tan1 rate * protoZ))) (bil (cc (tan1 rate * proto q1))) ≤ _
    rw [bil_cc, bil_cc, pair_cc]
    exact (pair_shelf k1).trans (by norm_num)
  · exact (pair_pass k2 u2).trans (by norm_num)
  · show pair 1 (bil (cc (tan2 rate * proto q2))) ≤ _
    have : pair 1 (cc (bil (tan2 rate * proto q2))) = pair (cc 1) (cc (bil (tan2 rate * proto q2))) := by
      congr 1
      apply Complex.ext <;> simp [cc]
    rw [bil_cc, this, pair_cc]
    exact (pair_pass k2 u2).trans (by norm_num)

/-- The distance between a pole and its zero, against the distance of the pole from the circle. -/
theorem zero_pole {rate : Nat} (hr : 8000 ≤ rate) (i : Fin 4) :
    ‖zeroAt rate i - poleAt rate i‖ ≤ (if (i : Nat) < 2 then 4 / 10 else 102 / 100) * (1 - ‖poleAt rate i‖) := by
  have h := pairs_le hr i
  have hp := (poleAt_gain hr i).1
  have : 0 < 1 - ‖poleAt rate i‖ := by linarith
  unfold pair at h
  rw [← div_le_iff₀ this]
  split_ifs at h ⊢ <;> linarith

theorem circle_pole {z p : ℂ} (hz : ‖z‖ = 1) : 1 - ‖p‖ ≤ ‖z - p‖ := by
  have := norm_sub_norm_le z p
  linarith

theorem transfer_peel (bs : BSearch) (u : Nat) {rate : Nat} (hr : 8000 ≤ rate) {z : ℂ} (hz : ‖z‖ = 1) :
    transfer (filterCoefficients (exactEnv bs u) ((exactEnv bs u).f64.ofInt rate)) z = num0 (tan1 rate) *
      ((z - zeroAt rate 3) / (z - poleAt rate 3) * ((z - zeroAt rate 2) / (z - poleAt rate 2)) *
        ((z - zeroAt rate 1) / (z - poleAt rate 1)) * ((z - zeroAt rate 0) / (z - poleAt rate 0))) := by
  have hd : ∀ i, z - poleAt rate i ≠ 0 := fun i h => by
    have h1 := circle_pole (p := poleAt rate i) hz
    have h2 := (poleAt_gain hr i).1
    rw [h, norm_zero] at h1
    linarith
  have hb := out_peel bs u hr (z ^ ·) 0
  unfold transfer
  rw [(poleAt_poles bs u hr).root]
  have e : quartic (filterCoefficients (exactEnv bs u) ((exactEnv bs u).f64.ofInt rate)).1 z =
      num0 (tan1 rate) * ((z - zeroAt rate 3) * (z - zeroAt rate 2) * (z - zeroAt rate 1) * (z - zeroAt rate 0)) := by
    have hb := out_peel bs u hr (z ^ ·) 0
    simp only [peel] at hb
    unfold quartic
    simp only [zero_add, pow_zero, pow_one] at hb
    rw [mul_one] at hb
    rw [hb]
    ring
  rw [e]
  have := hd 0
  have := hd 1
  have := hd 2
  have := hd 3
  field_simp

/-- A sinusoid from silence, at any rate from 8 kHz on. -/
theorem onset_at (bs : BSearch) (u : Nat) {rate : Nat} (hr : 8000 ≤ rate) {z : ℂ} (hz : ‖z‖ = 1) {s : ℝ} (hs : 1 ≤ s)
    {k M e : Fin 4 → ℝ} (hp : ∀ i, ‖poleAt rate i‖ * s < 1)
    (hk : ∀ i, ‖zeroAt rate i - poleAt rate i‖ ≤ k i * (1 - ‖poleAt rate i‖ * s))
    (hM : ∀ i, 1 ≤ M i * ‖z - poleAt rate i‖) (he : ∀ i, ‖zeroAt rate i - poleAt rate i‖ ≤ e i * ‖z - poleAt rate i‖) :
    let f := filterCoefficients (exactEnv bs u) ((exactEnv bs u).f64.ofInt rate)
    (∀ N, ∑ n ∈ Finset.range N, ‖outW f.1 f.2 (z ^ ·) n - transfer f z * z ^ n‖ * s ^ n ≤ 159 / 100 *
      ((1 + k 0 * s) * ((1 + k 1 * s) * ((1 + k 2 * s) * (k 3 * M 3) + k 2 * (M 2 * (1 + e 3))) +
        k 1 * (M 1 * ((1 + e 2) * (1 + e 3)))) + k 0 * (M 0 * ((1 + e 1) * ((1 + e 2) * (1 + e 3)))))) ∧
    ∀ n, ‖outW f.1 f.2 (z ^ ·) n - transfer f z * z ^ n‖ ≤ 159 / 100 *
      ((1 + k 0) * ((1 + k 1) * ((1 + k 2) * e 3 + e 2 * (1 + e 3)) + e 1 * ((1 + e 2) * (1 + e 3))) +
        e 0 * ((1 + e 1) * ((1 + e 2) * (1 + e 3)))) := by
  intro f
  have hR0 : (0 : ℝ) < rate := by exact_mod_cast (by omega : 0 < rate)
  have k1 : 0 < tan1 rate := lt_of_lt_of_le (by positivity) (tan1_bounds hr).1
  obtain ⟨m1, m2⟩ := num0_pos k1
  have m3 : num0 (tan1 rate) ≤ 159 / 100 := (m2.trans gainH_bounds.2).trans (by norm_num)
  have main := onset_all (poleAt_poles bs u hr) hz (stateW_rec _ (z ^ ·)) (fun n hn => stateW_zero _ _ hn) hs
    (zeroAt rate) hp hk hM he
  have eq : ∀ n, ‖outW f.1 f.2 (z ^ ·) n - transfer f z * z ^ n‖ = num0 (tan1 rate) *
      ‖peel (zeroAt rate 0) (peel (zeroAt rate 1) (peel (zeroAt rate 2) (peel (zeroAt rate 3)
        (stateW f.2 (z ^ ·))))) n - (z - zeroAt rate 3) / (z - poleAt rate 3) * ((z - zeroAt rate 2) / (z - poleAt rate 2)) *
        ((z - zeroAt rate 1) / (z - poleAt rate 1)) * ((z - zeroAt rate 0) / (z - poleAt rate 0)) * z ^ n‖ := fun n => by
    have e1 : outW f.1 f.2 (z ^ ·) n = num0 (tan1 rate) * peel (zeroAt rate 0) (peel (zeroAt rate 1)
        (peel (zeroAt rate 2) (peel (zeroAt rate 3) (stateW f.2 (z ^ ·))))) n := out_peel bs u hr _ n
    have e2 : transfer f z = _ := transfer_peel bs u hr hz
    rw [e1, e2, mul_assoc, ← mul_sub, norm_mul, Complex.norm_real, Real.norm_of_nonneg m1.le]
  constructor
  · intro N
    have h := main.total N
    have h0 := (Finset.sum_nonneg fun n (_ : n ∈ Finset.range N) => by positivity).trans h
    calc _ = num0 (tan1 rate) * ∑ n ∈ Finset.range N, _ := by
          rw [Finset.mul_sum]
          exact Finset.sum_congr rfl fun n _ => by rw [eq n, mul_assoc]
      _ ≤ num0 (tan1 rate) * _ := mul_le_mul_of_nonneg_left h m1.le
      _ ≤ _ := mul_le_mul_of_nonneg_right m3 h0
  · intro n
    rw [eq n]
    have h := main.peak n
    exact (mul_le_mul_of_nonneg_left h m1.le).trans
      (mul_le_mul_of_nonneg_right m3 ((norm_nonneg _).trans h))

end Verif
