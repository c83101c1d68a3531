import Verif.Proofs.CRefCoeff
import Verif.Proofs.FilterErr
import Verif.Proofs.SoftErr
/-! # The error of one interpolated sample, in the crate and in the C reference -/

namespace Verif
open Fl Spec
variable {m : Libm F64} {bs : BSearch} {t : Target}

/-- The relative error of rounding to `f32`, with some room. -/
noncomputable def unit32 : ℝ := 33 / 32 / 2 ^ 24

/-- The error of a converted sample of magnitude at most `M`. -/
noncomputable def convErr (M : ℝ) : ℝ := M * (2 * unit32) + 1 / 2 ^ 124

/-! ## The crate -/

/-- One step of the accumulation. -/
theorem scaleAdd_tight {acc x c : F32} {A X k e M L : ℝ} (hM : M ≤ 2 ^ 100) (hacc : App acc A e)
    (he : e ≤ M / 2 ^ 14 + 1 / 2 ^ 110) (hx : App x X (convErr M)) (hX : |X| ≤ M)
    (hc : App c k (|k| * (33 / 32 / 2 ^ 24) + 33 / 32 / 2 ^ 27)) (hk : |k| ≤ 1) (hA : |A + k * X| ≤ M * L) (hL : L ≤ 24) :
    App ((ieeeEnv m bs t).scaleAdd acc x c) (A + k * X)
      (e + M * (4 * unit32 * |k| + unit32 * L + 9 / 8 / 2 ^ 27) + 1 / 2 ^ 119) := by
  have t3 := top32
  have M0 : 0 ≤ M := (abs_nonneg _).trans hX
  have K0 := abs_nonneg k
  have e0 : 0 ≤ e := (abs_nonneg _).trans hacc.2
  have hML : M * L ≤ 24 * M := by
    rw [_root_.mul_comm]
    exact mul_le_mul_of_nonneg_right hL M0
  have hMK : M * |k| ≤ M := by
    have := mul_le_mul_of_nonneg_left hk M0
    linarith
  have hMK0 : 0 ≤ M * |k| := mul_nonneg M0 K0
  have es : (ieeeEnv m bs t).scaleAdd acc x c =
      if t.fused then Fl.flush t (Fl.fma x c acc) else Fl.flush t (Fl.add acc (Fl.flush t (Fl.mul x c))) := by
    show (if t.fused then _ else _) = _
    unfold Fl.flush
    cases t.sse2 <;> rfl
  rw [es]
  unfold convErr unit32 at *
  set K := |k| with hK
  have q2 : M * (3 * (33 / 32 / 2 ^ 24) * K + 35 / 32 / 2 ^ 27) =
    3 * (33 / 32 / 2 ^ 24) * (M * K) + M * (35 / 32 / 2 ^ 27) := by ring
  have q3 : M * (4 * (33 / 32 / 2 ^ 24) * K + 71 / 64 / 2 ^ 27) =
    4 * (33 / 32 / 2 ^ 24) * (M * K) + M * (71 / 64 / 2 ^ 27) := by ring
  have q4 : M * (4 * (33 / 32 / 2 ^ 24) * K + 33 / 32 / 2 ^ 24 * L + 9 / 8 / 2 ^ 27) =
    4 * (33 / 32 / 2 ^ 24) * (M * K) + 33 / 32 / 2 ^ 24 * (M * L) + M * (9 / 8 / 2 ^ 27) := by ring
  have e2 : |x.value * c.value - k * X| ≤ M * (3 * (33 / 32 / 2 ^ 24) * K + 35 / 32 / 2 ^ 27) + 1 / 2 ^ 121 := by
    rw [show x.value * c.value - k * X = X * (c.value - k) + (x.value - X) * k + (x.value - X) * (c.value - k) by ring]
    have h1 : |X * (c.value - k)| ≤ M * (K * (33 / 32 / 2 ^ 24) + 33 / 32 / 2 ^ 27) := by
      rw [abs_mul]; exact mul_le_mul hX hc.2 (abs_nonneg _) M0
    have h2 : |(x.value - X) * k| ≤ (M * (2 * (33 / 32 / 2 ^ 24)) + 1 / 2 ^ 124) * K := by
      rw [abs_mul]; exact mul_le_mul_of_nonneg_right hx.2 K0
    have h3 : |(x.value - X) * (c.value - k)| ≤
        (M * (2 * (33 / 32 / 2 ^ 24)) + 1 / 2 ^ 124) * (K * (33 / 32 / 2 ^ 24) + 33 / 32 / 2 ^ 27) := by
      rw [abs_mul]; exact mul_le_mul hx.2 hc.2 (abs_nonneg _) ((abs_nonneg _).trans hx.2)
    refine (abs_add_le _ _).trans ((add_le_add ((abs_add_le _ _).trans (add_le_add h1 h2)) h3).trans ?_)
    have : (M * (2 * (33 / 32 / 2 ^ 24)) + 1 / 2 ^ 124) * K + (M * (2 * (33 / 32 / 2 ^ 24)) + 1 / 2 ^ 124) * (K * (33 / 32 / 2 ^ 24) + 33 / 32 / 2 ^ 27) =
      M * K * (2 * (33 / 32 / 2 ^ 24)) + K / 2 ^ 124 + M * K * (2 * (33 / 32 / 2 ^ 24) ^ 2) + K / 2 ^ 124 * (33 / 32 / 2 ^ 24) +
        M * (2 * (33 / 32 / 2 ^ 24)) * (33 / 32 / 2 ^ 27) + 1 / 2 ^ 124 * (33 / 32 / 2 ^ 27) := by ring
    clear q2 q3 q4
    generalize M * K = MK at *
    norm_num at *
    nlinarith
  have hkX : |k * X| ≤ M * K := by
    rw [abs_mul, _root_.mul_comm]; exact mul_le_mul_of_nonneg_right hX K0
  have hp : |x.value * c.value| ≤ M * K + (M * (3 * (33 / 32 / 2 ^ 24) * K + 35 / 32 / 2 ^ 27) + 1 / 2 ^ 121) := by
    have := abs_add_le (x.value * c.value - k * X) (k * X)
    rw [sub_add_cancel] at this
    linarith
  by_cases hfu : t.fused = true
  · rw [if_pos hfu]
    have h1 : |x.value * c.value + acc.value - (A + k * X)| ≤
        e + (M * (3 * (33 / 32 / 2 ^ 24) * K + 35 / 32 / 2 ^ 27) + 1 / 2 ^ 121) := by
      rw [show x.value * c.value + acc.value - (A + k * X) = (acc.value - A) + (x.value * c.value - k * X) by ring]
      exact (abs_add_le _ _).trans (add_le_add hacc.2 e2)
    have h2 : |x.value * c.value + acc.value| ≤
        M * L + (e + (M * (3 * (33 / 32 / 2 ^ 24) * K + 35 / 32 / 2 ^ 27) + 1 / 2 ^ 121)) := by
      have := abs_add_le (x.value * c.value + acc.value - (A + k * X)) (A + k * X)
      rw [sub_add_cancel] at this
      linarith
    have hf := fma_finite Fmt.ok32 hx.1 hc.1 hacc.1 (h2.trans (_root_.le_trans (by
      rw [q2]
      clear q2 q3 q4
      generalize M * K = MK at *
      generalize M * L = ML at *
      norm_num at *
      linarith) t3))
    have h3 := (App.tight tight32 hf (fma_err Fmt.ok32.mb hx.1 hc.1 hacc.1 hf) h1 h2).flush t
    refine h3.mono ?_
    rw [flush_err32, eps32, eta32]
    rw [q2, q4]
    clear q2 q3 q4
    generalize M * K = MK at *
    generalize M * L = ML at *
    norm_num at *
    linarith
  · rw [if_neg hfu]
    have hf := mul_finite Fmt.ok32 hx.1 hc.1 (hp.trans (_root_.le_trans (by
      rw [q2]
      clear q2 q3 q4
      generalize M * K = MK at *
      norm_num at *
      linarith) t3))
    have h1 := ((App.tight tight32 hf (mul_err Fmt.ok32.mb hx.1 hc.1 hf) e2 hp).flush t).mono
      (e' := M * (4 * (33 / 32 / 2 ^ 24) * K + 71 / 64 / 2 ^ 27) + 1 / 2 ^ 120) (by
      rw [flush_err32, eps32, eta32]
      rw [q2, q3]
      clear q2 q3 q4
      generalize M * K = MK at *
      norm_num at *
      linarith)
    have h3 := (hacc.add_tight Fmt.ok32 tight32 h1 hA (_root_.le_trans (by
      rw [q3]
      clear q2 q3 q4
      generalize M * K = MK at *
      generalize M * L = ML at *
      norm_num at *
      linarith) t3)).flush t
    refine h3.mono ?_
    rw [flush_err32, eps32, eta32]
    rw [q3, q4]
    clear q2 q3 q4
    generalize M * K = MK at *
    generalize M * L = ML at *
    norm_num at *
    linarith

/-- The sum of the magnitudes of the first `n` coefficients of phase `k`. -/
noncomputable def partAbs (factor k n : Nat) : ℝ := ∑ i ∈ Finset.range n, |kernel factor (i * factor + k)|

theorem partAbs_nonneg (factor k n : Nat) : 0 ≤ partAbs factor k n := Finset.sum_nonneg fun _ _ => abs_nonneg _

theorem partAbs_le (factor k n : Nat) : partAbs factor k n ≤ n := by
  refine (Finset.sum_le_sum fun i _ => kernel_abs factor (i * factor + k)).trans ?_
  simp

theorem partAbs_succ (factor k n : Nat) : partAbs factor k (n + 1) = partAbs factor k n + |kernel factor (n * factor + k)| :=
  Finset.sum_range_succ _ _

/-- The sum of those sums. -/
noncomputable def partSums (factor k n : Nat) : ℝ := ∑ j ∈ Finset.range n, partAbs factor k (j + 1)

theorem partSums_le {factor k n : Nat} (hn : n ≤ 24) : partSums factor k n ≤ 24 * n := by
  refine (Finset.sum_le_sum (g := fun _ => (24 : ℝ)) fun j hj => ?_).trans ?_
  · rw [Finset.mem_range] at hj
    refine (partAbs_le _ _ _).trans ?_
    exact_mod_cast (by omega : j + 1 ≤ 24)
  · rw [Finset.sum_const, Finset.card_range, nsmul_eq_mul, _root_.mul_comm]

theorem sum_abs_le {factor k n : Nat} {X : Nat → ℝ} {M : ℝ} (hX : ∀ i < n, |X i| ≤ M) :
    |∑ i ∈ Finset.range n, kernel factor (i * factor + k) * X i| ≤ M * partAbs factor k n := by
  refine (Finset.abs_sum_le_sum_abs _ _).trans ?_
  unfold partAbs
  rw [Finset.mul_sum]
  refine Finset.sum_le_sum fun i hi => ?_
  rw [abs_mul, _root_.mul_comm]
  exact mul_le_mul_of_nonneg_right (hX i (Finset.mem_range.1 hi)) (abs_nonneg _)

theorem kernel_sumsZ : ∀ factor, factor = 2 ∨ factor = 4 → ∀ k < factor,
    (4 * ∑ i ∈ Finset.range (48 / factor), (|kernelZ factor (i * factor + k)| + 2)) +
      (∑ n ∈ Finset.range (48 / factor), ∑ i ∈ Finset.range (n + 1), (|kernelZ factor (i * factor + k)| + 2)) ≤ 38500000000 := by
  rintro factor (rfl | rfl) <;> decide +kernel

theorem partAbs_Z {factor k n : Nat} (hf : factor = 2 ∨ factor = 4) (hk : k < factor) (hn : n ≤ 48 / factor) :
    partAbs factor k n ≤ ((∑ i ∈ Finset.range n, (|kernelZ factor (i * factor + k)| + 2) : ℤ) : ℝ) / 10 ^ 9 := by
  unfold partAbs
  push_cast
  rw [Finset.sum_div]
  refine Finset.sum_le_sum fun i hi => ?_
  rw [Finset.mem_range] at hi
  have := kernel_near (factor := factor) (j := i * factor + k) hf (by rcases hf with rfl | rfl <;> omega)
  have h2 := abs_add_le (kernel factor (i * factor + k) - kernelZ factor (i * factor + k) / 10 ^ 9)
    ((kernelZ factor (i * factor + k) : ℝ) / 10 ^ 9)
  rw [sub_add_cancel, abs_div, abs_of_pos (show (0 : ℝ) < 10 ^ 9 by positivity)] at h2
  rw [add_div]
  linarith

theorem kernel_sums {factor k : Nat} (hf : factor = 2 ∨ factor = 4) (hk : k < factor) :
    4 * partAbs factor k (48 / factor) + partSums factor k (48 / factor) ≤ 77 / 2 := by
  have h1 := partAbs_Z hf hk (n := 48 / factor) _root_.le_rfl
  have h2 : partSums factor k (48 / factor) ≤ ((∑ n ∈ Finset.range (48 / factor), ∑ i ∈ Finset.range (n + 1),
      (|kernelZ factor (i * factor + k)| + 2) : ℤ) : ℝ) / 10 ^ 9 := by
    unfold partSums
    rw [Int.cast_sum, Finset.sum_div]
    refine Finset.sum_le_sum fun j hj => ?_
    rw [Finset.mem_range] at hj
    exact partAbs_Z hf hk (by omega)
  have h3 := kernel_sumsZ factor hf k hk
  generalize (∑ i ∈ Finset.range (48 / factor), (|kernelZ factor (i * factor + k)| + 2)) = a at *
  generalize (∑ n ∈ Finset.range (48 / factor), ∑ i ∈ Finset.range (n + 1), (|kernelZ factor (i * factor + k)| + 2)) = b at *
  have h4 : 4 * (a : ℝ) + b ≤ 38500000000 := by exact_mod_cast h3
  norm_num at *
  linarith

/-- **An interpolated sample of the crate.** -/
theorem rust_sample (hm : TrigWithin m (1 / 2 ^ 30)) {factor k : Nat} (hf : factor = 2 ∨ factor = 4) (hk : k < factor)
    {M : ℝ} (hM0 : 0 ≤ M) (hM : M ≤ 2 ^ 100) {x : Nat → F32} {X : Nat → ℝ}
    (hx : ∀ i < 48 / factor, App (x i) (X i) (convErr M) ∧ |X i| ≤ M) :
    App ((List.range (48 / factor)).foldl (fun acc i => (ieeeEnv m bs t).scaleAdd acc (x i)
        (interpCoeff (ieeeEnv m bs t) factor (i * factor + k))) (ieeeEnv m bs t).f32p.zero)
      (∑ i ∈ Finset.range (48 / factor), kernel factor (i * factor + k) * X i) (M * (26 / 10 ^ 7) + 1 / 2 ^ 114) := by
  have h24 : 48 / factor ≤ 24 := by rcases hf with rfl | rfl <;> decide
  have key : ∀ n ≤ 48 / factor, App ((List.range n).foldl (fun acc i => (ieeeEnv m bs t).scaleAdd acc (x i)
        (interpCoeff (ieeeEnv m bs t) factor (i * factor + k))) (ieeeEnv m bs t).f32p.zero)
      (∑ i ∈ Finset.range n, kernel factor (i * factor + k) * X i)
      (M * (4 * unit32 * partAbs factor k n + unit32 * partSums factor k n + n * (9 / 8 / 2 ^ 27)) + n / 2 ^ 119) := by
    intro n
    induction n with
    | zero =>
      intro _
      rw [List.range_zero, List.foldl_nil, Finset.range_zero, Finset.sum_empty, zero32]
      refine ⟨zero32_finite, ?_⟩
      rw [value_zero]
      simp [partAbs, partSums]
    | succ n ih =>
      intro hn
      have h1 := ih (by omega)
      have hj : n * factor + k < 48 := by
        have : (n + 1) * factor ≤ 48 / factor * factor := Nat.mul_le_mul_right _ hn
        have := Nat.div_mul_le_self 48 factor
        nlinarith
      have hc := rust_coeff_app (bs := bs) (t := t) hm hf hj
      have nR : (n : ℝ) ≤ 24 := by exact_mod_cast (by omega : n ≤ 24)
      have he : M * (4 * unit32 * partAbs factor k n + unit32 * partSums factor k n + n * (9 / 8 / 2 ^ 27)) + n / 2 ^ 119 ≤
          M / 2 ^ 14 + 1 / 2 ^ 110 := by
        have a1 := partAbs_le factor k n
        have a2 := partSums_le (factor := factor) (k := k) (n := n) (by omega)
        have : 4 * unit32 * partAbs factor k n + unit32 * partSums factor k n + n * (9 / 8 / 2 ^ 27) ≤ 1 / 2 ^ 14 := by
          unfold unit32
          norm_num
          linarith
        have := mul_le_mul_of_nonneg_left this hM0
        have h9 : (n : ℝ) / 2 ^ 119 ≤ 1 / 2 ^ 110 := by
          norm_num
          linarith
        linarith
      have hA : |(∑ i ∈ Finset.range n, kernel factor (i * factor + k) * X i) + kernel factor (n * factor + k) * X n| ≤
          M * partAbs factor k (n + 1) := by
        have := sum_abs_le (factor := factor) (k := k) (n := n + 1) (X := X) (M := M) fun i hi => (hx i (by omega)).2
        rwa [Finset.sum_range_succ] at this
      have hL : partAbs factor k (n + 1) ≤ 24 := by
        refine (partAbs_le _ _ _).trans ?_
        exact_mod_cast (by omega : n + 1 ≤ 24)
      have := scaleAdd_tight (m := m) (bs := bs) (t := t) hM h1 he (hx n (by omega)).1 (hx n (by omega)).2 hc
        (kernel_abs _ _) hA hL
      rw [List.range_succ, List.foldl_append, Finset.sum_range_succ]
      refine this.mono (le_of_eq ?_)
      rw [show partSums factor k (n + 1) = partSums factor k n + partAbs factor k (n + 1) from Finset.sum_range_succ _ _,
        partAbs_succ]
      push_cast
      ring
  refine (key _ _root_.le_rfl).mono ?_
  have h3 : ((48 / factor : Nat) : ℝ) ≤ 24 := by exact_mod_cast h24
  have h4 := kernel_sums hf hk
  have : 4 * unit32 * partAbs factor k (48 / factor) + unit32 * partSums factor k (48 / factor) +
      (48 / factor : Nat) * (9 / 8 / 2 ^ 27) ≤ 26 / 10 ^ 7 := by
    have : 4 * unit32 * partAbs factor k (48 / factor) + unit32 * partSums factor k (48 / factor) =
      unit32 * (4 * partAbs factor k (48 / factor) + partSums factor k (48 / factor)) := by ring
    rw [this]
    have := mul_le_mul_of_nonneg_left h4 (show 0 ≤ unit32 by unfold unit32; positivity)
    refine (add_le_add this (mul_le_mul_of_nonneg_right h3 (by positivity))).trans ?_
    unfold unit32
    norm_num
  refine add_le_add (mul_le_mul_of_nonneg_left this hM0) ?_
  generalize ((48 / factor : Nat) : ℝ) = N at *
  norm_num
  linarith

/-! ## The C reference -/

/-- One step of the accumulation. -/
theorem cAdd_tight {acc c : F64} {x : F32} {A X k e M : ℝ} (hM : M ≤ 2 ^ 100) (hacc : App acc A e)
    (he : e ≤ M / 2 ^ 14 + 1 / 2 ^ 110) (hx : App x X (convErr M)) (hX : |X| ≤ M)
    (hc : App c k (1 / 2 ^ 28)) (hk : |k| ≤ 1) (hA : |A + k * X| ≤ M * 32) :
    App ((ieeeEnv m bs t).f64p.add acc ((ieeeEnv m bs t).f64p.mul ((ieeeEnv m bs t).widen x) c)) (A + k * X)
      (e + M * (2 * unit32 * |k| + 9 / 8 / 2 ^ 28) + 1 / 2 ^ 119) := by
  have t1 := eta64
  have t2 := top64
  have t3 := tiny64
  have M0 : 0 ≤ M := (abs_nonneg _).trans hX
  have K0 := abs_nonneg k
  have e0 : 0 ≤ e := (abs_nonneg _).trans hacc.2
  have hMK : M * |k| ≤ M := by
    have := mul_le_mul_of_nonneg_left hk M0
    linarith
  have hMK0 : 0 ≤ M * |k| := mul_nonneg M0 K0
  rw [ieee_p_add, ieee_p_mul, ieee_widen, _root_.mul_comm k X]
  rw [_root_.mul_comm k X] at hA
  generalize (2 : ℝ) * 2 ^ Fmt.b64.mb / 2 ^ Fmt.b64.u = z at t3
  unfold convErr unit32 at *
  set K := |k| with hK
  have w := (hx.cast Fmt.ok64 hX (_root_.le_trans (by norm_num at *; linarith) t2)).mono
    (e' := M * (2 * (33 / 32 / 2 ^ 24) + 1 / 2 ^ 50) + 1 / 2 ^ 123) (by rw [eps64]; norm_num at *; linarith)
  have p0 : (M + (M * (2 * (33 / 32 / 2 ^ 24) + 1 / 2 ^ 50) + 1 / 2 ^ 123)) * (K + 1 / 2 ^ 28) ≤ 2 * M + 1 / 2 ^ 110 := by
    have : (M + (M * (2 * (33 / 32 / 2 ^ 24) + 1 / 2 ^ 50) + 1 / 2 ^ 123)) * (K + 1 / 2 ^ 28) =
      M * K * (1 + (2 * (33 / 32 / 2 ^ 24) + 1 / 2 ^ 50)) + K / 2 ^ 123 +
      (M + (M * (2 * (33 / 32 / 2 ^ 24) + 1 / 2 ^ 50) + 1 / 2 ^ 123)) / 2 ^ 28 := by ring
    rw [this]
    generalize M * K = MK at *
    norm_num at *
    linarith
  have hp := ((w.mul_tight Fmt.ok64 tight64 hc hX (_root_.le_refl K) (p0.trans (_root_.le_trans (by
    norm_num at *; linarith) t2))).flush t).mono
    (e' := M * (2 * (33 / 32 / 2 ^ 24) * K + 17 / 16 / 2 ^ 28) + 1 / 2 ^ 120) (by
      have q := mul_le_mul_of_nonneg_left p0 (show (0 : ℝ) ≤ 33 / 32 * eps Fmt.b64 by rw [eps64]; norm_num)
      have t4 := tiny64
      rw [eps64] at q ⊢
      have q1 : M * (1 / 2 ^ 28) + (M * (2 * (33 / 32 / 2 ^ 24) + 1 / 2 ^ 50) + 1 / 2 ^ 123) * K +
        (M * (2 * (33 / 32 / 2 ^ 24) + 1 / 2 ^ 50) + 1 / 2 ^ 123) * (1 / 2 ^ 28) =
        M / 2 ^ 28 + (M * K) * (2 * (33 / 32 / 2 ^ 24) + 1 / 2 ^ 50) + K / 2 ^ 123 +
        (M * (2 * (33 / 32 / 2 ^ 24) + 1 / 2 ^ 50) + 1 / 2 ^ 123) / 2 ^ 28 := by ring
      have q2 : M * (2 * (33 / 32 / 2 ^ 24) * K + 17 / 16 / 2 ^ 28) = 2 * (33 / 32 / 2 ^ 24) * (M * K) + M * (17 / 16 / 2 ^ 28) := by ring
      rw [q1, q2]
      generalize (2 : ℝ) * 2 ^ Fmt.b64.mb / 2 ^ Fmt.b64.u = z at *
      generalize (M + (M * (2 * (33 / 32 / 2 ^ 24) + 1 / 2 ^ 50) + 1 / 2 ^ 123)) * (K + 1 / 2 ^ 28) = Q at *
      generalize M * K = MK at *
      clear q1 q2 w hx hc hacc hA
      norm_num at *
      linarith)
  have q2 : M * (2 * (33 / 32 / 2 ^ 24) * K + 17 / 16 / 2 ^ 28) = 2 * (33 / 32 / 2 ^ 24) * (M * K) + M * (17 / 16 / 2 ^ 28) := by ring
  have q3 : M * (2 * (33 / 32 / 2 ^ 24) * K + 9 / 8 / 2 ^ 28) = 2 * (33 / 32 / 2 ^ 24) * (M * K) + M * (9 / 8 / 2 ^ 28) := by ring
  refine ((hacc.add_tight Fmt.ok64 tight64 hp hA (_root_.le_trans ?_ t2)).flush t).mono ?_
  · rw [q2]
    generalize M * K = MK at *
    clear q2 q3 p0 w hx hc hacc hA
    norm_num at *
    linarith
  · have t4 := tiny64
    rw [eps64]
    rw [q2, q3]
    generalize (2 : ℝ) * 2 ^ Fmt.b64.mb / 2 ^ Fmt.b64.u = z at *
    generalize M * K = MK at *
    clear q2 q3 p0 w hx hc hacc hA
    norm_num at *
    linarith

/-- Accumulating over a list of taps. -/
theorem c_fold (hm : TrigWithin m (1 / 2 ^ 30)) {factor : Nat} (hf : factor = 2 ∨ factor = 4) {M : ℝ} (hM0 : 0 ≤ M)
    (hM : M ≤ 2 ^ 100) {x : Nat → F32} {X : Nat → ℝ} {js : List Nat} (hl : js.length ≤ 25) (hj : ∀ j ∈ js, j < 49)
    (hx : ∀ j ∈ js, App (x (j / factor)) (X (j / factor)) (convErr M) ∧ |X (j / factor)| ≤ M) :
    App (js.foldl (fun acc j => (ieeeEnv m bs t).f64p.add acc ((ieeeEnv m bs t).f64p.mul
        ((ieeeEnv m bs t).widen (x (j / factor))) (CRef.interpCoeff (ieeeEnv m bs t) 49 factor j)))
        (ieeeEnv m bs t).f64p.zero)
      (js.map fun j => kernel factor j * X (j / factor)).sum
      (M * (2 * unit32 * (js.map fun j => |kernel factor j|).sum + js.length * (9 / 8 / 2 ^ 28)) + js.length / 2 ^ 119) ∧
    |(js.map fun j => kernel factor j * X (j / factor)).sum| ≤ M * (js.map fun j => |kernel factor j|).sum ∧
    (js.map fun j => |kernel factor j|).sum ≤ js.length := by
  induction js using List.reverseRecOn with
  | nil =>
    refine ⟨?_, by simp, by simp⟩
    rw [List.foldl_nil, ieee_p_zero]
    refine ⟨zero64_finite, ?_⟩
    rw [value_zero]
    simp
  | append_singleton js j ih =>
    rw [List.length_append, List.length_singleton] at hl
    obtain ⟨h1, h2, h3⟩ := ih (by omega) (fun i hi => hj i (List.mem_append_left _ hi))
      (fun i hi => hx i (List.mem_append_left _ hi))
    have hjm : j ∈ js ++ [j] := List.mem_append_right _ (List.mem_singleton_self j)
    obtain ⟨hx1, hx2⟩ := hx j hjm
    have hka := kernel_abs factor j
    have nR : (js.length : ℝ) ≤ 24 := by exact_mod_cast (by omega : js.length ≤ 24)
    have hs0 : 0 ≤ (js.map fun j => |kernel factor j|).sum := List.sum_nonneg (by
      intro y hy; obtain ⟨_, _, rfl⟩ := List.mem_map.1 hy; exact abs_nonneg _)
    rw [List.foldl_append, List.map_append, List.map_append, List.sum_append, List.sum_append, List.length_append,
      List.foldl_cons, List.foldl_nil, List.map_singleton, List.map_singleton, List.sum_singleton, List.sum_singleton,
      List.length_singleton]
    set S := (js.map fun j => |kernel factor j|).sum
    set Y := (js.map fun j => kernel factor j * X (j / factor)).sum
    have hkX : |kernel factor j * X (j / factor)| ≤ M * |kernel factor j| := by
      rw [abs_mul, _root_.mul_comm]; exact mul_le_mul_of_nonneg_right hx2 (abs_nonneg _)
    have hb : |Y + kernel factor j * X (j / factor)| ≤ M * (S + |kernel factor j|) := by
      rw [mul_add]
      exact (abs_add_le _ _).trans (add_le_add h2 hkX)
    have hsum : S + |kernel factor j| ≤ 25 := by linarith
    refine ⟨?_, hb, by push_cast; linarith⟩
    have he : M * (2 * unit32 * S + js.length * (9 / 8 / 2 ^ 28)) + js.length / 2 ^ 119 ≤ M / 2 ^ 14 + 1 / 2 ^ 110 := by
      have h5 : 2 * unit32 * S + js.length * (9 / 8 / 2 ^ 28) ≤ 1 / 2 ^ 14 := by
        unfold unit32
        norm_num
        linarith
      have := mul_le_mul_of_nonneg_left h5 hM0
      have h9 : (js.length : ℝ) / 2 ^ 119 ≤ 1 / 2 ^ 110 := by
        norm_num
        linarith
      linarith
    have := cAdd_tight (m := m) (bs := bs) (t := t) hM h1 he hx1 hx2 (c_coeff_app (bs := bs) (t := t) hm hf (hj j hjm)) hka
      (hb.trans (mul_le_mul_of_nonneg_left (by linarith) hM0))
    refine this.mono (le_of_eq ?_)
    push_cast
    ring

/-- The test that keeps a coefficient (interp.c:81). -/
def keptTap (E : Env F64 F32) (factor j : Nat) : Bool :=
  E.f64.lt (E.f64.lit 1 1000000) (E.f64.abs (CRef.interpCoeff E 49 factor j))

theorem value_abs_eq (v : F64) : (Fl.abs v).value = |v.value| := by
  cases v with
  | nan =>
    have : (Fl.nan : F64).value = 0 := rfl
    rw [show Fl.abs (Fl.nan : F64) = Fl.nan from rfl, this, abs_zero]
  | num s k hk =>
    show (.num false k hk : F64).value = _
    cases s
    · exact (abs_of_nonneg (value_nonneg fun _ => ⟨_, _, rfl⟩)).symm
    · have : (.num true k hk : F64).value = -(.num false k hk : F64).value := by rw [← value_neg]; rfl
      rw [this, abs_neg]
      exact (abs_of_nonneg (value_nonneg fun _ => ⟨_, _, rfl⟩)).symm

theorem kernel_end (factor : Nat) : kernel factor 48 = 0 := by
  unfold kernel
  norm_num

theorem kernelZ_gap : ∀ factor, factor = 2 ∨ factor = 4 → ∀ j < 48, |kernelZ factor j| ≤ 2000 → |kernelZ factor j| ≤ 2 := by
  rintro factor (rfl | rfl) <;> decide +kernel

theorem small_of_not_lt {c : F64} (hc : c.Finite) (h : Fl.lt (Fl.lit Fmt.b64 1 1000000) (Fl.abs c) = false) :
    |c.value| ≤ 11 / 10 ^ 7 := by
  obtain ⟨s, k, hk, rfl, -⟩ := hc
  have h1 := App.lit Fmt.ok64 (n := 1) (d := 1000000) (by norm_num) (A := 1) (by norm_num)
    (_root_.le_trans (by norm_num) top64)
  obtain ⟨s', k', hk', h2, -⟩ := h1.1
  rw [Fl.not_lt (by rw [h2]; rfl) rfl] at h
  have h3 := value_fle h
  rw [value_abs_eq] at h3
  have h4 := (abs_le.1 h1.2).2
  have h5 := eta64
  rw [eps64] at h4
  generalize (Fl.lit Fmt.b64 1 1000000).value = w at *
  push_cast at h4
  norm_num at *
  linarith

theorem kept_ops {A : Arith F64} (hA : A = Fl.arith Fmt.b64) (n : Int) (d : Nat) (c : F64) :
    A.lt (A.lit n d) (A.abs c) = Fl.lt (Fl.lit Fmt.b64 n d) (Fl.abs c) := by subst hA; rfl

theorem kept_env {E : Env F64 F32} (hE : E.f64 = Fl.arith Fmt.b64) (factor j : Nat) : keptTap E factor j =
    Fl.lt (Fl.lit Fmt.b64 1 1000000) (Fl.abs (CRef.interpCoeff E 49 factor j)) := by
  unfold keptTap
  exact kept_ops hE _ _ _

theorem kept_eq (factor j : Nat) : keptTap (ieeeEnv m bs t) factor j =
    Fl.lt (Fl.lit Fmt.b64 1 1000000) (Fl.abs (CRef.interpCoeff (ieeeEnv m bs t) 49 factor j)) :=
  kept_env rfl factor j

theorem kernel_gap {factor j : Nat} (hf : factor = 2 ∨ factor = 4) (hj : j < 48) {v : ℝ}
    (h1 : |v - kernel factor j| ≤ 1 / 2 ^ 28) (h2 : |v| ≤ 11 / 10 ^ 7) : |kernel factor j| ≤ 4 / 10 ^ 9 := by
  have h4 := kernel_near hf hj
  have h5 := kernelZ_gap factor hf j hj
  generalize kernelZ factor j = z at *
  generalize kernel factor j = y at *
  have a1 := abs_le.1 h1
  have a2 := abs_le.1 h2
  have a3 := abs_le.1 h4
  have : |(z : ℝ)| ≤ 2000 := by
    rw [abs_le]
    norm_num at *
    constructor <;> linarith
  have h6 : |(z : ℝ)| ≤ 2 := by exact_mod_cast h5 (by exact_mod_cast this)
  rw [abs_le] at h6 ⊢
  norm_num at *
  constructor <;> linarith

/-- A coefficient that is left out is next to nothing. -/
theorem dropped_small (hm : TrigWithin m (1 / 2 ^ 30)) {factor j : Nat} (hf : factor = 2 ∨ factor = 4) (hj : j < 49)
    (h : keptTap (ieeeEnv m bs t) factor j = false) : |kernel factor j| ≤ 4 / 10 ^ 9 := by
  rw [kept_eq] at h
  have h1 := c_coeff_app (bs := bs) (t := t) hm hf hj
  generalize CRef.interpCoeff (ieeeEnv m bs t) 49 factor j = c at *
  have h2 := small_of_not_lt h1.1 h
  rcases Nat.lt_or_ge j 48 with h3 | h3
  · exact kernel_gap hf h3 h1.2 h2
  · obtain rfl : j = 48 := by omega
    rw [kernel_end, abs_zero]
    positivity

/-- The taps of phase `k`. -/
def tapsOf (factor k : Nat) : List Nat := (List.range 49).filter (· % factor = k)

theorem tapsOf_map {factor k : Nat} (hf : factor = 2 ∨ factor = 4) (hk : k < factor) {g : Nat → ℝ} (hg : g 48 = 0) :
    ((tapsOf factor k).map g).sum = ∑ i ∈ Finset.range (48 / factor), g (i * factor + k) := by
  have e : ∀ n : Nat, ∑ i ∈ Finset.range n, g (i * factor + k) =
      ((List.range n).map fun i => g (i * factor + k)).sum := by
    intro n
    induction n with
    | zero => simp
    | succ n ih => rw [Finset.sum_range_succ, List.range_succ, List.map_append, List.sum_append, ih]; simp
  rw [e]
  have hmap : ((List.range (48 / factor)).map fun i => g (i * factor + k)) =
      (((List.range (48 / factor)).map fun i => i * factor + k).map g) := by
    rw [List.map_map]
    rfl
  rw [hmap]
  rcases Nat.eq_zero_or_pos k with rfl | hk0
  · have : tapsOf factor 0 = ((List.range (48 / factor)).map fun i => i * factor + 0) ++ [48] := by
      rcases hf with rfl | rfl <;> decide
    rw [this, List.map_append, List.sum_append, List.map_singleton, List.sum_singleton, hg, add_zero]
  · have : tapsOf factor k = ((List.range (48 / factor)).map fun i => i * factor + k) := by
      rcases hf with rfl | rfl
      · obtain rfl : k = 1 := by omega
        decide
      · obtain rfl | rfl | rfl : k = 1 ∨ k = 2 ∨ k = 3 := by omega
        all_goals decide
    rw [this]

/-- The sum over the taps of a phase, tap 48 included, is the sum the crate accumulates. -/
theorem tapsOf_sum {factor k : Nat} (hf : factor = 2 ∨ factor = 4) (hk : k < factor) (X : Nat → ℝ) :
    ((tapsOf factor k).map fun j => kernel factor j * X (j / factor)).sum =
      ∑ i ∈ Finset.range (48 / factor), kernel factor (i * factor + k) * X i := by
  rw [tapsOf_map hf hk (by rw [kernel_end, zero_mul])]
  refine Finset.sum_congr rfl fun i _ => ?_
  have h0 : 0 < factor := by omega
  rw [show (i * factor + k) / factor = i by
      rw [_root_.add_comm, Nat.add_mul_div_right _ _ h0, Nat.div_eq_of_lt hk, Nat.zero_add]]

theorem tapsOf_length {factor k : Nat} (hf : factor = 2 ∨ factor = 4) (hk : k < factor) : (tapsOf factor k).length ≤ 25 := by
  rcases hf with rfl | rfl <;> interval_cases k <;> decide

theorem tapsOf_abs {factor k : Nat} (hf : factor = 2 ∨ factor = 4) (hk : k < factor) :
    ((tapsOf factor k).map fun j => |kernel factor j|).sum ≤ 12 / 5 := by
  rw [tapsOf_map hf hk (by rw [kernel_end, abs_zero])]
  exact kernel_l1 hf hk

/-- A list sum, split by a test. -/
theorem sum_split (f : Nat → ℝ) (p : Nat → Bool) (l : List Nat) :
    (l.map f).sum = ((l.filter p).map f).sum + ((l.filter fun j => !p j).map f).sum := by
  induction l with
  | nil => simp
  | cons a l ih =>
    rw [List.map_cons, List.sum_cons, ih, List.filter_cons, List.filter_cons]
    cases p a <;> simp <;> ring

/-- **An interpolated sample of the C reference.** -/
theorem c_sample (hm : TrigWithin m (1 / 2 ^ 30)) {factor k : Nat} (hf : factor = 2 ∨ factor = 4) (hk : k < factor)
    {M : ℝ} (hM0 : 0 ≤ M) (hM : M ≤ 2 ^ 100) {x : Nat → F32} {X : Nat → ℝ}
    (hx : ∀ i ≤ 48 / factor, App (x i) (X i) (convErr M) ∧ |X i| ≤ M) :
    App ((ieeeEnv m bs t).narrowP (((tapsOf factor k).filter (keptTap (ieeeEnv m bs t) factor)).foldl (fun acc j =>
        (ieeeEnv m bs t).f64p.add acc ((ieeeEnv m bs t).f64p.mul
        ((ieeeEnv m bs t).widen (x (j / factor))) (CRef.interpCoeff (ieeeEnv m bs t) 49 factor j)))
        (ieeeEnv m bs t).f64p.zero))
      (∑ i ∈ Finset.range (48 / factor), kernel factor (i * factor + k) * X i) (M * (67 / 10 ^ 8) + 1 / 2 ^ 113) := by
  have hj : ∀ j ∈ tapsOf factor k, j < 49 := fun j h => List.mem_range.1 (List.mem_filter.1 h).1
  have hxj : ∀ j ∈ tapsOf factor k, App (x (j / factor)) (X (j / factor)) (convErr M) ∧ |X (j / factor)| ≤ M :=
    fun j h => hx _ (Nat.div_le_div_right (by have := hj j h; omega))
  set js := (tapsOf factor k).filter (keptTap (ieeeEnv m bs t) factor) with hjs
  have hlen : js.length ≤ 25 := (List.length_filter_le _ _).trans (tapsOf_length hf hk)
  have hlenR : (js.length : ℝ) ≤ 25 := by exact_mod_cast hlen
  obtain ⟨h1, h2, -⟩ := c_fold (m := m) (bs := bs) (t := t) hm hf hM0 hM hlen
    (fun j h => hj j (List.mem_filter.1 h).1) (fun j h => hxj j (List.mem_filter.1 h).1)
  have hd : |((((tapsOf factor k).filter fun j => !keptTap (ieeeEnv m bs t) factor j)).map
      fun j => kernel factor j * X (j / factor)).sum| ≤ M * (1 / 10 ^ 7) := by
    have : ∀ l : List Nat, (∀ j ∈ l, |kernel factor j * X (j / factor)| ≤ M * (4 / 10 ^ 9)) →
        |(l.map fun j => kernel factor j * X (j / factor)).sum| ≤ l.length * (M * (4 / 10 ^ 9)) := by
      intro l
      induction l with
      | nil => simp
      | cons a l ih =>
        intro h
        rw [List.map_cons, List.sum_cons, List.length_cons]
        refine (abs_add_le _ _).trans ((add_le_add (h a List.mem_cons_self)
          (ih fun j hj => h j (List.mem_cons_of_mem _ hj))).trans (le_of_eq ?_))
        push_cast
        ring
    refine (this _ ?_).trans ?_
    · intro j h
      obtain ⟨h3, h4⟩ := List.mem_filter.1 h
      rw [abs_mul, _root_.mul_comm]
      exact mul_le_mul (hxj j h3).2 (dropped_small hm hf (hj j h3) (by simpa using h4)) (abs_nonneg _) hM0
    · have : ((((tapsOf factor k).filter fun j => !keptTap (ieeeEnv m bs t) factor j)).length : ℝ) ≤ 25 := by
        exact_mod_cast (List.length_filter_le _ _).trans (tapsOf_length hf hk)
      refine (mul_le_mul_of_nonneg_right this (by positivity)).trans (le_of_eq (by ring))
  have hL : (js.map fun j => |kernel factor j|).sum ≤ 12 / 5 := by
    refine _root_.le_trans ?_ (tapsOf_abs hf hk)
    rw [sum_split (fun j => |kernel factor j|) (keptTap (ieeeEnv m bs t) factor) (tapsOf factor k)]
    have : 0 ≤ (((tapsOf factor k).filter fun j => !keptTap (ieeeEnv m bs t) factor j).map
      fun j => |kernel factor j|).sum := List.sum_nonneg (by
      intro y hy; obtain ⟨_, _, rfl⟩ := List.mem_map.1 hy; exact abs_nonneg _)
    linarith
  have hsplit := sum_split (fun j => kernel factor j * X (j / factor)) (keptTap (ieeeEnv m bs t) factor) (tapsOf factor k)
  rw [tapsOf_sum hf hk, ← hjs] at hsplit
  rw [hsplit]
  set Y := (js.map fun j => kernel factor j * X (j / factor)).sum
  set Z := (((tapsOf factor k).filter fun j => !keptTap (ieeeEnv m bs t) factor j).map
      fun j => kernel factor j * X (j / factor)).sum
  set S := (js.map fun j => |kernel factor j|).sum
  have hY : |Y| ≤ M * (12 / 5) := h2.trans (mul_le_mul_of_nonneg_left hL hM0)
  have he : M * (2 * unit32 * S + js.length * (9 / 8 / 2 ^ 28)) + js.length / 2 ^ 119 ≤ M * (41 / 10 ^ 8) + 1 / 2 ^ 114 := by
    have h5 : 2 * unit32 * S + js.length * (9 / 8 / 2 ^ 28) ≤ 41 / 10 ^ 8 := by
      unfold unit32
      norm_num
      linarith
    have := mul_le_mul_of_nonneg_left h5 hM0
    have h9 : (js.length : ℝ) / 2 ^ 119 ≤ 1 / 2 ^ 114 := by
      norm_num
      linarith
    linarith
  have h3 := (((h1.mono he).cast_tight Fmt.ok32 tight32 hY (_root_.le_trans (by norm_num at *; linarith) top32)).flush t)
  rw [← ieee_narrowP (m := m) (bs := bs)] at h3
  refine ⟨h3.1, ?_⟩
  have h4 := h3.2
  rw [flush_err32, eps32, eta32] at h4
  have h5 := abs_sub_le ((ieeeEnv m bs t).narrowP (js.foldl (fun acc j =>
        (ieeeEnv m bs t).f64p.add acc ((ieeeEnv m bs t).f64p.mul
        ((ieeeEnv m bs t).widen (x (j / factor))) (CRef.interpCoeff (ieeeEnv m bs t) 49 factor j)))
        (ieeeEnv m bs t).f64p.zero)).value Y (Y + Z)
  rw [show Y - (Y + Z) = -Z by ring, abs_neg] at h5
  refine h5.trans ((add_le_add h4 hd).trans ?_)
  norm_num
  linarith

end Verif
