import Verif.Proofs.Settle48
import Verif.Props.C71
/-!
# A sinusoid whose amplitude changes every few milliseconds

The mean square of the filtered sinusoid over a window of whole steps, with the bounds on the transient of
`onset48_sharp`. The steps shortly before the window count as if they were in it.
-/

namespace Verif
open Spec

section
variable {δ : ℕ → ℝ} {α : ℕ → ℝ} {T Q θ : ℝ} {h K w k : ℕ}

/-- The transients of the steps `k`, …, `k + w - 1`, counted from step `k` on. -/
noncomputable def recentError (δ α : ℕ → ℝ) (h k w n : ℕ) : ℝ :=
  ∑ i ∈ Finset.range w, |jump α (k + i)| * if i * h ≤ n then δ (n - i * h) else 0

/-- The transients of the steps before step `k`, counted from step `k` on. -/
noncomputable def olderError (δ α : ℕ → ℝ) (h k n : ℕ) : ℝ := ∑ i ∈ Finset.range k, |jump α i| * δ ((k - i) * h + n)

theorem recentError_nonneg (δ0 : ∀ n, 0 ≤ δ n) (n : ℕ) : 0 ≤ recentError δ α h k w n :=
  Finset.sum_nonneg fun i _ => by split_ifs <;> first | exact mul_nonneg (abs_nonneg _) (δ0 _) | simp

theorem olderError_nonneg (δ0 : ∀ n, 0 ≤ δ n) (n : ℕ) : 0 ≤ olderError δ α h k n :=
  Finset.sum_nonneg fun _ _ => mul_nonneg (abs_nonneg _) (δ0 _)

theorem recentError_sum (hT : ∀ N, ∑ n ∈ Finset.range N, δ n ≤ T) (N : ℕ) :
    ∑ n ∈ Finset.range N, recentError δ α h k w n ≤ T * ∑ i ∈ Finset.range w, |jump α (k + i)| := by
  unfold recentError
  rw [Finset.sum_comm, Finset.mul_sum]
  refine Finset.sum_le_sum fun i _ => ?_
  rw [← Finset.mul_sum, mul_comm, sum_shift]
  exact mul_le_mul_of_nonneg_right (hT _) (abs_nonneg _)

theorem recentError_square (hQ : ∀ N, ∑ n ∈ Finset.range N, δ n ^ 2 ≤ Q) (N : ℕ) :
    ∑ n ∈ Finset.range N, recentError δ α h k w n ^ 2 ≤ Q * (∑ i ∈ Finset.range w, |jump α (k + i)|) ^ 2 := by
  have one : ∀ n, recentError δ α h k w n ^ 2 ≤ (∑ i ∈ Finset.range w, |jump α (k + i)|) *
      ∑ i ∈ Finset.range w, |jump α (k + i)| * if i * h ≤ n then δ (n - i * h) ^ 2 else 0 := by
    intro n
    unfold recentError
    refine Finset.sum_sq_le_sum_mul_sum_of_sq_le_mul _ (fun _ _ => abs_nonneg _) (fun i _ => ?_) fun i _ => ?_
    · split_ifs
      · positivity
      · simp
    · split_ifs
      · exact le_of_eq (by ring)
      · simp
  refine (Finset.sum_le_sum fun n _ => one n).trans ?_
  rw [← Finset.mul_sum, Finset.sum_comm, pow_two, ← mul_assoc, mul_comm Q, mul_assoc]
  refine mul_le_mul_of_nonneg_left ?_ (Finset.sum_nonneg fun _ _ => abs_nonneg _)
  rw [Finset.mul_sum]
  refine Finset.sum_le_sum fun i _ => ?_
  rw [← Finset.mul_sum, mul_comm, sum_shift (fun n => δ n ^ 2)]
  exact mul_le_mul_of_nonneg_right (hQ _) (abs_nonneg _)

theorem olderError_sum {a : ℕ} (hθ : ∀ q, a ≤ q → ∀ N, ∑ n ∈ Finset.range N, δ (q + n) ≤ θ) {p : ℕ}
    (hp : k ≠ 0 → a ≤ p) (N : ℕ) :
    ∑ n ∈ Finset.range N, olderError δ α h k (p + n) ≤ θ * ∑ i ∈ Finset.range k, |jump α i| := by
  unfold olderError
  rw [Finset.sum_comm, Finset.mul_sum]
  refine Finset.sum_le_sum fun i hi => ?_
  have hi := Finset.mem_range.1 hi
  rw [← Finset.mul_sum, mul_comm]
  refine mul_le_mul_of_nonneg_right ?_ (abs_nonneg _)
  simp only [← Nat.add_assoc]
  exact hθ _ (by have := hp (by omega); omega) N

/-- The difference of two energies, if the signals differ by at most `G (e j + ε)`. -/
theorem squares_apart {y σ e : ℕ → ℝ} {N : ℕ} {G B ε E₁ E₂ : ℝ} (ε0 : 0 ≤ ε) (B0 : 0 ≤ B)
    (near : ∀ j < N, |y j - σ j| ≤ G * (e j + ε)) (top : ∀ j < N, |σ j| ≤ G * B)
    (h1 : ∑ j ∈ Finset.range N, e j ≤ E₁) (h2 : ∑ j ∈ Finset.range N, e j ^ 2 ≤ E₂) :
    |∑ j ∈ Finset.range N, y j ^ 2 - ∑ j ∈ Finset.range N, σ j ^ 2| ≤
      G ^ 2 * ((2 * B + 2 * ε) * E₁ + E₂ + N * ((2 * B + ε) * ε)) := by
  rw [← Finset.sum_sub_distrib]
  calc _ ≤ ∑ j ∈ Finset.range N, |y j ^ 2 - σ j ^ 2| := Finset.abs_sum_le_sum_abs _ _
    _ ≤ ∑ j ∈ Finset.range N, G ^ 2 * ((2 * B + 2 * ε) * e j + e j ^ 2 + (2 * B + ε) * ε) := by
      refine Finset.sum_le_sum fun j hj => ?_
      have hj := Finset.mem_range.1 hj
      have n1 := near j hj
      have n2 := top j hj
      have s : |y j + σ j| ≤ 2 * (G * B) + G * (e j + ε) := by
        have a1 := abs_le.1 n1
        have a2 := abs_le.1 n2
        exact abs_le.2 ⟨by linarith, by linarith⟩
      rw [show y j ^ 2 - σ j ^ 2 = (y j + σ j) * (y j - σ j) by ring, abs_mul]
      refine (mul_le_mul s n1 (abs_nonneg _) ((abs_nonneg _).trans s)).trans (le_of_eq ?_)
      ring
    _ = G ^ 2 * ((2 * B + 2 * ε) * ∑ j ∈ Finset.range N, e j + ∑ j ∈ Finset.range N, e j ^ 2 + N * ((2 * B + ε) * ε)) := by
      rw [← Finset.mul_sum, Finset.sum_add_distrib, Finset.sum_add_distrib, ← Finset.mul_sum]
      simp
    _ ≤ _ := by gcongr

/-- The mean square over a window of `w` steps, from step `k` on; the steps from step `k - m` on count as recent. -/
theorem fine_window (h0 : 0 < h) (w0 : 0 < w) (hk : k + w ≤ K) {z : ℂ} (hz : ‖z‖ = 1) (hz2 : z ^ 2 ≠ 1)
    (hper : (z ^ 2) ^ h = 1) {H g : ℂ} {ε η S : ℝ} {m : ℕ} (δ0 : ∀ n, 0 ≤ δ n)
    (hT : ∀ N, ∑ n ∈ Finset.range N, δ n ≤ T) (hQ : ∀ N, ∑ n ∈ Finset.range N, δ n ^ 2 ≤ Q)
    (hθ : ∀ q, m * h ≤ q → ∀ N, ∑ n ∈ Finset.range N, δ (q + n) ≤ θ) (hη : ‖H‖ ≤ η) (ε0 : 0 ≤ ε) {y : ℕ → ℝ}
    (hy : ∀ n < K * h, |y n - (H * (amplitude (profileSteps g α h K) n * z ^ n)).re| ≤
      ((profileSteps g α h K).map fun x => if x.1 ≤ n then ‖x.2‖ * δ (n - x.1) else 0).sum + ‖g‖ * ε)
    (hS : ∀ i < w, |α (k + i)| ≤ S) :
    let R := ∑ i ∈ Finset.range (k - (k - m) + w), |jump α (k - m + i)|
    let O := ∑ i ∈ Finset.range (k - m), |jump α i|
    |(∑ j ∈ Finset.range (w * h), y (k * h + j) ^ 2) / (w * h : ℕ) -
      ‖g‖ ^ 2 * (‖H‖ ^ 2 / 2 * ((∑ i ∈ Finset.range w, α (k + i) ^ 2) / w))| ≤
    ‖g‖ ^ 2 * (((2 * (η * S) + 2 * ε) * (T * R + θ * O) + (Q * R ^ 2 + 2 * (θ * O) * (T * R) + (θ * O) ^ 2)) / (w * h : ℕ) +
      (2 * (η * S) + ε) * ε) := by
  intro R O
  have N0 : (0 : ℝ) < (w * h : ℕ) := by exact_mod_cast Nat.mul_pos w0 h0
  have g0 := norm_nonneg g
  have lt : ∀ {j}, j < w * h → k * h + j < K * h := fun {j} hj => by
    have := Nat.mul_le_mul_right h hk
    rw [Nat.add_mul] at this
    omega
  have S0 : 0 ≤ S := (abs_nonneg _).trans (hS 0 w0)
  have η0 : 0 ≤ η := (norm_nonneg _).trans hη
  -- the steady part
  let σ : ℕ → ℝ := fun n => tone (H * (g * (α (n / h) : ℝ))) z n
  have hσ : ∀ n < K * h, (H * (amplitude (profileSteps g α h K) n * z ^ n)).re = σ n := fun n hn => by
    rw [amplitude_profile g α h0 hn]
    simp only [σ, tone]
    congr 1
    ring
  have top : ∀ j < w * h, |σ (k * h + j)| ≤ ‖g‖ * (η * S) := by
    intro j hj
    refine (tone_le hz _ _).trans ?_
    obtain ⟨i, hi⟩ : ∃ i, (k * h + j) / h = k + i := ⟨j / h, by rw [Nat.mul_comm, Nat.mul_add_div h0]⟩
    have hiw : i < w := by
      have : (k * h + j) / h < k + w := (Nat.div_lt_iff_lt_mul h0).2 (by rw [Nat.add_mul]; omega)
      omega
    rw [hi, norm_mul, norm_mul, Complex.norm_real, Real.norm_eq_abs]
    have := mul_le_mul hη (mul_le_mul_of_nonneg_left (hS i hiw) g0) (by positivity) η0
    linarith
  have energy : ∑ j ∈ Finset.range (w * h), σ (k * h + j) ^ 2 =
      (w * h : ℕ) * (‖g‖ ^ 2 * (‖H‖ ^ 2 / 2 * ((∑ i ∈ Finset.range w, α (k + i) ^ 2) / w))) := by
    rw [sum_hops (fun n => σ n ^ 2)]
    have : ∀ i ∈ Finset.range w, ∑ j ∈ Finset.range h, σ ((k + i) * h + j) ^ 2 =
        h * (‖g‖ ^ 2 * (‖H‖ ^ 2 / 2)) * α (k + i) ^ 2 := fun i _ => by
      have e : ∀ j ∈ Finset.range h, σ ((k + i) * h + j) ^ 2 =
          tone (H * (g * (α (k + i) : ℝ))) z ((k + i) * h + j) ^ 2 := fun j hj => by
        have hj := Finset.mem_range.1 hj
        have : ((k + i) * h + j) / h = k + i := by
          rw [Nat.mul_comm, Nat.mul_add_div h0, Nat.div_eq_of_lt hj, Nat.add_zero]
        simp only [σ, this]
      rw [Finset.sum_congr rfl e, tone_hop hz hz2 hper, norm_mul, norm_mul, Complex.norm_real, Real.norm_eq_abs,
        mul_pow, mul_pow, sq_abs]
      ring
    rw [Finset.sum_congr rfl this, ← Finset.mul_sum]
    have hw : (w : ℝ) ≠ 0 := by exact_mod_cast w0.ne'
    push_cast
    field_simp
  -- the transients
  obtain ⟨k', hk'⟩ : ∃ k', k' = k - m := ⟨_, rfl⟩
  obtain ⟨m', hm'⟩ : ∃ m', m' = k - k' := ⟨_, rfl⟩
  have hkm : k' + m' = k := by omega
  have hm : k' ≠ 0 → m * h ≤ m' * h := fun h => Nat.mul_le_mul_right _ (by omega)
  have hR : R = ∑ i ∈ Finset.range (m' + w), |jump α (k' + i)| := by simp only [R, ← hk', ← hm']
  have hO : O = ∑ i ∈ Finset.range k', |jump α i| := by simp only [O, ← hk']
  let e1 : ℕ → ℝ := fun j => recentError δ α h k' (m' + w) (m' * h + j)
  let e2 : ℕ → ℝ := fun j => olderError δ α h k' (m' * h + j)
  have split : ∀ j < w * h, profileError δ α h K (k * h + j) = e1 j + e2 j := by
    intro j hj
    have := profileError_window (δ := δ) (α := α) (h := h) (K := K) (k := k') (w := m' + w) (by omega)
      (j := m' * h + j) (by rw [Nat.add_mul]; omega)
    rw [← Nat.add_assoc, ← Nat.add_mul, hkm] at this
    rw [this, add_comm]
    rfl
  have e1p : ∀ j, 0 ≤ e1 j := fun j => recentError_nonneg δ0 _
  have e2p : ∀ j, 0 ≤ e2 j := fun j => olderError_nonneg δ0 _
  have part : ∀ f : ℕ → ℝ, (∀ n, 0 ≤ f n) → ∑ j ∈ Finset.range (w * h), f (m' * h + j) ≤
      ∑ n ∈ Finset.range (m' * h + w * h), f n := by
    intro f f0
    rw [Finset.sum_range_add]
    have := Finset.sum_nonneg (s := Finset.range (m' * h)) fun n _ => f0 n
    linarith
  have a1 : ∑ j ∈ Finset.range (w * h), e1 j ≤ T * R := by
    rw [hR]
    exact (part _ fun n => recentError_nonneg δ0 n).trans (recentError_sum hT _)
  have a2 : ∑ j ∈ Finset.range (w * h), e1 j ^ 2 ≤ Q * R ^ 2 := by
    rw [hR]
    exact (part (fun n => recentError δ α h k' (m' + w) n ^ 2) fun n => by positivity).trans (recentError_square hQ _)
  have a3 : ∑ j ∈ Finset.range (w * h), e2 j ≤ θ * O := by
    rw [hO]
    exact olderError_sum hθ hm _
  have a4 : ∀ j, e2 j ≤ θ * O := by
    intro j
    have := olderError_sum (α := α) (h := h) (k := k') hθ (p := m' * h + j) (fun h => (hm h).trans (by omega)) 1
    rw [hO]
    simpa using this
  have b1 : ∑ j ∈ Finset.range (w * h), (e1 j + e2 j) ≤ T * R + θ * O := by
    rw [Finset.sum_add_distrib]
    linarith
  have b2 : ∑ j ∈ Finset.range (w * h), (e1 j + e2 j) ^ 2 ≤ Q * R ^ 2 + 2 * (θ * O) * (T * R) + (θ * O) ^ 2 := by
    have O0 : 0 ≤ θ * O := (e2p 0).trans (a4 0)
    calc _ ≤ ∑ j ∈ Finset.range (w * h), (e1 j ^ 2 + 2 * (θ * O) * e1 j + θ * O * e2 j) := by
          refine Finset.sum_le_sum fun j _ => ?_
          have := mul_le_mul_of_nonneg_left (a4 j) (e1p j)
          have := mul_le_mul_of_nonneg_left (a4 j) (e2p j)
          nlinarith
      _ = ∑ j ∈ Finset.range (w * h), e1 j ^ 2 + 2 * (θ * O) * ∑ j ∈ Finset.range (w * h), e1 j +
            θ * O * ∑ j ∈ Finset.range (w * h), e2 j := by
          rw [Finset.sum_add_distrib, Finset.sum_add_distrib, ← Finset.mul_sum, ← Finset.mul_sum]
      _ ≤ _ := by
          have := mul_le_mul_of_nonneg_left a1 (by linarith : 0 ≤ 2 * (θ * O))
          have := mul_le_mul_of_nonneg_left a3 O0
          rw [pow_two (θ * O)]
          linarith
  have key := squares_apart (y := fun j => y (k * h + j)) (σ := fun j => σ (k * h + j)) (e := fun j => e1 j + e2 j) ε0
    (mul_nonneg η0 S0) (fun j hj => by
      have := hy _ (lt hj)
      rw [hσ _ (lt hj), profileError_eq, split j hj] at this
      rw [mul_add]
      exact this) top b1 b2
  rw [energy] at key
  have e : (∑ j ∈ Finset.range (w * h), y (k * h + j) ^ 2) / (w * h : ℕ) -
      ‖g‖ ^ 2 * (‖H‖ ^ 2 / 2 * ((∑ i ∈ Finset.range w, α (k + i) ^ 2) / w)) =
      (∑ j ∈ Finset.range (w * h), y (k * h + j) ^ 2 -
        (w * h : ℕ) * (‖g‖ ^ 2 * (‖H‖ ^ 2 / 2 * ((∑ i ∈ Finset.range w, α (k + i) ^ 2) / w)))) / (w * h : ℕ) := by
    rw [sub_div, mul_div_cancel_left₀ _ N0.ne']
  rw [e, abs_div, abs_of_pos N0, div_le_iff₀ N0]
  refine key.trans (le_of_eq ?_)
  field_simp

end

/-- The output of the filter for a sinusoid of 1 kHz at 48 kHz whose amplitude `α` changes every 10 ms, given with an error
of at most `ε |g|`. -/
theorem fine48 (bs : BSearch) (u : Nat) {α : ℕ → ℝ} {K w k : ℕ} (w0 : 0 < w) (hk : k + w ≤ K) {g : ℂ} {ε S : ℝ}
    (ε0 : 0 ≤ ε) (hS : ∀ i < w, |α (k + i)| ≤ S) {xs : List ℝ} (hl : K * 480 ≤ xs.length)
    (hx : ∀ n < xs.length, |xs.getD n 0 - (g * (α (n / 480) : ℝ) * tone1k ^ n).re| ≤ ‖g‖ * ε) :
    let R := ∑ i ∈ Finset.range (k - (k - 10) + w), |jump α (k - 10 + i)|
    let O := ∑ i ∈ Finset.range (k - 10), |jump α i|
    let H := transfer (filterCoefficients (exactEnv bs u) ((exactEnv bs u).f64.ofInt 48000)) tone1k
    |meanSquare ((List.range (w * 480)).map fun j => (kWeighted bs u 48000 xs).getD (k * 480 + j) 0) -
      ‖g‖ ^ 2 * (‖H‖ ^ 2 / 2 * ((∑ i ∈ Finset.range w, α (k + i) ^ 2) / w))| ≤
    ‖g‖ ^ 2 * (((2 * (1084 / 1000 * S) + 2 * (13 * ε)) * (1153 / 100 * R + 3 / 1000 * O) +
      (1453 / 1000 * R ^ 2 + 2 * (3 / 1000 * O) * (1153 / 100 * R) + (3 / 1000 * O) ^ 2)) / (w * 480 : ℕ) +
      (2 * (1084 / 1000 * S) + 13 * ε) * (13 * ε)) := by
  intro R O H
  have hper : (tone1k ^ 2) ^ 480 = 1 := by
    rw [show 480 = 24 * 20 by norm_num, pow_mul, tone1k_period, one_pow]
  have main := fine_window (α := α) (h := 480) (by norm_num) w0 hk tone1k_norm tone1k_ne hper (H := H) (g := g) (m := 10)
    (onsetError_nonneg bs u 48000 tone1k) (fun N => (onset48_sharp bs u N).1) (fun N => (onset48_sharp bs u N).2.1)
    (fun q hq N => (onset48_sharp bs u N).2.2.2 q hq) (gain1k_le bs u) (by positivity)
    (y := fun n => (kWeighted bs u 48000 xs).getD n 0) (ε := 13 * ε) (fun n hn => by
      have hlen : (xs.take (K * 480)).length = K * 480 := by rw [List.length_take]; omega
      have e : (kWeighted bs u 48000 xs).getD n 0 = (kWeighted bs u 48000 (xs.take (K * 480))).getD n 0 := by
        unfold kWeighted
        have hn' : n < xs.length := by omega
        rw [filtered_getD _ _ (fun i => xs.getD i 0) hn' (take_eq_range _ 0 hn'),
          filtered_getD _ _ (fun i => xs.getD i 0) (by omega) (by
            rw [List.take_take, Nat.min_eq_left (by omega)]
            exact take_eq_range _ 0 hn')]
      have := kWeighted_steps bs u (rate := 48000) (by norm_num) tone1k_norm (profileSteps g α 480 K)
        (xs := xs.take (K * 480)) (ε := ‖g‖ * ε) (fun i hi => by
          rw [hlen] at hi
          have e2 : (xs.take (K * 480)).getD i 0 = xs.getD i 0 := by simp [List.getD, hi]
          rw [e2, stepped, amplitude_profile g α (by norm_num) hi]
          exact hx i (by omega)) (k := n) (by omega)
      rw [e]
      refine this.trans (le_of_eq ?_)
      congr 1
      ring) hS
  have e : meanSquare ((List.range (w * 480)).map fun j => (kWeighted bs u 48000 xs).getD (k * 480 + j) 0) =
      (∑ j ∈ Finset.range (w * 480), (kWeighted bs u 48000 xs).getD (k * 480 + j) 0 ^ 2) / (w * 480 : ℕ) := by
    rw [meanSquare, List.map_map, List.length_map, List.length_range, ← list_sum_range]
    rfl
  rw [e]
  exact main

end Verif
