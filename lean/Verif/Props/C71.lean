import Verif.Proofs.Profile
/-!
# C71: how fast the K-weighting filter settles on a tone

A sinusoid whose amplitude (and phase) changes in steps, sampled with an error. The filter of the code, in exact
arithmetic, multiplies it by the transfer function, up to transients that start at the steps. C54 says that the
transients die out; here they are bounded by explicit numbers, at every rate from 8 kHz on and for every frequency.
-/

namespace Verif
open Spec
variable {bs : BSearch} {u : Nat}

/-- The filter of the code on samples near a sinusoid with steps. -/
theorem kWeighted_steps (bs : BSearch) (u : Nat) {rate : Nat} (hr : 8000 ≤ rate) {z : ℂ} (hz : ‖z‖ = 1)
    (steps : List (ℕ × ℂ)) {xs : List ℝ} {ε : ℝ} (hx : ∀ k < xs.length, |xs.getD k 0 - stepped steps z k| ≤ ε)
    {k : ℕ} (hk : k < xs.length) :
    let H := transfer (filterCoefficients (exactEnv bs u) ((exactEnv bs u).f64.ofInt rate)) z
    |(kWeighted bs u rate xs).getD k 0 - (H * (amplitude steps k * z ^ k)).re| ≤
      (steps.map fun x => if x.1 ≤ k then ‖x.2‖ * onsetError bs u rate z (k - x.1) else 0).sum + 13 * ε := by
  intro H
  have ε0 : 0 ≤ ε := (abs_nonneg _).trans (hx k hk)
  let U : ℕ → ℂ := fun n => amplitude steps n * z ^ n
  let X : ℕ → ℝ := fun n => (U n).re
  let Y : ℕ → ℝ := fun n => if n < xs.length then xs.getD n 0 else X n
  have hY : xs.take (k + 1) = (List.range (k + 1)).map Y := by
    rw [take_eq_range xs 0 hk]
    refine List.map_congr_left fun n hn => ?_
    have := List.mem_range.1 hn
    simp only [Y]
    rw [if_pos (by omega)]
  have near := steps_near (filterCoefficients (exactEnv bs u) ((exactEnv bs u).f64.ofInt rate)).1
    (filterCoefficients (exactEnv bs u) ((exactEnv bs u).f64.ofInt rate)).2 (H := H) hz
    (δ := onsetError bs u rate z) (fun n => le_rfl) steps k
  have re := (Complex.abs_re_le_norm _).trans near
  rw [Complex.sub_re, outW_re] at re
  have e : (kWeighted bs u rate xs).getD k 0 = _ := filtered_getD
    (filterCoefficients (exactEnv bs u) ((exactEnv bs u).f64.ofInt rate)).2
    (filterCoefficients (exactEnv bs u) ((exactEnv bs u).f64.ofInt rate)).1 Y hk hY
  rw [e]
  have dev := out_le bs u hr
    (w := fun n => stateSeq (filterCoefficients (exactEnv bs u) ((exactEnv bs u).f64.ofInt rate)).2 Y n -
      stateSeq (filterCoefficients (exactEnv bs u) ((exactEnv bs u).f64.ofInt rate)).2 X n)
    (x := fun n => Y n - X n) (fun n => by
      rw [stateSeq_rec _ Y n, stateSeq_rec _ X n]
      ring) (fun n hn => by rw [stateSeq_zero _ _ hn, stateSeq_zero _ _ hn, sub_zero]) (F := ε)
    (fun n => by
      simp only [Y]
      split_ifs with h
      · exact hx n h
      · simpa using ε0) k
  simp only at dev
  generalize stateSeq (filterCoefficients (exactEnv bs u) ((exactEnv bs u).f64.ofInt rate)).2 Y = SY at *
  have eX : (fun n => (amplitude steps n * z ^ n).re) = X := rfl
  rw [eX] at re
  generalize stateSeq (filterCoefficients (exactEnv bs u) ((exactEnv bs u).f64.ofInt rate)).2 X = SX at *
  generalize (filterCoefficients (exactEnv bs u) ((exactEnv bs u).f64.ofInt rate)).1 = b at *
  have d1 := abs_le.1 re
  have d2 := abs_le.1 dev
  exact abs_le.2 ⟨by linarith [d1.1, d2.1], by linarith [d1.2, d2.2]⟩

/-- **C71.** At every rate from 8 kHz on and for every sinusoid at a distance of at least `1 / M` from the poles there
is a sequence `δ`, whose sum is at most `21 M` samples and whose sum with the weights `(1 + 1 / (rate / 100 + 10)) ^ k`
is at most `71 M`, such that: when the filter is fed any number of samples within `ε` of a sinusoid whose amplitude
changes by `a` at time `t`, for each `(t, a)` in a list, each output is the current amplitude multiplied by the
transfer function, up to `13 ε` and `|a| δ (k - t)` for each step up to then. -/
theorem C71_steps (bs : BSearch) (u : Nat) {rate : Nat} (hr : 8000 ≤ rate) {z : ℂ} (hz : ‖z‖ = 1) {M : ℝ}
    (hM : ∀ p, quartic (filterCoefficients (exactEnv bs u) ((exactEnv bs u).f64.ofInt rate)).2 p = 0 → 1 ≤ M * ‖z - p‖) :
    let H := transfer (filterCoefficients (exactEnv bs u) ((exactEnv bs u).f64.ofInt rate)) z
    ∃ δ : ℕ → ℝ, (∀ n, 0 ≤ δ n) ∧ (∀ N, ∑ n ∈ Finset.range N, δ n ≤ 21 * M) ∧
      (∀ N, ∑ n ∈ Finset.range N, δ n * (1 + 1 / ((rate : ℝ) / 100 + 10)) ^ n ≤ 71 * M) ∧
      ∀ (steps : List (ℕ × ℂ)) (xs : List ℝ) (ε : ℝ), (∀ k < xs.length, |xs.getD k 0 - stepped steps z k| ≤ ε) →
        ∀ k < xs.length, |(kWeighted bs u rate xs).getD k 0 - (H * (amplitude steps k * z ^ k)).re| ≤
          (steps.map fun x => if x.1 ≤ k then ‖x.2‖ * δ (k - x.1) else 0).sum + 13 * ε := by
  intro H
  have hp : ∀ i, 1 ≤ M * ‖z - poleAt rate i‖ := fun i => hM _ (by
    rw [(poleAt_poles bs u hr).root]
    fin_cases i <;> simp)
  have h := fun N => onset_sums bs u hr hz hp N
  exact ⟨onsetError bs u rate z, onsetError_nonneg bs u rate z, fun N => (h N).1, fun N => (h N).2,
    fun steps xs ε hx k hk => kWeighted_steps bs u hr hz steps hx hk⟩

/-- **C71.** A number `M` for every frequency. -/
theorem C71_poles (bs : BSearch) (u : Nat) {rate : Nat} (hr : 8000 ≤ rate) {z : ℂ} (hz : ‖z‖ = 1) {p : ℂ}
    (hp : quartic (filterCoefficients (exactEnv bs u) ((exactEnv bs u).f64.ofInt rate)).2 p = 0) :
    1 ≤ ((rate : ℝ) / 239 + 2) * ‖z - p‖ := by
  rw [(poleAt_poles bs u hr).root] at hp
  have hR : (8000 : ℝ) ≤ rate := by exact_mod_cast hr
  obtain ⟨i, rfl⟩ : ∃ i, p = poleAt rate i := by
    simp only [mul_eq_zero, sub_eq_zero] at hp
    rcases hp with ((h | h) | h) | h
    exacts [⟨0, h⟩, ⟨1, h⟩, ⟨2, h⟩, ⟨3, h⟩]
  obtain ⟨h1, h2⟩ := poleAt_gain hr i
  have h3 : 1 / (1 - ‖poleAt rate i‖) ≤ (rate : ℝ) / 239 + 2 := by
    refine h2.trans ?_
    split_ifs
    · have : (rate : ℝ) / 7400 ≤ rate / 239 := div_le_div_of_nonneg_left (by linarith) (by norm_num) (by norm_num)
      linarith
    · exact le_rfl
  rw [div_le_iff₀ (by linarith)] at h3
  exact h3.trans (mul_le_mul_of_nonneg_left (circle_pole hz) (by positivity))

/-- **C71.** From `q` samples after the last step on, the transients are at most `71 M` times the sum of the steps,
divided by `(1 + 1 / (rate / 100 + 10)) ^ q`: they fall by a factor `e` about every 10 ms. -/
theorem C71_settled (bs : BSearch) (u : Nat) {rate : Nat} (hr : 8000 ≤ rate) {z : ℂ} (hz : ‖z‖ = 1) {M : ℝ}
    (hM : ∀ p, quartic (filterCoefficients (exactEnv bs u) ((exactEnv bs u).f64.ofInt rate)).2 p = 0 → 1 ≤ M * ‖z - p‖)
    {steps : List (ℕ × ℂ)} {xs : List ℝ} {ε : ℝ} (hx : ∀ k < xs.length, |xs.getD k 0 - stepped steps z k| ≤ ε)
    {q k : ℕ} (hk : k < xs.length) (hq : ∀ x ∈ steps, x.1 + q ≤ k) :
    let H := transfer (filterCoefficients (exactEnv bs u) ((exactEnv bs u).f64.ofInt rate)) z
    |(kWeighted bs u rate xs).getD k 0 - (H * (amplitude steps k * z ^ k)).re| ≤
      71 * M / (1 + 1 / ((rate : ℝ) / 100 + 10)) ^ q * (steps.map fun x => ‖x.2‖).sum + 13 * ε := by
  intro H
  obtain ⟨δ, d0, -, d2, d3⟩ := C71_steps bs u hr hz hM
  refine (d3 steps xs ε hx k hk).trans (add_le_add_left ?_ _)
  have hs : (1 : ℝ) ≤ 1 + 1 / ((rate : ℝ) / 100 + 10) := by
    have : (0 : ℝ) ≤ 1 / ((rate : ℝ) / 100 + 10) := by positivity
    linarith
  have one : ∀ n, q ≤ n → δ n ≤ 71 * M / (1 + 1 / ((rate : ℝ) / 100 + 10)) ^ q := fun n hn => by
    rw [le_div_iff₀ (by positivity)]
    have h1 := d2 (n + 1)
    rw [Finset.sum_range_succ] at h1
    have h2 : 0 ≤ ∑ n ∈ Finset.range n, δ n * (1 + 1 / ((rate : ℝ) / 100 + 10)) ^ n :=
      Finset.sum_nonneg fun n _ => mul_nonneg (d0 n) (by positivity)
    have h3 := mul_le_mul_of_nonneg_left (pow_le_pow_right₀ hs hn) (d0 n)
    linarith
  clear hx
  induction steps with
  | nil => simp
  | cons x l ih =>
    simp only [List.map_cons, List.sum_cons, mul_add]
    have hx := hq x (by simp)
    refine add_le_add ?_ (ih fun y hy => hq y (by simp [hy]))
    rw [if_pos (by omega), mul_comm]
    exact mul_le_mul_of_nonneg_right (one _ (by omega)) (norm_nonneg _)

/-- **C71.** A tone of 1 kHz at 48 kHz whose amplitude is `|g| α i` during the `i`-th tenth of a second, sampled with an
error of at most `ε |g|`: its mean square over `w` tenths of a second, from the `k`-th on, is `|g|²` times half the
squared gain 1.174277 times the mean of the squares of the amplitudes, up to an error that depends on the steps in the
window (`R`), the steps before it (`O`) and the largest amplitude in it (`S`). -/
theorem C71_window (bs : BSearch) (u : Nat) {α : ℕ → ℝ} {K w k : ℕ} (w0 : 0 < w) (hk : k + w ≤ K) {g : ℂ} {ε S : ℝ}
    (ε0 : 0 ≤ ε) (hS : ∀ i < w, |α (k + i)| ≤ S) {xs : List ℝ} (hl : K * 4800 ≤ xs.length)
    (hx : ∀ n < xs.length, |xs.getD n 0 - (g * (α (n / 4800) : ℝ) * tone1k ^ n).re| ≤ ‖g‖ * ε) :
    let R := ∑ i ∈ Finset.range w, |jump α (k + i)|
    let O := ∑ i ∈ Finset.range k, |jump α i|
    let H := transfer (filterCoefficients (exactEnv bs u) ((exactEnv bs u).f64.ofInt 48000)) tone1k
    |meanSquare ((List.range (w * 4800)).map fun j => (kWeighted bs u 48000 xs).getD (k * 4800 + j) 0) -
      ‖g‖ ^ 2 * (‖H‖ ^ 2 / 2 * ((∑ i ∈ Finset.range w, α (k + i) ^ 2) / w))| ≤
    ‖g‖ ^ 2 * ((2 * (1084 / 1000 * S) + (24 / 10 * R + 4 / 100 * O) + 2 * (13 * ε)) *
      ((95 * R + 4 / 100 * O) / (w * 4800 : ℕ)) + (2 * (1084 / 1000 * S) + 13 * ε) * (13 * ε)) := by
  intro R O H
  obtain ⟨t1, t2, t3⟩ := onset48 bs u
  have hper : (tone1k ^ 2) ^ 4800 = 1 := by
    rw [show 4800 = 24 * 200 by norm_num, pow_mul, tone1k_period, one_pow]
  have main := profile_window (α := α) (h := 4800) (by norm_num) w0 hk tone1k_norm tone1k_ne hper (H := H) (g := g)
    (onsetError_nonneg bs u 48000 tone1k) t1 t2 t3 (gain1k_le bs u)
    (by positivity)
    (y := fun n => (kWeighted bs u 48000 xs).getD n 0) (ε := 13 * ε) (fun n hn => by
      have hlen : (xs.take (K * 4800)).length = K * 4800 := by rw [List.length_take]; omega
      have e : (kWeighted bs u 48000 xs).getD n 0 = (kWeighted bs u 48000 (xs.take (K * 4800))).getD n 0 := by
        unfold kWeighted
        have hn' : n < xs.length := by omega
        rw [filtered_getD _ _ (fun i => xs.getD i 0) hn' (take_eq_range _ 0 hn'),
          filtered_getD _ _ (fun i => xs.getD i 0) (by omega) (by
            rw [List.take_take, Nat.min_eq_left (by omega)]
            exact take_eq_range _ 0 hn')]
      have := kWeighted_steps bs u (rate := 48000) (by norm_num) tone1k_norm (profileSteps g α 4800 K)
        (xs := xs.take (K * 4800)) (ε := ‖g‖ * ε) (fun i hi => by
          rw [hlen] at hi
          have e2 : (xs.take (K * 4800)).getD i 0 = xs.getD i 0 := by simp [List.getD, hi]
          rw [e2, stepped, amplitude_profile g α (by norm_num) hi]
          exact hx i (by omega)) (k := n) (by omega)
      rw [e]
      refine this.trans (le_of_eq ?_)
      congr 1
      ring) hS
  have e : meanSquare ((List.range (w * 4800)).map fun j => (kWeighted bs u 48000 xs).getD (k * 4800 + j) 0) =
      (∑ j ∈ Finset.range (w * 4800), (kWeighted bs u 48000 xs).getD (k * 4800 + j) 0 ^ 2) / (w * 4800 : ℕ) := by
    rw [meanSquare, List.map_map, List.length_map, List.length_range, ← list_sum_range]
    rfl
  rw [e]
  exact main

/-! ## Examples -/

/-- Half a second of a tone of 1 kHz at 48 kHz after half a second of silence: from 200 ms on, the output is the steady
response, up to a thousandth. -/
example : ∃ M : ℝ, (∀ p, quartic (filterCoefficients (exactEnv bs u) ((exactEnv bs u).f64.ofInt 48000)).2 p = 0 →
      1 ≤ M * ‖tone1k - p‖) ∧
    let xs := (List.range 48000).map (stepped [(24000, 1)] tone1k)
    ∀ k, 33600 ≤ k → k < 48000 → |(kWeighted bs u 48000 xs).getD k 0 -
      tone (transfer (filterCoefficients (exactEnv bs u) ((exactEnv bs u).f64.ofInt 48000)) tone1k) tone1k k| ≤ 1 / 10 ^ 3 := by
  have hM := fun p hp => C71_poles bs u (rate := 48000) (by norm_num) tone1k_norm (p := p) hp
  refine ⟨_, hM, fun k h1 h2 => ?_⟩
  have hx : ∀ i < ((List.range 48000).map (stepped [(24000, 1)] tone1k)).length,
      |((List.range 48000).map (stepped [(24000, 1)] tone1k)).getD i 0 - stepped [(24000, 1)] tone1k i| ≤ 0 := by
    intro i hi
    rw [List.length_map, List.length_range] at hi
    rw [List.getD, List.getElem?_map, List.getElem?_range hi]
    simp
  have h := C71_settled bs u (rate := 48000) (by norm_num) tone1k_norm hM hx (q := 9600) (k := k)
    (by rw [List.length_map, List.length_range]; exact h2) (by simp; omega)
  have ha : amplitude [(24000, 1)] k = 1 := by simp [amplitude]; omega
  rw [ha, one_mul] at h
  refine h.trans ?_
  have hpow : (10 : ℝ) ^ 8 ≤ (491 / 490) ^ 9600 := by
    have b1 : (1 : ℝ) + (48 : ℕ) * (1 / 490) ≤ (1 + 1 / 490) ^ 48 := one_add_mul_le_pow (by norm_num) 48
    have b2 : (10 : ℝ) ^ 8 ≤ (1 + (48 : ℕ) * (1 / 490)) ^ 200 := by norm_num
    calc (10 : ℝ) ^ 8 ≤ (1 + (48 : ℕ) * (1 / 490)) ^ 200 := b2
      _ ≤ ((1 + 1 / 490) ^ 48) ^ 200 := pow_le_pow_left₀ (by norm_num) b1 200
      _ = (491 / 490) ^ 9600 := by rw [← pow_mul]; norm_num
  have e : (1 : ℝ) + 1 / (((48000 : ℕ) : ℝ) / 100 + 10) = 491 / 490 := by norm_num
  rw [e]
  simp only [List.map_cons, List.map_nil, List.sum_cons, List.sum_nil, norm_one]
  generalize (491 / 490 : ℝ) ^ 9600 = P at *
  have hP : 0 < P := lt_of_lt_of_le (by norm_num) hpow
  norm_num
  rw [div_le_iff₀ hP]
  norm_num at hpow
  linarith

end Verif
