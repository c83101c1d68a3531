import Verif.Props.C43
import Verif.Props.C46
import Verif.Props.C53
/-!
# C54: response to a tone

In exact arithmetic: a sampled sinusoid leaves the K-weighting filter as the same sinusoid times the transfer function,
up to a transient that dies out; the levels the analyzer reports are those of that sinusoid. At 48 kHz a tone of 997 Hz
at full scale in one front channel reads -3.01 LUFS, the calibration of BS.1770.
-/

set_option linter.unusedSimpArgs false

namespace Verif
open Spec

variable {bs : BSearch} {u : Nat}

/-- Sample `j` of a sinusoid: complex amplitude `A` (with the phase), `z = exp (i ω)`. -/
noncomputable def Spec.tone (A z : ℂ) (j : Nat) : ℝ := (A * z ^ j).re

/-- The first `n` samples. -/
noncomputable def Spec.tones (A z : ℂ) (n : Nat) : List ℝ := (List.range n).map (tone A z)

/-- **C54.** At every stable rate there is a `ρ < 1` such that, after any signal, a sinusoid leaves the filter
multiplied by the transfer function, up to a transient dying out like `ρ ^ k`. -/
theorem C54_steady (bs : BSearch) (u : Nat) {rate : Nat} (hr : 0 < rate) (h1 : Even (3363 / rate))
    (h2 : Even (76 / rate)) {z : ℂ} (hz : ‖z‖ = 1) :
    let H := transfer (filterCoefficients (exactEnv bs u) ((exactEnv bs u).f64.ofInt rate)) z
    ∃ ρ : ℝ, 0 < ρ ∧ ρ < 1 ∧ ∀ (xs : List ℝ) (A : ℂ), ∃ C : ℝ, 0 ≤ C ∧ ∀ n k, k < n →
      |(kWeighted bs u rate (xs ++ tones A z n)).getD (xs.length + k) 0 - tone (H * A) z k| ≤ C * ρ ^ k := by
  intro H
  obtain ⟨r, hp⟩ := poles_exist bs u rate
  have hst := (C47_poles bs u hr).1 ⟨h1, h2⟩
  have hs := hp.stable hst
  have hq : quartic (filterCoefficients (exactEnv bs u) ((exactEnv bs u).f64.ofInt rate)).2 z ≠ 0 := fun h => by
    have := hst z h
    linarith
  have ha0 : (filterCoefficients (exactEnv bs u) ((exactEnv bs u).f64.ofInt rate)).2.v0 = 1 := by rw [coef_a]
  unfold kWeighted
  simp only [H, transfer]
  clear H
  generalize (filterCoefficients (exactEnv bs u) ((exactEnv bs u).f64.ofInt rate)).2 = a at *
  generalize (filterCoefficients (exactEnv bs u) ((exactEnv bs u).f64.ofInt rate)).1 = b at *
  obtain ⟨ρ, hρ, hρ1, hrρ⟩ := poles_radius hs
  refine ⟨ρ, hρ, hρ1, fun xs A => ?_⟩
  let X : ℕ → ℝ := fun n => if n < xs.length then xs.getD n 0 else tone A z (n - xs.length)
  have hXc : ∀ n, X (xs.length + n) = tone A z n := fun n => by simp [X]
  have part : ∀ n, tone (A / quartic a z) z (n + 4) = tone A z n - a.v1 * tone (A / quartic a z) z (n + 3) -
      a.v2 * tone (A / quartic a z) z (n + 2) - a.v3 * tone (A / quartic a z) z (n + 1) -
      a.v4 * tone (A / quartic a z) z n := fun n => by
    unfold tone
    rw [← Complex.re_ofReal_mul, ← Complex.re_ofReal_mul, ← Complex.re_ofReal_mul, ← Complex.re_ofReal_mul,
      ← Complex.sub_re, ← Complex.sub_re, ← Complex.sub_re, ← Complex.sub_re]
    congr 1
    have e : A * z ^ n = A / quartic a z * quartic a z * z ^ n := by rw [div_mul_cancel₀ _ hq]
    rw [e]
    generalize A / quartic a z = G
    unfold quartic
    rw [ha0]
    push_cast
    ring
  obtain ⟨C, hC⟩ := state_decays hp hrρ
    (w := fun n => stateSeq a X (xs.length + n) - tone (A / quartic a z) z n) (fun n => by
      have g1 := stateSeq_rec a X (xs.length + n)
      rw [hXc] at g1
      have g2 := part n
      simp only [← add_assoc] at g1 g2 ⊢
      rw [g1, g2]
      ring)
  have hC0 : 0 ≤ C := by
    have := (abs_nonneg _).trans (hC 0)
    simpa using this
  refine ⟨(|b.v0| + |b.v1| + |b.v2| + |b.v3| + |b.v4|) * C, by positivity, fun n k hk => ?_⟩
  have hk' : xs.length + k < (xs ++ tones A z n).length := by simp [tones]; omega
  have hX : (xs ++ tones A z n).take (xs.length + k + 1) = (List.range (xs.length + k + 1)).map X := by
    apply List.ext_getElem
    · simp [tones]; omega
    · intro i g1 g2
      simp at g1 g2
      by_cases hi : i < xs.length
      · simp [X, List.getElem_append_left, hi]
      · rw [List.getElem_take, List.getElem_append_right (by omega)]
        simp [X, hi, tones]
  rw [filtered_getD a b X hk' hX]
  have out : tone (quartic b z / quartic a z * A) z k = b.v0 * tone (A / quartic a z) z (k + 4) +
      b.v1 * tone (A / quartic a z) z (k + 3) + b.v2 * tone (A / quartic a z) z (k + 2) +
      b.v3 * tone (A / quartic a z) z (k + 1) + b.v4 * tone (A / quartic a z) z k := by
    unfold tone
    rw [← Complex.re_ofReal_mul, ← Complex.re_ofReal_mul, ← Complex.re_ofReal_mul, ← Complex.re_ofReal_mul,
      ← Complex.re_ofReal_mul, ← Complex.add_re, ← Complex.add_re, ← Complex.add_re, ← Complex.add_re]
    congr 1
    rw [div_mul_eq_mul_div, mul_div_assoc]
    generalize A / quartic a z = G
    unfold quartic
    ring
  rw [out]
  have hb : ∀ q j, |q * (stateSeq a X (xs.length + k + j) - tone (A / quartic a z) z (k + j))| ≤ |q| * (C * ρ ^ k) :=
    fun q j => by
      rw [abs_mul]
      refine mul_le_mul_of_nonneg_left ?_ (abs_nonneg _)
      have := hC (k + j)
      rw [← add_assoc] at this
      refine this.trans (mul_le_mul_of_nonneg_left ?_ hC0)
      exact pow_le_pow_of_le_one hρ.le hρ1.le (by omega)
  have e : ∀ y0 y1 y2 y3 y4 t0 t1 t2 t3 t4 : ℝ, b.v0 * y4 + b.v1 * y3 + b.v2 * y2 + b.v3 * y1 + b.v4 * y0 -
      (b.v0 * t4 + b.v1 * t3 + b.v2 * t2 + b.v3 * t1 + b.v4 * t0) =
      b.v0 * (y4 - t4) + b.v1 * (y3 - t3) + b.v2 * (y2 - t2) + b.v3 * (y1 - t1) + b.v4 * (y0 - t0) := by
    intros; ring
  rw [e, show ∀ p q s t v : ℝ, (p + q + s + t + v) * C * ρ ^ k =
    p * (C * ρ ^ k) + q * (C * ρ ^ k) + s * (C * ρ ^ k) + t * (C * ρ ^ k) + v * (C * ρ ^ k) by intros; ring]
  refine (abs_add_le _ _).trans (add_le_add ?_ (hb _ 0))
  refine (abs_add_le _ _).trans (add_le_add ?_ (hb _ 1))
  refine (abs_add_le _ _).trans (add_le_add ?_ (hb _ 2))
  exact (abs_add_le _ _).trans (add_le_add (hb _ 4) (hb _ 3))

/-! ## Mean square of a sinusoid -/

/-- Over any `N` samples the mean square of a sinusoid is half the square of its amplitude, up to
`1 / (N |1 - z²|)` of that square. -/
theorem tone_meanSquare {z : ℂ} (hz : ‖z‖ = 1) (hz2 : z ^ 2 ≠ 1) (B : ℂ) (m : Nat) {N : Nat} (hN : 0 < N) :
    |(∑ j ∈ Finset.range N, tone B z (m + j) ^ 2) / N - ‖B‖ ^ 2 / 2| ≤ ‖B‖ ^ 2 / (N * ‖1 - z ^ 2‖) := by
  have sq : ∀ w : ℂ, w.re ^ 2 = ‖w‖ ^ 2 / 2 + (w ^ 2).re / 2 := fun w => by
    rw [← Complex.normSq_eq_norm_sq, Complex.normSq_apply, pow_two w, Complex.mul_re]
    ring
  have e1 : ∀ j, tone B z (m + j) ^ 2 = ‖B‖ ^ 2 / 2 + (B ^ 2 * (z ^ 2) ^ m * (z ^ 2) ^ j).re / 2 := fun j => by
    unfold tone
    rw [sq, norm_mul, norm_pow, hz, one_pow, mul_one]
    congr 3
    ring
  have hd : 1 - z ^ 2 ≠ 0 := fun h => hz2 (sub_eq_zero.1 h).symm
  have hd0 : 0 < ‖1 - z ^ 2‖ := norm_pos_iff.2 hd
  have geo : ‖∑ j ∈ Finset.range N, (z ^ 2) ^ j‖ ≤ 2 / ‖1 - z ^ 2‖ := by
    have : (∑ j ∈ Finset.range N, (z ^ 2) ^ j) * (1 - z ^ 2) = 1 - (z ^ 2) ^ N := geom_sum_mul_neg _ _
    rw [le_div_iff₀ hd0, ← norm_mul, this]
    refine (norm_sub_le _ _).trans ?_
    rw [norm_pow, norm_pow, hz]
    norm_num
  have hN' : (0 : ℝ) < N := by exact_mod_cast hN
  have tot : (∑ j ∈ Finset.range N, tone B z (m + j) ^ 2) / N - ‖B‖ ^ 2 / 2 =
      (B ^ 2 * (z ^ 2) ^ m * ∑ j ∈ Finset.range N, (z ^ 2) ^ j).re / 2 / N := by
    rw [Finset.sum_congr rfl fun j _ => e1 j, Finset.sum_add_distrib, Finset.mul_sum, Complex.re_sum,
      Finset.sum_div]
    simp only [Finset.sum_const, Finset.card_range, nsmul_eq_mul]
    generalize ∑ j ∈ Finset.range N, (B ^ 2 * (z ^ 2) ^ m * (z ^ 2) ^ j).re / 2 = T
    field_simp
    ring
  rw [tot, abs_div, abs_div, abs_of_pos hN', abs_of_pos (by norm_num : (0 : ℝ) < 2)]
  have : |(B ^ 2 * (z ^ 2) ^ m * ∑ j ∈ Finset.range N, (z ^ 2) ^ j).re| ≤ ‖B‖ ^ 2 * (2 / ‖1 - z ^ 2‖) := by
    refine (Complex.abs_re_le_norm _).trans ?_
    rw [norm_mul, norm_mul, norm_pow, norm_pow, norm_pow, hz]
    simp only [one_pow, mul_one]
    exact mul_le_mul_of_nonneg_left geo (by positivity)
  calc _ ≤ ‖B‖ ^ 2 * (2 / ‖1 - z ^ 2‖) / 2 / N := by gcongr
    _ = _ := by field_simp

theorem tone_le {z : ℂ} (hz : ‖z‖ = 1) (B : ℂ) (k : Nat) : |tone B z k| ≤ ‖B‖ := by
  unfold tone
  refine (Complex.abs_re_le_norm _).trans ?_
  rw [norm_mul, norm_pow, hz, one_pow, mul_one]

/-- The mean square of a window of a signal that is a sinusoid up to a transient. -/
theorem window_near {z : ℂ} (hz : ‖z‖ = 1) (hz2 : z ^ 2 ≠ 1) {B : ℂ} {C ρ : ℝ} (hC : 0 ≤ C) (h0 : 0 < ρ) (h1 : ρ < 1)
    {ys : List ℝ} {p m N : Nat} (hN : 0 < N) (hl : p + m + N ≤ ys.length)
    (hy : ∀ k, m ≤ k → k < m + N → |ys.getD (p + k) 0 - tone B z k| ≤ C * ρ ^ k) :
    |meanSquare (lastN 0 N (ys.take (p + m + N))) - ‖B‖ ^ 2 / 2| ≤
      ‖B‖ ^ 2 / (N * ‖1 - z ^ 2‖) + C * (2 * ‖B‖ + C) * ρ ^ m := by
  have hlast : lastN 0 N (ys.take (p + m + N)) = (List.range N).map fun j => ys.getD (p + (m + j)) 0 := by
    have hlen : (ys.take (p + m + N)).length = p + m + N := by simp; omega
    rw [(C15_exactly 1 N 0 (0 : ℝ) (ys.take (p + m + N))).2.2.1 (by rw [hlen]; omega), hlen]
    apply List.ext_getElem
    · simp; omega
    · intro i g1 g2
      simp at g1 g2
      simp [List.getD, show p + (m + i) < ys.length by omega]
      congr 1
      omega
  have hms : meanSquare (lastN 0 N (ys.take (p + m + N))) =
      (∑ j ∈ Finset.range N, ys.getD (p + (m + j)) 0 ^ 2) / N := by
    rw [hlast, meanSquare, List.map_map, List.length_map, List.length_range]
    rfl
  rw [hms]
  have hN' : (0 : ℝ) < N := by exact_mod_cast hN
  have key : |(∑ j ∈ Finset.range N, ys.getD (p + (m + j)) 0 ^ 2) / N -
      (∑ j ∈ Finset.range N, tone B z (m + j) ^ 2) / N| ≤ C * (2 * ‖B‖ + C) * ρ ^ m := by
    rw [← sub_div, abs_div, abs_of_pos hN', div_le_iff₀ hN', ← Finset.sum_sub_distrib]
    refine (Finset.abs_sum_le_sum_abs _ _).trans ?_
    have : ∀ j ∈ Finset.range N, |ys.getD (p + (m + j)) 0 ^ 2 - tone B z (m + j) ^ 2| ≤
        C * (2 * ‖B‖ + C) * ρ ^ m := by
      intro j hj
      have hj := Finset.mem_range.1 hj
      have d := hy (m + j) (by omega) (by omega)
      have t := tone_le hz B (m + j)
      have hp : ρ ^ (m + j) ≤ ρ ^ m := pow_le_pow_of_le_one h0.le h1.le (by omega)
      have hp1 : ρ ^ (m + j) ≤ 1 := pow_le_one₀ h0.le h1.le
      generalize ys.getD (p + (m + j)) 0 = y at *
      generalize tone B z (m + j) = t' at *
      have d1 : |y - t'| ≤ C * ρ ^ m := d.trans (mul_le_mul_of_nonneg_left hp hC)
      have d2 : |y - t'| ≤ C := d.trans (by nlinarith)
      have s : |y + t'| ≤ 2 * ‖B‖ + C := by
        have := abs_le.1 d2
        have := abs_le.1 t
        exact abs_le.2 ⟨by linarith, by linarith⟩
      rw [show y ^ 2 - t' ^ 2 = (y - t') * (y + t') by ring, abs_mul]
      calc _ ≤ C * ρ ^ m * (2 * ‖B‖ + C) := mul_le_mul d1 s (abs_nonneg _) (by positivity)
        _ = _ := by ring
    refine (Finset.sum_le_sum this).trans ?_
    simp only [Finset.sum_const, Finset.card_range, nsmul_eq_mul]
    linarith
  calc _ ≤ _ := abs_sub_le _ ((∑ j ∈ Finset.range N, tone B z (m + j) ^ 2) / N) _
    _ ≤ _ := by
      have := tone_meanSquare hz hz2 B m hN
      linarith

/-! ## Channels -/

/-- Frames with the sinusoid of amplitude `A c` in channel `c`. -/
noncomputable def Spec.toneFrames (A : Nat → ℂ) (z : ℂ) (channels n : Nat) : List (Event ℝ) :=
  (List.range n).map fun j => ⟨true, (List.range channels).map fun c => tone (A c) z j⟩

theorem outsAfter_measured (A : Arith ℝ) (b a : V5 ℝ) (c : Nat) (F : List (List ℝ)) : ∀ (xs : List ℝ) (k : Nat),
    k < F.length → (outsAfter A b a 0 c xs (F.map fun f => ⟨true, f⟩)).getD k 0 =
      (filtered A b a 0 (xs ++ F.map (·.getD c 0))).getD (xs.length + k) 0 := by
  induction F with
  | nil => intro xs k hk; simp at hk
  | cons f F ih =>
    intro xs k hk
    rw [List.map_cons, outsAfter]
    cases k with
    | zero =>
      have : xs.length < (xs ++ (f :: F).map (·.getD c 0)).length := by simp
      have ht : (xs ++ (f :: F).map (·.getD c 0)).take (xs.length + 1) = xs ++ [f.getD c 0] := by
        rw [List.take_append]
        simp
      have hf : (filtered A b a 0 (xs ++ (f :: F).map (·.getD c 0))).getD (xs.length + 0) 0 =
          response A b 0 (internal A a 0 (xs ++ [f.getD c 0])) := by
        rw [filtered, add_zero, List.getD, List.getElem?_map, List.getElem?_range this, Option.map_some,
          Option.getD_some, ht]
      rw [hf]
      simp
    | succ k =>
      have := ih (xs ++ [f.getD c 0]) k (by simpa using hk)
      simp only [if_true, List.singleton_append, List.getD_cons_succ]
      rw [this]
      congr 1
      · simp
      · simp; omega

theorem toneFrames_count (A : Nat → ℂ) (z : ℂ) (channels n : Nat) : count (toneFrames A z channels n) = n := by
  rw [count, toneFrames, List.filter_eq_self.2, List.length_map, List.length_range]
  intro ev hev
  obtain ⟨j, -, rfl⟩ := List.mem_map.1 hev
  rfl

/-- **C54.** After any calls, when every channel receives a sinusoid, the mean square of each K-weighted channel over a
window of `N` frames ending `m + N` frames into the sinusoid is half the squared amplitude of the filtered
sinusoid, up to a relative error of `2 / (N |1 - z²|)` and a transient. -/
theorem C54_power (bs : BSearch) (u : Nat) {rate : Nat} (hr : 0 < rate) (h1 : Even (3363 / rate))
    (h2 : Even (76 / rate)) {z : ℂ} (hz : ‖z‖ = 1) (hz2 : z ^ 2 ≠ 1) :
    let H := transfer (filterCoefficients (exactEnv bs u) ((exactEnv bs u).f64.ofInt rate)) z
    ∃ ρ : ℝ, 0 < ρ ∧ ρ < 1 ∧ ∀ (evs : List (Event ℝ)) (channels : Nat) (A : Nat → ℂ), ∃ D : ℝ, 0 ≤ D ∧
      ∀ (ops : List (Op ℝ ℝ)) (n : Nat), heard (exactEnv bs u) channels ops = evs ++ toneFrames A z channels n →
      ∀ c < channels, ∀ m N, 0 < N → m + N ≤ n →
        |meanSquare (lastN 0 N ((signal (exactEnv bs u) rate channels ops c).take (count evs + m + N))) -
          ‖H * A c‖ ^ 2 / 2| ≤ ‖H * A c‖ ^ 2 / (N * ‖1 - z ^ 2‖) + D * ρ ^ m := by
  intro H
  obtain ⟨ρ, hρ, hρ1, hst⟩ := C54_steady bs u hr h1 h2 hz
  refine ⟨ρ, hρ, hρ1, fun evs channels A => ?_⟩
  choose C hC0 hC using fun c => hst (chan 0 c evs) (A c)
  have hD : ∀ c, 0 ≤ C c * (2 * ‖H * A c‖ + C c) := fun c =>
    mul_nonneg (hC0 c) (add_nonneg (by positivity) (hC0 c))
  refine ⟨∑ c ∈ Finset.range channels, C c * (2 * ‖H * A c‖ + C c), Finset.sum_nonneg fun c _ => hD c, ?_⟩
  intro ops n hh c hc m N hN hmn
  have hcD : C c * (2 * ‖H * A c‖ + C c) ≤ ∑ c ∈ Finset.range channels, C c * (2 * ‖H * A c‖ + C c) :=
    Finset.single_le_sum (f := fun c => C c * (2 * ‖H * A c‖ + C c)) (fun c _ => hD c) (Finset.mem_range.2 hc)
  have htf : toneFrames A z channels n = ((List.range n).map fun j =>
      (List.range channels).map fun c => tone (A c) z j).map fun f => (⟨true, f⟩ : Event ℝ) := by
    rw [toneFrames, List.map_map]
    rfl
  have hch : ((List.range n).map fun j => (List.range channels).map fun c => tone (A c) z j).map (·.getD c 0) =
      tones (A c) z n := by
    rw [tones, List.map_map]
    apply List.map_congr_left
    intro j _
    simp [List.getD, hc]
  have hsig : signal (exactEnv bs u) rate channels ops c =
      outs exactArith (filterCoefficients (exactEnv bs u) ((exactEnv bs u).f64.ofInt rate)).1
        (filterCoefficients (exactEnv bs u) ((exactEnv bs u).f64.ofInt rate)).2 0 evs c ++
      outsAfter exactArith (filterCoefficients (exactEnv bs u) ((exactEnv bs u).f64.ofInt rate)).1
        (filterCoefficients (exactEnv bs u) ((exactEnv bs u).f64.ofInt rate)).2 0 c (chan 0 c evs)
        (toneFrames A z channels n) := by
    unfold signal
    rw [hh]
    exact outs_append ..
  have hlo := outs_length exactArith (filterCoefficients (exactEnv bs u) ((exactEnv bs u).f64.ofInt rate)).1
        (filterCoefficients (exactEnv bs u) ((exactEnv bs u).f64.ofInt rate)).2 0 evs c
  have hcount := toneFrames_count A z channels n
  refine (window_near hz hz2 (hC0 c) hρ hρ1 hN (p := count evs) (m := m) ?_ ?_).trans ?_
  · rw [hsig, List.length_append, hlo, outsAfter_length, hcount]
    omega
  · intro k hk1 hk2
    have hg : (signal (exactEnv bs u) rate channels ops c).getD (count evs + k) 0 =
        (kWeighted bs u rate (chan 0 c evs ++ tones (A c) z n)).getD ((chan 0 c evs).length + k) 0 := by
      rw [hsig, List.getD, List.getElem?_append_right (by rw [hlo]; omega), ← List.getD, hlo, Nat.add_sub_cancel_left, htf,
        outsAfter_measured _ _ _ _ _ _ _ (by simp; omega), hch]
      rfl
    rw [hg]
    exact hC c n k (by omega)
  · have := mul_le_mul_of_nonneg_right hcD (pow_nonneg hρ.le m)
    linarith

/-- Weighted power of sinusoids of amplitudes `A c`, all filtered with gain `H`. -/
noncomputable def Spec.tonePower (H : ℂ) (A : Nat → ℂ) (cm : List Channel) : ℝ :=
  (cm.zipIdx.map fun x => realWeight x.1 * (‖H * A x.2‖ ^ 2 / 2)).sum

/-- `v` is the level of the power `P`, up to a relative error `δ` of the power. -/
def Spec.LevelNear (P δ v : ℝ) : Prop :=
  10 * Real.logb 10 (P * (1 - δ)) - 0.691 ≤ v ∧ v ≤ 10 * Real.logb 10 (P * (1 + δ)) - 0.691

theorem realWeight_nonneg (ch : Channel) : 0 ≤ realWeight ch := by
  unfold realWeight
  split
  · exact le_rfl
  · split
    · norm_num
    · split <;> norm_num

theorem sum_near {l : List (Channel × Nat)} {f g h : Channel × Nat → ℝ} (H : ∀ x ∈ l, |f x - g x| ≤ h x) :
    |(l.map f).sum - (l.map g).sum| ≤ (l.map h).sum := by
  induction l with
  | nil => simp
  | cons x l ih =>
    have h1 := abs_le.1 (H x (by simp))
    have h2 := abs_le.1 (ih fun y hy => H y (by simp [hy]))
    simp only [List.map_cons, List.sum_cons]
    exact abs_le.2 ⟨by linarith, by linarith⟩

theorem energy_tone (bs : BSearch) (u : Nat) {rate : Nat} (hr : 0 < rate) (h1 : Even (3363 / rate))
    (h2 : Even (76 / rate)) {z : ℂ} (hz : ‖z‖ = 1) (hz2 : z ^ 2 ≠ 1) :
    let H := transfer (filterCoefficients (exactEnv bs u) ((exactEnv bs u).f64.ofInt rate)) z
    ∃ ρ : ℝ, 0 < ρ ∧ ρ < 1 ∧ ∀ (evs : List (Event ℝ)) (A : Nat → ℂ) (cm : List Channel), ∃ D : ℝ, 0 ≤ D ∧
      ∀ (ops : List (Op ℝ ℝ)) (n : Nat), heard (exactEnv bs u) cm.length ops = evs ++ toneFrames A z cm.length n →
      ∀ L m N, 0 < N → m + N ≤ n →
        |energy (exactEnv bs u) L N (count evs + m + N) cm (signal (exactEnv bs u) rate cm.length ops) -
          tonePower H A cm| ≤ tonePower H A cm * (2 / (N * ‖1 - z ^ 2‖)) + D * ρ ^ m := by
  intro H
  obtain ⟨ρ, hρ, hρ1, hpow⟩ := C54_power bs u hr h1 h2 hz hz2
  refine ⟨ρ, hρ, hρ1, fun evs A cm => ?_⟩
  obtain ⟨D, hD, hD'⟩ := hpow evs cm.length A
  have hw : 0 ≤ (cm.zipIdx.map fun x => realWeight x.1).sum := List.sum_nonneg (by
    intro y hy
    obtain ⟨x, -, rfl⟩ := List.mem_map.1 hy
    exact realWeight_nonneg _)
  refine ⟨(cm.zipIdx.map fun x => realWeight x.1).sum * D, mul_nonneg hw hD, ?_⟩
  intro ops n hh L m N hN hmn
  rw [exact_energy_eq]
  refine (sum_near (h := fun x => realWeight x.1 * (‖H * A x.2‖ ^ 2 / (N * ‖1 - z ^ 2‖) + D * ρ ^ m)) ?_).trans
    (le_of_eq ?_)
  · rintro ⟨ch, c⟩ hx
    have hc : c < cm.length := by
      have := List.snd_lt_of_mem_zipIdx hx
      simpa using this
    rw [← mul_sub, abs_mul, abs_of_nonneg (realWeight_nonneg ch)]
    exact mul_le_mul_of_nonneg_left (hD' ops n hh c hc m N hN hmn) (realWeight_nonneg ch)
  · unfold tonePower
    rw [← List.sum_map_mul_right, ← List.sum_map_mul_right, ← List.sum_map_mul_right, ← List.sum_map_add]
    congr 1
    apply List.map_congr_left
    intro x _
    ring

/-- The transient has died out. -/
theorem energy_tone_eventually (bs : BSearch) (u : Nat) {rate : Nat} (hr : 0 < rate) (h1 : Even (3363 / rate))
    (h2 : Even (76 / rate)) {z : ℂ} (hz : ‖z‖ = 1) (hz2 : z ^ 2 ≠ 1) (evs : List (Event ℝ)) (A : Nat → ℂ)
    (cm : List Channel) {P : ℝ}
    (hP : P = tonePower (transfer (filterCoefficients (exactEnv bs u) ((exactEnv bs u).f64.ofInt rate)) z) A cm)
    (hP0 : 0 < P) {N : Nat} (hN : 0 < N) {δ : ℝ} (hδ : 2 / (N * ‖1 - z ^ 2‖) < δ) :
    ∃ m0, ∀ (ops : List (Op ℝ ℝ)) (n : Nat), heard (exactEnv bs u) cm.length ops = evs ++ toneFrames A z cm.length n →
      ∀ L m, m0 ≤ m → m + N ≤ n →
        P * (1 - δ) ≤ energy (exactEnv bs u) L N (count evs + m + N) cm (signal (exactEnv bs u) rate cm.length ops) ∧
        energy (exactEnv bs u) L N (count evs + m + N) cm (signal (exactEnv bs u) rate cm.length ops) ≤ P * (1 + δ) := by
  obtain ⟨ρ, hρ, hρ1, hen⟩ := energy_tone bs u hr h1 h2 hz hz2
  obtain ⟨D, hD, hen⟩ := hen evs A cm
  rw [← hP] at hen
  have hε : 0 < P * (δ - 2 / (N * ‖1 - z ^ 2‖)) / (D + 1) := by
    have : 0 < δ - 2 / (N * ‖1 - z ^ 2‖) := by linarith
    positivity
  obtain ⟨m0, hm0⟩ := exists_pow_lt_of_lt_one hε hρ1
  refine ⟨m0, fun ops n hh L m hm hmn => ?_⟩
  have := abs_le.1 (hen ops n hh L m N hN hmn)
  have h3 : D * ρ ^ m ≤ P * (δ - 2 / (N * ‖1 - z ^ 2‖)) := by
    have a1 : ρ ^ m ≤ ρ ^ m0 := pow_le_pow_of_le_one hρ.le hρ1.le hm
    have a2 : ρ ^ m * (D + 1) ≤ P * (δ - 2 / (N * ‖1 - z ^ 2‖)) := by
      rw [← le_div_iff₀ (by positivity)]
      linarith
    have a3 : 0 ≤ ρ ^ m := by positivity
    nlinarith
  constructor <;> nlinarith

theorem exact_level {x : ℝ} (hx : 0 < x) : level (exactEnv bs u) x = 10 * Real.logb 10 x - 0.691 := by
  rw [level_pos hx]
  show ((10 : Int) : ℝ) / ((1 : Nat) : ℝ) * Real.logb 10 x - ((691 : Int) : ℝ) / ((1000 : Nat) : ℝ) = _
  norm_num

theorem levelNear_of {P δ x : ℝ} (hP : 0 < P) (hδ : δ < 1) (h1 : P * (1 - δ) ≤ x) (h2 : x ≤ P * (1 + δ)) :
    LevelNear P δ (10 * Real.logb 10 x - 0.691) := by
  have h0 : 0 < P * (1 - δ) := mul_pos hP (by linarith)
  have hx : 0 < x := by linarith
  have a1 := Real.logb_le_logb_of_le (by norm_num : (1 : ℝ) < 10) h0 h1
  have a2 := Real.logb_le_logb_of_le (by norm_num : (1 : ℝ) < 10) hx h2
  exact ⟨by linarith, by linarith⟩

/-- **C54.** After any calls, when every channel receives a sinusoid for long enough, the momentary, short-term and
window loudness are the level of the filtered sinusoids; the relative error of the power comes from the window not
being a whole number of periods. -/
theorem C54_windows {e0 : Ebu ℝ ℝ} (h0 : Started (exactEnv bs u) e0) (ha : Adequate e0.mode e0.rate e0.window)
    (h1 : Even (3363 / e0.rate)) (h2 : Even (76 / e0.rate)) {z : ℂ} (hz : ‖z‖ = 1) (hz2 : z ^ 2 ≠ 1)
    (evs : List (Event ℝ)) (A : Nat → ℂ) {P δ : ℝ}
    (hP : P = tonePower (transfer (filterCoefficients (exactEnv bs u) ((exactEnv bs u).f64.ofInt e0.rate)) z) A
      e0.channelMap) (hP0 : 0 < P) (hδ : δ < 1) :
    let fed := fun (n : Nat) (e : Ebu ℝ ℝ) => ∃ ops, (∀ op ∈ ops, Feed op) ∧
      heard (exactEnv bs u) e0.channels ops = evs ++ toneFrames A z e0.channels n ∧
      runOps (exactEnv bs u) e0 ops = .done e
    let error := fun N : Nat => 2 / (N * ‖1 - z ^ 2‖)
    (error (4 * hop e0.rate) < δ → ∃ n0, ∀ n e, n0 ≤ n → fed n e →
      ∃ v, ask (exactEnv bs u) e .loudnessMomentary = .done (.ok v) ∧ LevelNear P δ v) ∧
    (error (30 * hop e0.rate) < δ → 30 * hop e0.rate ≤ capacity e0.rate e0.window → ∃ n0, ∀ n e, n0 ≤ n → fed n e →
      ∃ v, ask (exactEnv bs u) e .loudnessShortterm = .done (.ok v) ∧ LevelNear P δ v) ∧
    ∀ w : UInt32, e0.rate * w.toNat ≤ u → 0 < e0.rate * w.toNat / 1000 →
      e0.rate * w.toNat / 1000 ≤ capacity e0.rate e0.window →
      error (e0.rate * w.toNat / 1000) < δ → ∃ n0, ∀ n e, n0 ≤ n → fed n e →
      ∃ v, ask (exactEnv bs u) e (.loudnessWindow w) = .done (.ok v) ∧ LevelNear P δ v := by
  intro fed error
  have hi := h0.reachable.inv
  have hr : 0 < e0.rate := by have := hi.rate16; omega
  have hlen : e0.channelMap.length = e0.channels := hi.map
  have key : ∀ N : Nat, 0 < N → error N < δ → ∃ n0, ∀ n ops, n0 ≤ n →
      heard (exactEnv bs u) e0.channels ops = evs ++ toneFrames A z e0.channels n →
      LevelNear P δ (level (exactEnv bs u) (energy (exactEnv bs u) (capacity e0.rate e0.window) N
        (measured (exactEnv bs u) e0.channels ops) e0.channelMap (signal (exactEnv bs u) e0.rate e0.channels ops))) := by
    intro N hN hd
    obtain ⟨m0, hm0⟩ := energy_tone_eventually bs u hr h1 h2 hz hz2 evs A e0.channelMap hP hP0 hN hd
    rw [hlen] at hm0
    refine ⟨m0 + N, fun n ops hn hh => ?_⟩
    obtain ⟨g1, g2⟩ := hm0 ops n hh (capacity e0.rate e0.window) (n - N) (by omega) (by omega)
    have hm : measured (exactEnv bs u) e0.channels ops = count evs + (n - N) + N := by
      unfold measured
      rw [hh, count_append, toneFrames_count]
      omega
    rw [hm, exact_level (lt_of_lt_of_le (mul_pos hP0 (by linarith)) g1)]
    exact levelNear_of hP0 hδ g1 g2
  have hh : 0 < hop e0.rate := hop_pos (by have := hi.rate16; omega)
  refine ⟨fun hd => ?_, fun hd hc => ?_, fun w hw hw0 hc hd => ?_⟩
  · obtain ⟨n0, hn0⟩ := key (4 * hop e0.rate) (by omega) hd
    refine ⟨n0, fun n e hn ⟨ops, f1, f2, f3⟩ => ⟨_, (C15_windows rfl h0 ha f1 f3).1, hn0 n ops hn f2⟩⟩
  · obtain ⟨n0, hn0⟩ := key (30 * hop e0.rate) (by omega) hd
    refine ⟨n0, fun n e hn ⟨ops, f1, f2, f3⟩ => ⟨_, ?_, hn0 n ops hn f2⟩⟩
    rw [(C15_windows rfl h0 ha f1 f3).2.1, if_neg (by omega)]
  · obtain ⟨n0, hn0⟩ := key (e0.rate * w.toNat / 1000) hw0 hd
    refine ⟨n0, fun n e hn ⟨ops, f1, f2, f3⟩ => ⟨_, ?_, hn0 n ops hn f2⟩⟩
    rw [(C15_windows rfl h0 ha f1 f3).2.2 w, if_neg (by
      rintro (hh | hh)
      · exact absurd hh (Nat.not_lt.2 hw)
      · omega)]

/-! ## Integrated loudness -/

/-- Blocks at or above the absolute gate. -/
noncomputable def gated (es : List ℝ) : List ℝ := es.filter fun x => @decide (absoluteGate ≤ x) (Classical.propDecidable _)

theorem gated_cons (x : ℝ) (es : List ℝ) :
    gated (x :: es) = if absoluteGate ≤ x then x :: gated es else gated es := by
  unfold gated
  rw [List.filter_cons]
  simp

/-- Blocks in a queue: those at or above the gate, without some of the oldest. -/
theorem fold_queue (max : Nat) (es : List ℝ) : ∀ q : List ℝ, ∃ d, d ≤ (gated es).length ∧
    es.foldl (History.addP (exactEnv bs u)) (.queue q max) = .queue ((q ++ gated es).drop d) max ∧
    (gated es ≠ [] → d < (q ++ gated es).length) := by
  induction es with
  | nil => exact fun q => ⟨0, by simp, by simp [gated], fun h => absurd rfl h⟩
  | cons x es ih =>
    intro q
    rw [List.foldl_cons, gated_cons]
    by_cases hx : absoluteGate ≤ x
    · have hadd : (History.queue q max).addP (exactEnv bs u) x = .queue (queueAdd q max x) max := by
        unfold History.addP
        rw [if_neg]
        rw [exact_gate]
        simp [exactEnv, exactArith, hx]
      rw [hadd, if_pos hx]
      obtain ⟨d, h0, h1, h2⟩ := ih (queueAdd q max x)
      rw [h1]
      have hq : ∃ k ≤ 1, k ≤ q.length ∧ queueAdd q max x = q.drop k ++ [x] := by
        unfold queueAdd
        split
        · by_cases hl : 1 ≤ q.length
          · exact ⟨1, le_rfl, hl, rfl⟩
          · have : q = [] := by
              apply List.eq_nil_of_length_eq_zero
              omega
            exact ⟨0, by omega, by omega, by simp [this]⟩
        · exact ⟨0, by omega, by omega, rfl⟩
      obtain ⟨k, k1, k2, hk⟩ := hq
      have e2 : queueAdd q max x ++ gated es = (q ++ x :: gated es).drop k := by
        rw [hk, List.drop_append_of_le_length k2, List.append_assoc]
        rfl
      refine ⟨k + d, by simp; omega, by rw [e2, List.drop_drop], fun _ => ?_⟩
      by_cases hne : gated es = []
      · rw [hne] at h0 ⊢
        simp at h0 ⊢
        omega
      · have := h2 hne
        rw [e2, List.length_drop] at this
        omega
    · have hadd : (History.queue q max).addP (exactEnv bs u) x = .queue q max := by
        unfold History.addP
        rw [if_pos]
        rw [exact_gate]
        simpa [exactEnv, exactArith] using hx
      rw [hadd, if_neg hx]
      exact ih q

theorem sum_le_mul {l : List ℝ} {b : ℝ} (h : ∀ x ∈ l, x ≤ b) : l.sum ≤ l.length * b := by
  have := List.sum_le_card_nsmul l b h
  simpa using this

theorem mul_le_sum {l : List ℝ} {a : ℝ} (h : ∀ x ∈ l, a ≤ x) : l.length * a ≤ l.sum := by
  have := List.card_nsmul_le_sum l a h
  simpa using this

/-- A few odd blocks among many blocks in a narrow range hardly change the result of the gating. -/
theorem passing_near {old new : List ℝ} {M a b η : ℝ} (ho : ∀ x ∈ old, 0 ≤ x ∧ x ≤ M) (hn : ∀ x ∈ new, a ≤ x ∧ x ≤ b)
    (hne : new ≠ []) (ha : 0 < a) (hM : 0 ≤ M) (hη : 0 ≤ η) (hl : (old.length : ℝ) ≤ η * new.length)
    (hb : b + η * M ≤ 10 * a) :
    a / (1 + η) ≤ mean (exactEnv bs u).f64 (passing (exactEnv bs u) (old ++ new)) ∧
    mean (exactEnv bs u).f64 (passing (exactEnv bs u) (old ++ new)) ≤ b + η * M := by
  have hn0 : (0 : ℝ) < new.length := by
    have : 0 < new.length := List.length_pos_iff.2 hne
    exact_mod_cast this
  have s1 := sum_le_mul fun x hx => (ho x hx).2
  have s2 := sum_le_mul fun x hx => (hn x hx).2
  have s3 := mul_le_sum fun x hx => (hn x hx).1
  have hab : a ≤ b := by
    obtain ⟨x, hx⟩ := List.exists_mem_of_ne_nil _ hne
    exact (hn x hx).1.trans (hn x hx).2
  have up : ∀ o : List ℝ, (o.length : ℝ) ≤ η * new.length → o.sum ≤ o.length * M →
      (o ++ new).sum / (o ++ new).length ≤ b + η * M := by
    intro o h1 h2
    rw [List.sum_append, List.length_append, Nat.cast_add]
    have h3 : (0 : ℝ) ≤ o.length := Nat.cast_nonneg _
    rw [div_le_iff₀ (by linarith)]
    have h4 : (o.length : ℝ) * M ≤ η * new.length * M := mul_le_mul_of_nonneg_right h1 hM
    have h5 : 0 ≤ (o.length : ℝ) * (b + η * M) := mul_nonneg h3 (by nlinarith)
    nlinarith
  have hgate : gateLevel (exactEnv bs u) (old ++ new) ≤ a := by
    have h1 := up old hl s1
    have h2 : gateLevel (exactEnv bs u) (old ++ new) = (old ++ new).sum / (old ++ new).length * (1 / 10) := by
      unfold gateLevel
      rw [exact_mean, exact_tenth_eq]
      rfl
    rw [h2]
    linarith
  have hpass : ∃ o : List ℝ, passing (exactEnv bs u) (old ++ new) = o ++ new ∧ o.length ≤ old.length ∧ ∀ x ∈ o, x ∈ old := by
    refine ⟨old.filter fun x => (exactEnv bs u).f64.le (gateLevel (exactEnv bs u) (old ++ new)) x, ?_,
      List.length_filter_le _ _, fun x hx => (List.mem_filter.1 hx).1⟩
    unfold passing
    rw [List.filter_append]
    congr 1
    refine List.filter_eq_self.2 fun x hx => ?_
    rw [exact_le]
    exact hgate.trans (hn x hx).1
  obtain ⟨o, hp, ol, om⟩ := hpass
  rw [hp, exact_mean]
  have ol' : (o.length : ℝ) ≤ η * new.length := le_trans (by exact_mod_cast ol) hl
  refine ⟨?_, up o ol' (sum_le_mul fun x hx => (ho x (om x hx)).2)⟩
  have o0 : 0 ≤ o.sum := List.sum_nonneg fun x hx => (ho x (om x hx)).1
  rw [List.sum_append, List.length_append, Nat.cast_add]
  have h3 : (0 : ℝ) ≤ o.length := Nat.cast_nonneg _
  rw [div_le_div_iff₀ (by linarith) (by linarith)]
  have : a * (o.length + new.length) ≤ new.length * a * (1 + η) := by nlinarith
  refine this.trans ?_
  exact mul_le_mul_of_nonneg_right (by linarith) (by linarith)

/-- Block energies of bounded signals are bounded. -/
theorem meanSquare_le {l : List ℝ} {K : ℝ} (h : ∀ y ∈ l, |y| ≤ K) : 0 ≤ meanSquare l ∧ meanSquare l ≤ K ^ 2 := by
  unfold meanSquare
  have h1 : ∀ x ∈ l.map fun x => x ^ 2, x ≤ K ^ 2 := by
    intro x hx
    obtain ⟨y, hy, rfl⟩ := List.mem_map.1 hx
    rw [← sq_abs]
    exact pow_le_pow_left₀ (abs_nonneg _) (h y hy) 2
  have h2 : 0 ≤ (l.map fun x => x ^ 2).sum := List.sum_nonneg (by
    intro x hx
    obtain ⟨y, -, rfl⟩ := List.mem_map.1 hx
    positivity)
  have h3 := sum_le_mul h1
  rw [List.length_map] at h3
  refine ⟨by positivity, ?_⟩
  by_cases hl : l.length = 0
  · rw [hl]
    simp
    positivity
  · have : (0 : ℝ) < l.length := by exact_mod_cast Nat.pos_of_ne_zero hl
    rw [div_le_iff₀ this]
    linarith

theorem mem_lastN {N : Nat} {ys : List ℝ} {y : ℝ} (h : y ∈ lastN 0 N ys) : y = 0 ∨ y ∈ ys := by
  unfold lastN at h
  rcases List.mem_append.1 (List.mem_of_mem_drop h) with h | h
  · exact .inl (List.mem_replicate.1 h).2
  · exact .inr h

theorem energy_bounded (bs : BSearch) (u : Nat) {rate : Nat} (hr : 0 < rate) (h1 : Even (3363 / rate))
    (h2 : Even (76 / rate)) {z : ℂ} (hz : ‖z‖ = 1) (evs : List (Event ℝ)) (A : Nat → ℂ) (cm : List Channel) :
    ∃ M : ℝ, 0 ≤ M ∧ ∀ (ops : List (Op ℝ ℝ)) (n : Nat),
      heard (exactEnv bs u) cm.length ops = evs ++ toneFrames A z cm.length n → ∀ L N t,
      0 ≤ energy (exactEnv bs u) L N t cm (signal (exactEnv bs u) rate cm.length ops) ∧
      energy (exactEnv bs u) L N t cm (signal (exactEnv bs u) rate cm.length ops) ≤ M := by
  obtain ⟨B, hB⟩ := C47_signal bs u hr h1 h2
  have hx : ∀ c, ∃ K, 0 ≤ K ∧ ∀ x ∈ chan 0 c evs, |x| ≤ K := fun c => by
    generalize chan 0 c evs = l
    induction l with
    | nil => exact ⟨0, le_rfl, by simp⟩
    | cons x l ih =>
      obtain ⟨K, hK0, hK⟩ := ih
      refine ⟨max |x| K, le_max_of_le_right hK0, fun y hy => ?_⟩
      rcases List.mem_cons.1 hy with rfl | hy
      · exact le_max_left _ _
      · exact (hK y hy).trans (le_max_right _ _)
  choose K hK0 hK using hx
  refine ⟨(cm.zipIdx.map fun x => realWeight x.1 * |B * (K x.2 + ‖A x.2‖)| ^ 2).sum, ?_, ?_⟩
  · refine List.sum_nonneg ?_
    intro x hx
    obtain ⟨y, -, rfl⟩ := List.mem_map.1 hx
    exact mul_nonneg (realWeight_nonneg _) (by positivity)
  · intro ops n hh L N t
    have hms : ∀ x ∈ cm.zipIdx, 0 ≤ meanSquare (lastN 0 N ((signal (exactEnv bs u) rate cm.length ops x.2).take t)) ∧
        meanSquare (lastN 0 N ((signal (exactEnv bs u) rate cm.length ops x.2).take t)) ≤
          |B * (K x.2 + ‖A x.2‖)| ^ 2 := by
      rintro ⟨ch, c⟩ hx
      have hc : c < cm.length := by
        have := List.snd_lt_of_mem_zipIdx hx
        simpa using this
      refine meanSquare_le fun y hy => ?_
      rcases mem_lastN hy with rfl | hy
      · rw [abs_zero]; exact abs_nonneg _
      · refine (hB (K c + ‖A c‖) cm.length ops c ?_ y (List.mem_of_mem_take hy)).trans (le_abs_self _)
        intro x hx
        rw [hh] at hx
        unfold chan at hx
        rw [List.map_append] at hx
        rcases List.mem_append.1 hx with hx | hx
        · have := hK c x hx
          have := norm_nonneg (A c)
          linarith
        · obtain ⟨ev, hev, rfl⟩ := List.mem_map.1 hx
          obtain ⟨j, -, rfl⟩ := List.mem_map.1 hev
          have := tone_le hz (A c) j
          have := hK0 c
          simp [List.getD, hc]
          linarith
    rw [exact_energy_eq]
    constructor
    · refine List.sum_nonneg ?_
      intro x hx
      obtain ⟨y, hy, rfl⟩ := List.mem_map.1 hx
      exact mul_nonneg (realWeight_nonneg _) (hms y hy).1
    · exact List.sum_le_sum fun x hx => mul_le_mul_of_nonneg_left (hms x hx).2 (realWeight_nonneg _)

theorem blockEnds_from (s j1 n : Nat) (h4 : 4 ≤ j1) (hn : j1 ≤ n / s + 1) :
    ∃ old, blockEnds s n = old ++ (List.range (n / s + 1 - j1)).map (fun i => (j1 + i) * s) ∧ old.length ≤ j1 := by
  unfold blockEnds
  refine ⟨((List.range j1).filter fun j => 4 ≤ j).map (· * s), ?_, ?_⟩
  · conv_lhs => rw [show n / s + 1 = j1 + (n / s + 1 - j1) by omega, List.range_add]
    rw [List.filter_append, List.map_append]
    congr 1
    rw [List.filter_eq_self.2, List.map_map]
    · rfl
    · intro x hx
      obtain ⟨i, -, rfl⟩ := List.mem_map.1 hx
      simp
      omega
  · rw [List.length_map]
    exact (List.length_filter_le _ _).trans (by simp)

theorem gated_append (l l' : List ℝ) : gated (l ++ l') = gated l ++ gated l' := by
  unfold gated; rw [List.filter_append]

theorem gated_all {l : List ℝ} (h : ∀ x ∈ l, absoluteGate ≤ x) : gated l = l :=
  List.filter_eq_self.2 fun x hx => by simpa using h x hx

/-- **C54.** The same for the integrated loudness, if the sinusoids are above the absolute gate: whatever was measured
before, the result tends to the level of the filtered sinusoids. -/
theorem C54_integrated {e0 : Ebu ℝ ℝ} (h0 : Started (exactEnv bs u) e0) (ha : Adequate e0.mode e0.rate e0.window)
    (hI : e0.mode.contains Mode.I = true) {max : Nat} (hq : e0.blockEnergyHistory = .queue [] max)
    (h1 : Even (3363 / e0.rate)) (h2 : Even (76 / e0.rate)) {z : ℂ} (hz : ‖z‖ = 1) (hz2 : z ^ 2 ≠ 1)
    (evs : List (Event ℝ)) (A : Nat → ℂ) {P δ : ℝ}
    (hP : P = tonePower (transfer (filterCoefficients (exactEnv bs u) ((exactEnv bs u).f64.ofInt e0.rate)) z) A
      e0.channelMap) (hδ : δ ≤ 1 / 2) (hg : absoluteGate ≤ P * (1 - δ))
    (herr : 2 / ((4 * hop e0.rate : Nat) * ‖1 - z ^ 2‖) < δ) :
    ∃ n0, ∀ n e ops, n0 ≤ n → (∀ op ∈ ops, Feed op) →
      heard (exactEnv bs u) e0.channels ops = evs ++ toneFrames A z e0.channels n →
      runOps (exactEnv bs u) e0 ops = .done e →
      ∃ v, ask (exactEnv bs u) e .loudnessGlobal = .done (.ok v) ∧ LevelNear P δ v := by
  have hi := h0.reachable.inv
  have hr : 0 < e0.rate := by have := hi.rate16; omega
  have hlen : e0.channelMap.length = e0.channels := hi.map
  have hh : 0 < hop e0.rate := hop_pos hi.rate16
  have hgp := absoluteGate_pos
  have herr0 : 0 ≤ 2 / ((4 * hop e0.rate : Nat) * ‖1 - z ^ 2‖) := by positivity
  have hP0 : 0 < P := by nlinarith
  obtain ⟨δ', d1, d2⟩ := exists_between herr
  obtain ⟨m0, hm0⟩ := energy_tone_eventually bs u hr h1 h2 hz hz2 evs A e0.channelMap hP hP0
    (N := 4 * hop e0.rate) (by omega) d1
  obtain ⟨M, hM0, hM⟩ := energy_bounded bs u hr h1 h2 hz evs A e0.channelMap
  rw [hlen] at hm0 hM
  generalize hs : hop e0.rate = s at *
  let κ := δ - δ'
  have hκ : 0 < κ := by simp only [κ]; linarith
  let η := κ * P / (M + P)
  have hη : 0 < η := by positivity
  have hηM : η * M ≤ κ * P := by
    simp only [η]
    rw [div_mul_eq_mul_div, div_le_iff₀ (by linarith)]
    nlinarith [mul_nonneg hκ.le hP0.le, mul_pos hκ hP0]
  have hηκ : η * P ≤ κ * P := by
    simp only [η]
    rw [div_mul_eq_mul_div, div_le_iff₀ (by linarith)]
    nlinarith [mul_nonneg hκ.le hP0.le, mul_pos hκ hP0, mul_nonneg (mul_pos hκ hP0).le hM0]
  let j1 := (count evs + m0) / s + 5
  obtain ⟨K, hK⟩ := exists_nat_ge ((j1 : ℝ) / η)
  refine ⟨s * (j1 + K + 1), fun n e ops hn hops heq hrun => ?_⟩
  have b1 := (C13_blocks rfl h0 ha hops hrun).1 hI
  rw [foldL_add _ hi.hist] at b1
  injection b1 with b1
  have hmeas : measured (exactEnv bs u) e0.channels ops = count evs + n := by
    unfold measured
    rw [heq, count_append, toneFrames_count]
  have hjn : j1 + K + 1 ≤ (count evs + n) / s := by
    rw [Nat.le_div_iff_mul_le hh]
    calc (j1 + K + 1) * s = s * (j1 + K + 1) := Nat.mul_comm _ _
      _ ≤ _ := by omega
  obtain ⟨olds, hsplit, hol⟩ := blockEnds_from s j1 (count evs + n)
    (le_trans (by omega : 4 ≤ 5) (Nat.le_add_left _ _)) (by omega)
  rw [hs, hmeas, hsplit, List.map_append, hq] at b1
  generalize hen : (fun m => energy (exactEnv bs u) (capacity e0.rate e0.window) (4 * s) m e0.channelMap
    (signal (exactEnv bs u) e0.rate e0.channels ops)) = en at b1
  obtain ⟨d, -, hf, hd⟩ := fold_queue (bs := bs) (u := u) max
    (olds.map en ++ ((List.range ((count evs + n) / s + 1 - j1)).map fun i => (j1 + i) * s).map en) []
  rw [hf] at b1
  have hnew : ∀ x ∈ ((List.range ((count evs + n) / s + 1 - j1)).map fun i => (j1 + i) * s).map en,
      P * (1 - δ') ≤ x ∧ x ≤ P * (1 + δ') := by
    intro x hx
    obtain ⟨t, ht, rfl⟩ := List.mem_map.1 hx
    obtain ⟨i, hi', rfl⟩ := List.mem_map.1 ht
    have hi' := List.mem_range.1 hi'
    have t1 : (j1 + i) * s ≤ count evs + n := by
      rw [← Nat.le_div_iff_mul_le hh]
      omega
    have t2 : count evs + m0 + 4 * s ≤ (j1 + i) * s := by
      have : count evs + m0 < ((count evs + m0) / s + 1) * s := (Nat.div_lt_iff_lt_mul hh).1 (Nat.lt_succ_self _)
      have h5 : ((count evs + m0) / s + 1 + 4) * s ≤ (j1 + i) * s := Nat.mul_le_mul_right s (by simp only [j1]; omega)
      rw [Nat.add_mul _ 4] at h5
      omega
    have := hm0 ops n heq (capacity e0.rate e0.window) ((j1 + i) * s - 4 * s - count evs) (by omega) (by omega)
    rw [show count evs + ((j1 + i) * s - 4 * s - count evs) + 4 * s = (j1 + i) * s by omega] at this
    rw [← hen]
    exact this
  generalize hns : ((List.range ((count evs + n) / s + 1 - j1)).map fun i => (j1 + i) * s).map en = ns at *
  have hnl : K < ns.length := by
    rw [← hns, List.length_map, List.length_map, List.length_range]
    omega
  have hold : ∀ x ∈ gated (olds.map en), 0 < x ∧ x ≤ M := by
    intro x hx
    have hx0 : absoluteGate ≤ x := by simpa using (List.mem_filter.1 hx).2
    refine ⟨by linarith, ?_⟩
    obtain ⟨t, -, rfl⟩ := List.mem_map.1 (List.mem_filter.1 hx).1
    rw [← hen]
    exact (hM ops n heq _ _ _).2
  have hlold : (gated (olds.map en)).length ≤ j1 :=
    (List.length_filter_le _ _).trans (by rw [List.length_map]; exact hol)
  have hgn : gated ns = ns := gated_all fun x hx => by
    have := (hnew x hx).1
    nlinarith
  rw [List.nil_append, gated_append, hgn] at b1 hd
  have hd := hd (by
    intro h
    have := congrArg List.length h
    simp at this
    have := List.length_pos_iff.1 (Nat.lt_of_le_of_lt (Nat.zero_le _) hnl)
    exact this ‹_ ∧ _›.2)
  generalize gated (olds.map en) = old at *
  have hdrop : ∃ o w, (old ++ ns).drop d = o ++ w ∧ (∀ x ∈ o, 0 < x ∧ x ≤ M) ∧
      (∀ x ∈ w, P * (1 - δ') ≤ x ∧ x ≤ P * (1 + δ')) ∧ w ≠ [] ∧ (o.length : ℝ) ≤ η * w.length := by
    by_cases hdl : d ≤ old.length
    · refine ⟨old.drop d, ns, List.drop_append_of_le_length hdl, fun x hx => hold x (List.mem_of_mem_drop hx), hnew,
        List.length_pos_iff.1 (by omega), ?_⟩
      have a1 : ((old.drop d).length : ℝ) ≤ j1 := by
        rw [List.length_drop]
        exact_mod_cast (by omega : old.length - d ≤ j1)
      have a2 : (K : ℝ) ≤ ns.length := by exact_mod_cast hnl.le
      rw [div_le_iff₀ hη] at hK
      nlinarith
    · refine ⟨[], ns.drop (d - old.length), ?_, by simp, fun x hx => hnew x (List.mem_of_mem_drop hx), ?_, ?_⟩
      · rw [List.drop_append, List.drop_eq_nil_of_le (by omega)]
      · rw [Ne, List.drop_eq_nil_iff]
        rw [List.length_append] at hd
        omega
      · simp
        positivity
  obtain ⟨o, w, hdo, ho, hw, hwne, hol'⟩ := hdrop
  rw [hdo] at b1
  have hpos : ∀ x ∈ o ++ w, 0 < x := by
    intro x hx
    rcases List.mem_append.1 hx with hx | hx
    · exact (ho x hx).1
    · have := (hw x hx).1
      nlinarith
  have hmode : e.mode.contains Mode.I = true := by rw [runFeeds_mode hops hi hrun]; exact hI
  have hint := exact_integrated (Reachable.run_ops h0.reachable hrun).inv hmode b1.symm hpos (by simp [hwne])
  have hδ0 : 0 ≤ δ' := by linarith
  obtain ⟨p1, p2⟩ := passing_near (bs := bs) (u := u) (fun x hx => ⟨(ho x hx).1.le, (ho x hx).2⟩) hw hwne (by nlinarith) hM0 hη.le hol' (by nlinarith)
  refine ⟨_, hint, ?_⟩
  have hl : ∀ x, lufsD (exactEnv bs u) x = 10 * Real.logb 10 x - 0.691 := fun x => by
    show ((10 : Int) : ℝ) / ((1 : Nat) : ℝ) * Real.logb 10 x - ((691 : Int) : ℝ) / ((1000 : Nat) : ℝ) = _
    norm_num
  rw [hl]
  refine levelNear_of hP0 (by linarith) (le_trans ?_ p1) (p2.trans ?_)
  · rw [le_div_iff₀ (by linarith)]
    have : P * δ' ≥ 0 := by positivity
    have e1 : P * (1 - δ) * (1 + η) ≤ P * (1 - δ) + η * P := by
      have := mul_nonneg (mul_pos hη hP0).le (by linarith : 0 ≤ δ)
      nlinarith
    have e2 : κ * P = P * δ - P * δ' := by simp only [κ]; ring
    nlinarith
  · have e2 : κ * P = P * δ - P * δ' := by simp only [κ]; ring
    nlinarith

/-! ## Calibration -/

/-- A tone of 997 Hz at 48 kHz. -/
noncomputable def Spec.tone997 : ℂ := Complex.exp ((2 * Real.pi * 997 / 48000 : ℝ) * Complex.I)

theorem tone997_norm : ‖tone997‖ = 1 := Complex.norm_exp_ofReal_mul_I _

/-- Square of the absolute value of a quadratic on the unit circle. -/
theorem quad_norm (α β γ : ℝ) {z : ℂ} (hz : ‖z‖ = 1) :
    ‖(α : ℂ) * z ^ 2 + β * z + γ‖ ^ 2 = (β + α * z.re + γ * z.re) ^ 2 + (α - γ) ^ 2 * (1 - z.re ^ 2) := by
  have h1 : z.re * z.re + z.im * z.im = 1 := by
    rw [← Complex.normSq_apply, Complex.normSq_eq_norm_sq, hz]; norm_num
  rw [← Complex.normSq_eq_norm_sq, Complex.normSq_apply]
  have e1 : ((α : ℂ) * z ^ 2 + β * z + γ).re = α * (z.re * z.re - z.im * z.im) + β * z.re + γ := by
    simp [pow_two]
  have e2 : ((α : ℂ) * z ^ 2 + β * z + γ).im = α * (2 * z.re * z.im) + β * z.im := by
    simp only [pow_two, Complex.add_im, Complex.mul_im, Complex.mul_re, Complex.ofReal_re, Complex.ofReal_im]
    ring
  rw [e1, e2]
  have hi : z.im * z.im = 1 - z.re * z.re := by linarith
  have : ∀ c s : ℝ, s * s = 1 - c * c →
      (α * (c * c - s * s) + β * c + γ) * (α * (c * c - s * s) + β * c + γ) +
      (α * (2 * c * s) + β * s) * (α * (2 * c * s) + β * s) =
      (β + α * c + γ * c) ^ 2 + (α - γ) ^ 2 * (1 - c ^ 2) := by
    intro c s hs
    have : (α * (2 * c * s) + β * s) * (α * (2 * c * s) + β * s) = (2 * α * c + β) ^ 2 * (s * s) := by ring
    rw [this, hs]
    ring
  exact this _ _ hi

theorem quad_near {α β γ c α' β' γ' c' e : ℝ} (h1 : |α - α'| ≤ e) (h2 : |β - β'| ≤ e) (h3 : |γ - γ'| ≤ e)
    (h4 : |c - c'| ≤ e) (g1 : |α'| ≤ 2) (g3 : |γ'| ≤ 2) (g4 : |c'| ≤ 1) (g5 : |β' + α' * c' + γ' * c'| ≤ 2)
    (g6 : |α' - γ'| ≤ 1) (he : e ≤ 1 / 100) :
    |(β + α * c + γ * c) ^ 2 + (α - γ) ^ 2 * (1 - c ^ 2) -
      ((β' + α' * c' + γ' * c') ^ 2 + (α' - γ') ^ 2 * (1 - c' ^ 2))| ≤ 105 * e := by
  have e0 : 0 ≤ e := (abs_nonneg _).trans h1
  have a1 := mul_near h1 h4 g1 (by linarith) (by linarith)
  have a2 := mul_near h3 h4 g3 (by linarith) (by linarith)
  have a3 : |(β + α * c + γ * c) - (β' + α' * c' + γ' * c')| ≤ 11 * e := by
    rw [abs_le] at *
    constructor <;> linarith
  have a4 := mul_near a3 a3 g5 g5 (by linarith)
  have a5 : |(α - γ) - (α' - γ')| ≤ 2 * e := by
    rw [abs_le] at *
    constructor <;> linarith
  have a6 := mul_near a5 a5 (by linarith) (by linarith) (by linarith)
  have a7 := mul_near h4 h4 (by linarith) (by linarith) (by linarith)
  have a8 : |(1 - c * c) - (1 - c' * c')| ≤ 10 * e := by
    rw [abs_le] at *
    constructor <;> linarith
  have b1 : |(α' - γ') * (α' - γ')| ≤ 2 := by
    rw [abs_mul]
    nlinarith [abs_nonneg (α' - γ')]
  have b2 : |1 - c' * c'| ≤ 2 := by
    have : |c' * c'| ≤ 1 := by rw [abs_mul]; nlinarith [abs_nonneg c']
    rw [abs_le] at *
    constructor <;> linarith
  have a9 := mul_near (a6.trans (by linarith : 5 * (2 * e) ≤ 10 * e)) a8 b1 b2 (by linarith)
  rw [pow_two, pow_two, pow_two c, pow_two, pow_two, pow_two c']
  rw [abs_le] at *
  constructor <;> linarith

theorem cos997 : |tone997.re - 99149604244168698180 / 10 ^ 20| ≤ 1 / 10 ^ 17 := by
  have hre : tone997.re = Real.cos (2 * Real.pi * 997 / 48000) := by
    unfold tone997
    rw [Complex.exp_ofReal_mul_I_re]
  rw [hre]
  have hx : |2 * Real.pi * 997 / 48000 - 13050699481787599411 / 10 ^ 20| ≤ 1 / 10 ^ 18 := by
    have := Real.pi_gt_d20
    have := Real.pi_lt_d20
    rw [abs_le]
    constructor <;> linarith
  have hl : |Real.cos (2 * Real.pi * 997 / 48000) - Real.cos (13050699481787599411 / 10 ^ 20)| ≤ 1 / 10 ^ 18 :=
    (Real.abs_cos_sub_cos_le _ _).trans hx
  have ht := (sin_cos_taylor (x := 13050699481787599411 / 10 ^ 20) (by norm_num [abs_of_pos])).2
  have hc : |cosT (13050699481787599411 / 10 ^ 20) - 99149604244168698180 / 10 ^ 20| ≤ 1 / 10 ^ 18 := by
    unfold cosT
    norm_num [abs_le]
  have hs : |(13050699481787599411 / 10 ^ 20 : ℝ)| ^ 14 / 80000000000 ≤ 1 / 10 ^ 18 := by
    rw [abs_of_pos (by norm_num)]
    norm_num
  rw [abs_le] at *
  constructor <;> linarith

theorem quartic_cascade (p0 p1 p2 r0 r1 r2 : ℝ) (z : ℂ) :
    quartic (cascade p0 p1 p2 r0 r1 r2) z = (p0 * z ^ 2 + p1 * z + p2) * (r0 * z ^ 2 + r1 * z + r2) := by
  unfold quartic cascade
  push_cast
  ring

/-- Gain of the filter at 997 Hz: `|H|² = 1.17247`. -/
theorem gain997 (bs : BSearch) (u : Nat) :
    let H := transfer (filterCoefficients (exactEnv bs u) ((exactEnv bs u).f64.ofInt 48000)) tone997
    117246 / 100000 ≤ ‖H‖ ^ 2 ∧ ‖H‖ ^ 2 ≤ 117248 / 100000 := by
  intro H
  obtain ⟨b0, b1, b2, a1, a2, c1, c2, hb, ha, r1, r2, r3, r4, r5, r6, r7⟩ := C53_itu bs u
  have hz := tone997_norm
  have hc : |tone997.re - 99149604244168698180 / 10 ^ 20| ≤ 5 / 10 ^ 15 := cos997.trans (by norm_num)
  have one : |(1 : ℝ) - 1| ≤ 5 / 10 ^ 15 := by norm_num
  have two : |(-2 : ℝ) - (-2)| ≤ 5 / 10 ^ 15 := by norm_num
  unfold Rounds at *
  have hH : ‖H‖ ^ 2 = ‖(b0 : ℂ) * tone997 ^ 2 + b1 * tone997 + b2‖ ^ 2 *
      ‖((1 : ℝ) : ℂ) * tone997 ^ 2 + (-2 : ℝ) * tone997 + (1 : ℝ)‖ ^ 2 /
      (‖((1 : ℝ) : ℂ) * tone997 ^ 2 + a1 * tone997 + a2‖ ^ 2 *
      ‖((1 : ℝ) : ℂ) * tone997 ^ 2 + c1 * tone997 + c2‖ ^ 2) := by
    simp only [H, transfer]
    have hb' := congrArg (fun v => quartic v tone997) hb
    have ha' := congrArg (fun v => quartic v tone997) ha
    simp only [quartic_cascade] at hb' ha'
    rw [hb', ha', norm_div, norm_mul, norm_mul, div_pow, mul_pow, mul_pow]
  rw [hH, quad_norm _ _ _ hz, quad_norm _ _ _ hz, quad_norm _ _ _ hz, quad_norm _ _ _ hz]
  have n1 := quad_near r1 r2 r3 hc (by norm_num [abs_le]) (by norm_num [abs_le]) (by norm_num [abs_le])
    (by norm_num [abs_le]) (by norm_num [abs_le]) (by norm_num)
  have n2 := quad_near one two one hc (by norm_num [abs_le]) (by norm_num [abs_le]) (by norm_num [abs_le])
    (by norm_num [abs_le]) (by norm_num [abs_le]) (by norm_num)
  have n3 := quad_near one r4 r5 hc (by norm_num [abs_le]) (by norm_num [abs_le]) (by norm_num [abs_le])
    (by norm_num [abs_le]) (by norm_num [abs_le]) (by norm_num)
  have n4 := quad_near one r6 r7 hc (by norm_num [abs_le]) (by norm_num [abs_le]) (by norm_num [abs_le])
    (by norm_num [abs_le]) (by norm_num [abs_le]) (by norm_num)
  generalize (b1 + b0 * tone997.re + b2 * tone997.re) ^ 2 + (b0 - b2) ^ 2 * (1 - tone997.re ^ 2) = Q1 at *
  generalize (-2 + 1 * tone997.re + 1 * tone997.re) ^ 2 + (1 - 1) ^ 2 * (1 - tone997.re ^ 2) = Q2 at *
  generalize (a1 + 1 * tone997.re + a2 * tone997.re) ^ 2 + (1 - a2) ^ 2 * (1 - tone997.re ^ 2) = Q3 at *
  generalize (c1 + 1 * tone997.re + c2 * tone997.re) ^ 2 + (1 - c2) ^ 2 * (1 - tone997.re ^ 2) = Q4 at *
  have m1 : 226536052 / 10 ^ 11 ≤ Q1 ∧ Q1 ≤ 226536054 / 10 ^ 11 := by
    rw [abs_le] at n1; norm_num at n1 ⊢; constructor <;> linarith
  have m2 : 28926917 / 10 ^ 11 ≤ Q2 ∧ Q2 ≤ 28926918 / 10 ^ 11 := by
    rw [abs_le] at n2; norm_num at n2 ⊢; constructor <;> linarith
  have m3 : 194581096 / 10 ^ 11 ≤ Q3 ∧ Q3 ≤ 194581097 / 10 ^ 11 := by
    rw [abs_le] at n3; norm_num at n3 ⊢; constructor <;> linarith
  have m4 : 28723504 / 10 ^ 11 ≤ Q4 ∧ Q4 ≤ 28723505 / 10 ^ 11 := by
    rw [abs_le] at n4; norm_num at n4 ⊢; constructor <;> linarith
  have l1 : (226536052 / 10 ^ 11) * (28926917 / 10 ^ 11) ≤ Q1 * Q2 := mul_le_mul m1.1 m2.1 (by norm_num) (by linarith)
  have l2 : Q1 * Q2 ≤ (226536054 / 10 ^ 11) * (28926918 / 10 ^ 11) := mul_le_mul m1.2 m2.2 (by linarith) (by norm_num)
  have l3 : (194581096 / 10 ^ 11) * (28723504 / 10 ^ 11) ≤ Q3 * Q4 := mul_le_mul m3.1 m4.1 (by norm_num) (by linarith)
  have l4 : Q3 * Q4 ≤ (194581097 / 10 ^ 11) * (28723505 / 10 ^ 11) := mul_le_mul m3.2 m4.2 (by linarith) (by norm_num)
  have p : 0 < Q3 * Q4 := by linarith
  rw [le_div_iff₀ p, div_le_iff₀ p]
  constructor <;> linarith

theorem tone997_sq : 26 / 100 ≤ ‖1 - tone997 ^ 2‖ := by
  have h := quad_norm (-1) 0 1 tone997_norm
  have e : ((-1 : ℝ) : ℂ) * tone997 ^ 2 + (0 : ℝ) * tone997 + (1 : ℝ) = 1 - tone997 ^ 2 := by push_cast; ring
  rw [e] at h
  have hc := abs_le.1 cos997
  have hc2 : tone997.re ^ 2 ≤ 98308 / 100000 := by
    have h1 : tone997.re ≤ 9915 / 10000 := by norm_num at hc ⊢; linarith
    have h2 : 0 ≤ tone997.re := by norm_num at hc ⊢; linarith
    calc _ ≤ (9915 / 10000 : ℝ) ^ 2 := pow_le_pow_left₀ h2 h1 2
      _ ≤ _ := by norm_num
  by_contra hlt
  have : ‖1 - tone997 ^ 2‖ ^ 2 ≤ (26 / 100) ^ 2 := pow_le_pow_left₀ (norm_nonneg _) (not_le.1 hlt).le 2
  rw [h] at this
  norm_num at this
  linarith

theorem tone997_ne : tone997 ^ 2 ≠ 1 := fun h => by
  have := tone997_sq
  rw [h] at this
  norm_num at this

theorem level997 {P a v δ : ℝ} (ha : 0 < a) (h1 : 117246 / 200000 * a ^ 2 ≤ P) (h2 : P ≤ 117248 / 200000 * a ^ 2)
    (hδ : δ = 5 / 10000) (h : LevelNear P δ v) : |v - (20 * Real.logb 10 a - 3.01)| ≤ 0.005 := by
  obtain ⟨g1, g2⟩ := h
  subst hδ
  obtain ⟨t1, t2⟩ := log10_near
  have lt : (0 : ℝ) < Real.log 10 := by linarith
  have hP : 0 < P := lt_of_lt_of_le (by positivity) h1
  have la : Real.logb 10 (a ^ 2) = 2 * Real.logb 10 a := by
    rw [Real.logb_pow]; norm_num
  have up : Real.logb 10 (P * (1 + 5 / 10000)) ≤ 2 * Real.logb 10 a - 2314 / 10000 := by
    have l1 : Real.log (5869 / 10000) ≤ -(53285 / 100000) := by
      rw [Real.log_le_iff_le_exp (by norm_num)]
      have hex := abs_le.1 (exp_taylor (x := -(53285 / 100000)) (by norm_num [abs_of_pos]))
      have hT : 58691 / 100000 ≤ expT (-(53285 / 100000)) := by
        unfold expT
        simp only [Finset.sum_range_succ, Finset.sum_range_zero, Nat.factorial]
        norm_num
      norm_num at hex hT ⊢
      linarith
    have l2 : Real.logb 10 (5869 / 10000) ≤ -(2314 / 10000) := by
      unfold Real.logb
      rw [div_le_iff₀ lt]
      norm_num at l1 t2 ⊢
      linarith
    have l3 : P * (1 + 5 / 10000) ≤ a ^ 2 * (5869 / 10000) := by nlinarith [sq_nonneg a]
    have l4 := Real.logb_le_logb_of_le (by norm_num : (1 : ℝ) < 10) (by positivity) l3
    rw [Real.logb_mul (x := a ^ 2) (by positivity) (by norm_num), la] at l4
    linarith
  have lo : 2 * Real.logb 10 a - 2324 / 10000 ≤ Real.logb 10 (P * (1 - 5 / 10000)) := by
    have l1 : -(535 / 1000) ≤ Real.log (5857 / 10000) := by
      rw [Real.le_log_iff_exp_le (by norm_num)]
      have hex := abs_le.1 (exp_taylor (x := -(535 / 1000)) (by norm_num [abs_of_pos]))
      have hT : expT (-(535 / 1000)) ≤ 58569 / 100000 := by
        unfold expT
        simp only [Finset.sum_range_succ, Finset.sum_range_zero, Nat.factorial]
        norm_num
      norm_num at hex hT ⊢
      linarith
    have l2 : -(2324 / 10000) ≤ Real.logb 10 (5857 / 10000) := by
      unfold Real.logb
      rw [le_div_iff₀ lt]
      norm_num at l1 t1 ⊢
      linarith
    have l3 : a ^ 2 * (5857 / 10000) ≤ P * (1 - 5 / 10000) := by nlinarith [sq_nonneg a]
    have l4 := Real.logb_le_logb_of_le (by norm_num : (1 : ℝ) < 10) (by positivity) l3
    rw [Real.logb_mul (x := a ^ 2) (by positivity) (by norm_num), la] at l4
    linarith
  rw [abs_le]
  norm_num at g1 g2 up lo ⊢
  constructor <;> linarith

theorem tonePower_single (H a : ℂ) {cm : List Channel} {c : Nat} {ch : Channel} (h : cm[c]? = some ch)
    (hw : realWeight ch = 1) : tonePower H (fun k => if k = c then a else 0) cm = ‖H‖ ^ 2 * ‖a‖ ^ 2 / 2 := by
  have key : ∀ (l : List Channel) (i : Nat), ((l.zipIdx i).map fun x => realWeight x.1 *
      (‖H * (if x.2 = c then a else 0)‖ ^ 2 / 2)).sum =
      if i ≤ c then (match l[c - i]? with | some ch' => realWeight ch' | none => 0) * (‖H‖ ^ 2 * ‖a‖ ^ 2 / 2) else 0 := by
    intro l
    induction l with
    | nil => intro i; simp
    | cons x l ih =>
      intro i
      rw [List.zipIdx_cons, List.map_cons, List.sum_cons, ih]
      by_cases hic : i = c
      · subst hic
        simp [norm_mul, mul_pow]
      · by_cases hlt : i ≤ c
        · obtain ⟨d, rfl⟩ : ∃ d, c = i + 1 + d := ⟨c - i - 1, by omega⟩
          simp [hic, show i ≤ i + 1 + d by omega, show i + 1 + d - i = d + 1 by omega]
        · simp [hic, hlt, show ¬ i + 1 ≤ c by omega]
  have := key cm 0
  simp only [Nat.zero_le, if_true, Nat.sub_zero, h, hw, one_mul] at this
  exact this

/-- **C54**, calibration: at 48 kHz, a tone of 997 Hz with peak amplitude `|a|` in one channel of weight one, the other
channels silent, reads `20 log10 |a| - 3.01`, to within 0.005, once it has lasted long enough; whatever came before. The
integrated loudness too, if the tone is above -60 dB. -/
theorem C54_calibration {e0 : Ebu ℝ ℝ} (h0 : Started (exactEnv bs u) e0) (ha : Adequate e0.mode e0.rate e0.window)
    (hrate : e0.rate = 48000) {c : Nat} {ch : Channel} (hch : e0.channelMap[c]? = some ch) (hw : realWeight ch = 1)
    (evs : List (Event ℝ)) {a : ℂ} (ha0 : a ≠ 0) :
    let fed := fun (n : Nat) (e : Ebu ℝ ℝ) => ∃ ops, (∀ op ∈ ops, Feed op) ∧
      heard (exactEnv bs u) e0.channels ops =
        evs ++ toneFrames (fun k => if k = c then a else 0) tone997 e0.channels n ∧
      runOps (exactEnv bs u) e0 ops = .done e
    let reads := fun (e : Ebu ℝ ℝ) (q : Query) => ∃ v, ask (exactEnv bs u) e q = .done (.ok v) ∧
      |v - (20 * Real.logb 10 ‖a‖ - 3.01)| ≤ 0.005
    ∃ n0, ∀ n e, n0 ≤ n → fed n e → reads e .loudnessMomentary ∧
      (144000 ≤ capacity e0.rate e0.window → reads e .loudnessShortterm) ∧
      (e0.mode.contains Mode.I = true → (∃ max, e0.blockEnergyHistory = .queue [] max) → 1 / 1000 ≤ ‖a‖ →
        reads e .loudnessGlobal) := by
  intro fed reads
  have hop48 : hop e0.rate = 4800 := by rw [hrate]; rfl
  have ev1 : Even (3363 / e0.rate) := by rw [hrate]; decide
  have ev2 : Even (76 / e0.rate) := by rw [hrate]; decide
  have hna : 0 < ‖a‖ := norm_pos_iff.2 ha0
  obtain ⟨k1, k2⟩ := gain997 bs u
  generalize hP : tonePower (transfer (filterCoefficients (exactEnv bs u) ((exactEnv bs u).f64.ofInt e0.rate)) tone997)
    (fun k => if k = c then a else 0) e0.channelMap = P
  have hPv := tonePower_single
    (transfer (filterCoefficients (exactEnv bs u) ((exactEnv bs u).f64.ofInt e0.rate)) tone997) a hch hw
  rw [hP, hrate] at hPv
  have p1 : 117246 / 200000 * ‖a‖ ^ 2 ≤ P := by
    rw [hPv]
    have := mul_le_mul_of_nonneg_right k1 (sq_nonneg ‖a‖)
    linarith
  have p2 : P ≤ 117248 / 200000 * ‖a‖ ^ 2 := by
    rw [hPv]
    have := mul_le_mul_of_nonneg_right k2 (sq_nonneg ‖a‖)
    linarith
  have hP0 : 0 < P := lt_of_lt_of_le (by positivity) p1
  have hsq := tone997_sq
  have err : ∀ N : Nat, 19200 ≤ N → 2 / ((N : ℝ) * ‖1 - tone997 ^ 2‖) < 5 / 10000 := by
    intro N hN
    have hN' : (19200 : ℝ) ≤ N := by exact_mod_cast hN
    have h1 : 19200 * (26 / 100) ≤ (N : ℝ) * ‖1 - tone997 ^ 2‖ := mul_le_mul hN' hsq (by norm_num) (by linarith)
    rw [div_lt_iff₀ (by linarith)]
    linarith
  have hwin := C54_windows h0 ha ev1 ev2 tone997_norm tone997_ne evs (fun k => if k = c then a else 0) hP.symm hP0
    (δ := 5 / 10000) (by norm_num)
  dsimp only at hwin
  obtain ⟨w1, w2, -⟩ := hwin
  obtain ⟨n1, hn1⟩ := w1 (err _ (by rw [hop48]))
  have hst : ∃ n2, 144000 ≤ capacity e0.rate e0.window → ∀ n e, n2 ≤ n → fed n e → reads e .loudnessShortterm := by
    by_cases hcap : 144000 ≤ capacity e0.rate e0.window
    · obtain ⟨n2, hn2⟩ := w2 (err _ (by rw [hop48]; norm_num)) (by rw [hop48]; exact hcap)
      refine ⟨n2, fun _ n e hn hf => ?_⟩
      obtain ⟨v, v1, v2⟩ := hn2 n e hn hf
      exact ⟨v, v1, level997 hna p1 p2 rfl v2⟩
    · exact ⟨0, fun h => absurd h hcap⟩
  have hgl : ∃ n3, e0.mode.contains Mode.I = true → (∃ max, e0.blockEnergyHistory = .queue [] max) → 1 / 1000 ≤ ‖a‖ →
      ∀ n e, n3 ≤ n → fed n e → reads e .loudnessGlobal := by
    by_cases hall : e0.mode.contains Mode.I = true ∧ (∃ max, e0.blockEnergyHistory = .queue [] max) ∧ 1 / 1000 ≤ ‖a‖
    · obtain ⟨hI, ⟨max, hq⟩, hna'⟩ := hall
      have hgate : absoluteGate ≤ P * (1 - 5 / 10000) := by
        have h1 : absoluteGate ≤ 2 / 10 ^ 7 := by unfold absoluteGate; norm_num
        have h2 : (1 / 1000 : ℝ) ^ 2 ≤ ‖a‖ ^ 2 := pow_le_pow_left₀ (by norm_num) hna' 2
        norm_num at h1 h2 ⊢
        linarith
      obtain ⟨n3, hn3⟩ := C54_integrated h0 ha hI hq ev1 ev2 tone997_norm tone997_ne evs (fun k => if k = c then a else 0)
        hP.symm (δ := 5 / 10000) (by norm_num) hgate (err _ (by rw [hop48]))
      refine ⟨n3, fun _ _ _ n e hn hf => ?_⟩
      obtain ⟨ops, f1, f2, f3⟩ := hf
      obtain ⟨v, v1, v2⟩ := hn3 n e ops hn f1 f2 f3
      exact ⟨v, v1, level997 hna p1 p2 rfl v2⟩
    · exact ⟨0, fun g1 g2 g3 => absurd ⟨g1, g2, g3⟩ hall⟩
  obtain ⟨n2, hn2⟩ := hst
  obtain ⟨n3, hn3⟩ := hgl
  refine ⟨max n1 (max n2 n3), fun n e hn hf => ⟨?_, fun hcap => ?_, fun g1 g2 g3 => ?_⟩⟩
  · obtain ⟨v, v1, v2⟩ := hn1 n e (by omega) hf
    exact ⟨v, v1, level997 hna p1 p2 rfl v2⟩
  · exact hn2 hcap n e (by omega) hf
  · exact hn3 g1 g2 g3 n e (by omega) hf

/-! ## A concrete case -/

/-- The tone, mono, in one call. -/
noncomputable def Demo.toneOps (a : ℂ) (n : Nat) : List (Op ℝ ℝ) := [.addFrames (.f64 (tones a tone997 n))]

theorem Demo.toneOps_heard (a : ℂ) (n : Nat) : heard (exactEnv bs u) 1 (Demo.toneOps a n) =
    [] ++ toneFrames (fun k => if k = 0 then a else 0) tone997 1 n := by
  have hd : delivered (exactEnv bs u) 1 (.addFrames (.f64 (tones a tone997 n))) =
      toneFrames (fun k => if k = 0 then a else 0) tone997 1 n := by
    simp only [delivered]
    rw [if_pos (show WellFormed 1 (Input.f64 (tones a tone997 n)) from Nat.mod_one _)]
    show (groups 1 ((tones a tone997 n).map id)).map _ = _
    rw [List.map_id, groups_single, tones, toneFrames, List.map_map, List.map_map]
    rfl
  rw [Demo.toneOps, heard, List.flatMap_cons, List.flatMap_nil, List.append_nil, hd]
  rfl

/-- A mono analyzer at 48 kHz reads a full-scale tone as -3.01 LUFS, momentary and integrated. -/
example (h64 : 2 ^ 64 - 1 ≤ u) : ∃ e0 : Ebu ℝ ℝ, Ebu.new (exactEnv bs u) 1 48000 Mode.I = .done (.ok e0) ∧
    ∃ n0, ∀ n, n0 ≤ n → ∃ e, runOps (exactEnv bs u) e0 (Demo.toneOps 1 n) = .done e ∧
      (∃ v, ask (exactEnv bs u) e .loudnessMomentary = .done (.ok v) ∧ |v - (-3.01)| ≤ 0.005) ∧
      ∃ v, ask (exactEnv bs u) e .loudnessGlobal = .done (.ok v) ∧ |v - (-3.01)| ≤ 0.005 := by
  obtain ⟨e0, he⟩ := (C01_new_64 (exactEnv bs u) h64 1 48000 Mode.I).1.2
    ⟨⟨by omega, by omega, by omega, by omega⟩, by decide⟩
  have hst := Started.new he
  have hrun : ∀ n, ∃ e, runOps (exactEnv bs u) e0 (Demo.toneOps 1 n) = .done e := by
    intro n
    refine C09_plain h64 he (by omega) _ ?_
    intro op hop
    simp only [Demo.toneOps, List.mem_singleton] at hop
    subst hop
    trivial
  refine ⟨e0, he, ?_⟩
  obtain ⟨rfl, -⟩ := Ebu.new_ok he
  have hw : realWeight .left = 1 := by simp [realWeight, surrounds]
  obtain ⟨n0, hn0⟩ := C54_calibration hst
    (show Adequate Mode.I 48000 (minWindow Mode.I) by decide) rfl (c := 0) (ch := .left) rfl hw [] (a := 1) one_ne_zero
  refine ⟨n0, fun n hn => ?_⟩
  obtain ⟨e, hr⟩ := hrun n
  obtain ⟨r1, -, r3⟩ := hn0 n e hn ⟨Demo.toneOps 1 n, by
    intro op hop
    simp only [Demo.toneOps, List.mem_singleton] at hop
    subst hop
    trivial, Demo.toneOps_heard 1 n, hr⟩
  have r3 := r3 (show Mode.I.contains Mode.I = true by decide) ⟨_, rfl⟩ (by norm_num)
  simp only [norm_one, Real.logb_one, mul_zero, zero_sub] at r1 r3
  exact ⟨e, hr, r1, r3⟩

end Verif
