import Verif.Props.C55
import Verif.Props.C24
import Verif.Proofs.FloatMono
/-! # C56: the interpolated samples of a sinusoid and the true peak it reads -/

set_option linter.unusedSimpArgs false

namespace Verif
open Fl Spec

variable {m : Libm F64} {bs : BSearch} {t : Target}

/-! ## The kernel -/

theorem kernel_abs (factor j : Nat) : |kernel factor j| ≤ 1 := by
  unfold kernel
  rw [abs_mul]
  refine mul_le_one₀ ?_ (abs_nonneg _) (Real.abs_sinc_le_one _)
  have h1 := Real.neg_one_le_cos (2 * Real.pi * j / 48)
  have h2 := Real.cos_le_one (2 * Real.pi * j / 48)
  rw [abs_le]
  constructor <;> linarith

theorem kernel_l1Z : ∀ factor, factor = 2 ∨ factor = 4 → ∀ k < factor,
    (∑ i ∈ Finset.range (48 / factor), |kernelZ factor (i * factor + k)|) + 48 ≤ 2400000000 := by
  rintro factor (rfl | rfl) <;> decide +kernel

/-- What a bounded input can add up to. -/
theorem kernel_l1 {factor : Nat} (hf : factor = 2 ∨ factor = 4) {k : Nat} (hk : k < factor) :
    ∑ i ∈ Finset.range (48 / factor), |kernel factor (i * factor + k)| ≤ 12 / 5 := by
  have hz := kernel_l1Z factor hf k hk
  have h24 : 48 / factor ≤ 24 := by rcases hf with rfl | rfl <;> decide
  have h1 : ∑ i ∈ Finset.range (48 / factor), |kernel factor (i * factor + k)| ≤
      ∑ i ∈ Finset.range (48 / factor), ((|kernelZ factor (i * factor + k)| : ℤ) / 10 ^ 9 + 2 / 10 ^ 9 : ℝ) := by
    refine Finset.sum_le_sum fun i hi => ?_
    rw [Finset.mem_range] at hi
    have := kernel_near (factor := factor) (j := i * factor + k) hf (by rcases hf with rfl | rfl <;> omega)
    have h2 := abs_add_le (kernel factor (i * factor + k) - kernelZ factor (i * factor + k) / 10 ^ 9)
      ((kernelZ factor (i * factor + k) : ℝ) / 10 ^ 9)
    rw [sub_add_cancel, abs_div, abs_of_pos (show (0 : ℝ) < 10 ^ 9 by positivity)] at h2
    push_cast
    linarith
  refine h1.trans ?_
  rw [Finset.sum_add_distrib, ← Finset.sum_div, Finset.sum_const, Finset.card_range, nsmul_eq_mul]
  have h3 : ((48 / factor : Nat) : ℝ) ≤ 24 := by exact_mod_cast h24
  have h4 : (∑ i ∈ Finset.range (48 / factor), ((|kernelZ factor (i * factor + k)| : ℤ) : ℝ)) + 48 ≤ 2400000000 := by
    exact_mod_cast hz
  rw [← le_sub_iff_add_le, div_le_iff₀ (by positivity)]
  refine le_sub_iff_add_le.2 h4 |>.trans ?_
  norm_num
  linarith

/-! ## One step of the sum -/

theorem flush_err32 : 2 * 2 ^ Fmt.b32.mb / 2 ^ Fmt.b32.u = (1 / 2 ^ 125 : ℝ) := by
  show 2 * 2 ^ 23 / 2 ^ 149 = (1 / 2 ^ 125 : ℝ)
  norm_num

theorem scaleAdd_app {acc x c : F32} {A M k : ℝ} {n : Nat} (hM : M ≤ 2 ^ 100) (hn : n < 24)
    (hacc : App acc A (n * (M / 2 ^ 18 + 1 / 2 ^ 123))) (hA : |A| ≤ n * M) (hx : x.Finite) (hxM : |x.value| ≤ M)
    (hc : App c k (1 / 2 ^ 22)) (hk : |k| ≤ 1) :
    App ((ieeeEnv m bs t).scaleAdd acc x c) (A + k * x.value) ((n + 1 : Nat) * (M / 2 ^ 18 + 1 / 2 ^ 123)) := by
  have t3 := top32
  have M0 : 0 ≤ M := (abs_nonneg _).trans hxM
  have nR : (n : ℝ) ≤ 23 := by exact_mod_cast Nat.le_of_lt_succ hn
  have n0 : (0 : ℝ) ≤ n := Nat.cast_nonneg _
  have hxk : |x.value * k| ≤ M := by
    rw [abs_mul]
    exact (mul_le_mul hxM hk (abs_nonneg _) M0).trans (by rw [mul_one])
  have hnM : n * M ≤ 23 * M := mul_le_mul_of_nonneg_right nR M0
  have hAx : |A + x.value * k| ≤ 24 * M := (abs_add_le _ _).trans (by linarith)
  have he : n * (M / 2 ^ 18 + 1 / 2 ^ 123) ≤ 23 * (M / 2 ^ 18 + 1 / 2 ^ 123) :=
    mul_le_mul_of_nonneg_right nR (by positivity)
  have e0 : 0 ≤ n * (M / 2 ^ 18 + 1 / 2 ^ 123) := by positivity
  have push : ((n + 1 : Nat) : ℝ) * (M / 2 ^ 18 + 1 / 2 ^ 123) = n * (M / 2 ^ 18 + 1 / 2 ^ 123) + (M / 2 ^ 18 + 1 / 2 ^ 123) := by
    push_cast; ring
  rw [push, show A + k * x.value = A + x.value * k by ring]
  generalize n * (M / 2 ^ 18 + 1 / 2 ^ 123) = e at hacc he e0
  have es : (ieeeEnv m bs t).scaleAdd acc x c =
      if t.fused then Fl.flush t (Fl.fma x c acc) else Fl.flush t (Fl.add acc (Fl.flush t (Fl.mul x c))) := by
    show (if t.fused then _ else _) = _
    unfold Fl.flush
    cases t.sse2 <;> rfl
  rw [es]
  by_cases hfu : t.fused = true
  · rw [if_pos hfu]
    have h1 : |x.value * c.value + acc.value - (A + x.value * k)| ≤ M * (1 / 2 ^ 22) + e := by
      rw [show x.value * c.value + acc.value - (A + x.value * k) = x.value * (c.value - k) + (acc.value - A) by ring]
      refine (abs_add_le _ _).trans (add_le_add ?_ hacc.2)
      rw [abs_mul]
      exact mul_le_mul hxM hc.2 (abs_nonneg _) M0
    have h2 : |x.value * c.value + acc.value| ≤ 25 * M + 1 / 2 ^ 117 := by
      have := abs_add_le (x.value * c.value + acc.value - (A + x.value * k)) (A + x.value * k)
      rw [sub_add_cancel] at this
      refine this.trans ((add_le_add h1 hAx).trans ?_)
      norm_num at he ⊢
      linarith
    have hf := fma_finite Fmt.ok32 hx hc.1 hacc.1 (h2.trans (_root_.le_trans (by norm_num at hM ⊢; linarith) t3))
    have h3 := (App.rounded Fmt.ok32.mb hf (fma_err Fmt.ok32.mb hx hc.1 hacc.1 hf) h1 h2).flush t
    refine h3.mono ?_
    rw [flush_err32, eps32, eta32]
    norm_num
    linarith
  · rw [if_neg hfu]
    have h1 := ((App.of hx).mul Fmt.ok32 hc (A := M) (B := 1) hxM hk
      (_root_.le_trans (by norm_num at hM ⊢; linarith) t3)).flush t
    have h2 := h1.mono (e' := M / 2 ^ 21 + 1 / 2 ^ 124) (by
      rw [flush_err32, eps32, eta32]
      norm_num
      linarith)
    have h3 := (hacc.add Fmt.ok32 h2 (A := 24 * M) hAx
      (_root_.le_trans (by norm_num at hM he ⊢; linarith) t3)).flush t
    refine h3.mono ?_
    rw [flush_err32, eps32, eta32]
    norm_num at he ⊢
    linarith

/-! ## The whole sum -/

/-- The value of the sample `i` positions before the last one, zero before the start. -/
noncomputable def Spec.ago (l : List F32) (i : Nat) : ℝ := (l.reverse[i]?.map Fl.value).getD 0

theorem zero32 : (ieeeEnv m bs t).f32p.zero = Fl.zero false := by
  show (if t.sse2 = true then Fl.arithFtz Fmt.b32 else Fl.arith Fmt.b32).zero = _
  split <;> rfl

theorem zero32_finite : (Fl.zero false : F32).Finite := ⟨false, 0, Nat.zero_le _, rfl, by decide⟩

theorem tap_ago (l : List F32) (i : Nat) : (tap (ieeeEnv m bs t) (l.map ([·])) i 0).value = ago l i := by
  unfold tap ago
  rw [← List.map_reverse, List.getElem?_map]
  cases l.reverse[i]? with
  | none =>
    show ((ieeeEnv m bs t).f32p.zero).value = 0
    rw [zero32, value_zero]
  | some v => rfl

theorem tap_finite {l : List F32} {i : Nat} (h : ∀ v, l.reverse[i]? = some v → v.Finite) :
    (tap (ieeeEnv m bs t) (l.map ([·])) i 0).Finite := by
  unfold tap
  rw [← List.map_reverse, List.getElem?_map]
  cases hv : l.reverse[i]? with
  | none =>
    show ((ieeeEnv m bs t).f32p.zero).Finite
    rw [zero32]
    exact zero32_finite
  | some v => exact h v hv

/-- **C56.** Every interpolated sample, with or without fused multiply-add and flush to zero, is a finite number near
the convolution of the samples with the windowed sinc. -/
theorem C56_interpolated (hm : TrigWithin m (1 / 2 ^ 30)) {factor k : Nat} (hf : factor = 2 ∨ factor = 4)
    (hk : k < factor) {l : List F32} {M : ℝ} (hM0 : 0 ≤ M) (hM : M ≤ 2 ^ 100)
    (hl : ∀ i < 48 / factor, ∀ v, l.reverse[i]? = some v → v.Finite ∧ |v.value| ≤ M) :
    (phase (ieeeEnv m bs t) (48 / factor) factor (l.map ([·])) k 0).Finite ∧
    |(phase (ieeeEnv m bs t) (48 / factor) factor (l.map ([·])) k 0).value -
      ∑ i ∈ Finset.range (48 / factor), kernel factor (i * factor + k) * ago l i| ≤ M / 10000 + 1 / 2 ^ 118 := by
  have h24 : 48 / factor ≤ 24 := by rcases hf with rfl | rfl <;> decide
  have hb : ∀ i < 48 / factor, |ago l i| ≤ M := by
    intro i hi
    unfold ago
    cases hv : l.reverse[i]? with
    | none => simpa using hM0
    | some v => exact (hl i hi v hv).2
  have key : ∀ n ≤ 48 / factor, App ((List.range n).foldl (fun acc i => (ieeeEnv m bs t).scaleAdd acc
      (tap (ieeeEnv m bs t) (l.map ([·])) i 0) (interpCoeff (ieeeEnv m bs t) factor (i * factor + k)))
        (ieeeEnv m bs t).f32p.zero)
      (∑ i ∈ Finset.range n, kernel factor (i * factor + k) * ago l i) (n * (M / 2 ^ 18 + 1 / 2 ^ 123)) ∧
      |∑ i ∈ Finset.range n, kernel factor (i * factor + k) * ago l i| ≤ n * M := by
    intro n
    induction n with
    | zero =>
      intro _
      rw [List.range_zero, List.foldl_nil, Finset.range_zero, Finset.sum_empty, zero32]
      refine ⟨⟨zero32_finite, ?_⟩, ?_⟩
      · rw [value_zero]; simp
      · simp
    | succ n ih =>
      intro hn
      obtain ⟨h1, h2⟩ := ih (by omega)
      have hj : n * factor + k < 48 := by
        have : (n + 1) * factor ≤ 48 / factor * factor := Nat.mul_le_mul_right _ hn
        have := Nat.div_mul_le_self 48 factor
        nlinarith
      have hc := C55_float (bs := bs) (t := t) hm hf hj
      have hx := hb n (by omega)
      rw [List.range_succ, List.foldl_append, Finset.sum_range_succ]
      refine ⟨?_, ?_⟩
      · have := scaleAdd_app (m := m) (bs := bs) (t := t) hM (by omega) h1 h2
          (tap_finite (m := m) (bs := bs) (t := t) fun v hv => (hl n (by omega) v hv).1)
          (by rw [tap_ago]; exact hx) hc (kernel_abs _ _)
        rw [tap_ago] at this
        exact this
      · refine (abs_add_le _ _).trans ?_
        have : |kernel factor (n * factor + k) * ago l n| ≤ M := by
          rw [abs_mul]
          exact (mul_le_mul (kernel_abs _ _) hx (abs_nonneg _) zero_le_one).trans (by rw [one_mul])
        push_cast
        linarith
  obtain ⟨h1, -⟩ := key _ _root_.le_rfl
  refine h1.mono ?_
  have h3 : ((48 / factor : Nat) : ℝ) ≤ 24 := by exact_mod_cast h24
  refine (mul_le_mul_of_nonneg_right h3 (by positivity)).trans ?_
  norm_num
  linarith

/-! ## Sinusoids -/

/-- **C56.** In exact arithmetic the kernel reproduces sinusoids up to a quarter of the sampling rate: phase `k` of the
filter is the sinusoid `(24 - k) / factor` samples earlier, to within 0.4 % of its amplitude (0.05 % for factor 2). -/
theorem C56_response {factor : Nat} (hf : factor = 2 ∨ factor = 4) {k : Nat} (hk : k < factor) {a ω : ℝ} (h0 : 0 ≤ ω)
    (h1 : ω ≤ Real.pi / 2) (φ s : ℝ) :
    |∑ i ∈ Finset.range (48 / factor), kernel factor (i * factor + k) * sinusoid a ω φ (s - i) -
      sinusoid a ω φ (s - (24 - k) / factor)| ≤ ripple factor * |a| := response hf hk h0 h1 φ s

theorem sinusoid_abs (a ω φ s : ℝ) : |sinusoid a ω φ s| ≤ |a| := by
  unfold sinusoid
  rw [abs_mul]
  exact mul_le_of_le_one_right (abs_nonneg _) (Real.abs_cos_le_one _)

theorem levelF_app {x : F32} {X e A : ℝ} (h : App x X e) (hX : |X| ≤ A) (ht : A + e ≤ 2 ^ 250) :
    App (levelF x) |X| (e + 2 * eps Fmt.b64 * (A + e) + 2 * eta Fmt.b64) := by
  have hc := h.cast Fmt.ok64 hX (ht.trans top64)
  have hv : ∀ x : F64, x.Finite → (Fl.abs x).Finite ∧ (Fl.abs x).value = |x.value| := by
    rintro _ ⟨s, k, hk, rfl, h⟩
    refine ⟨⟨false, k, hk, rfl, h⟩, ?_⟩
    show (Fl.num false k hk : F64).value = _
    unfold value
    rw [abs_mul, abs_of_nonneg (show (0 : ℝ) ≤ (Fmt.b64.mag k : ℝ) / 2 ^ Fmt.b64.u by positivity)]
    cases s <;> simp
  unfold levelF
  refine ⟨(hv _ hc.1).1, ?_⟩
  rw [(hv _ hc.1).2]
  exact (abs_abs_sub_abs_le_abs_sub _ _).trans hc.2

/-- How far an interpolated sample may be from the sinusoid if the samples are within `δ` of it. -/
noncomputable def Spec.margin (factor : Nat) (a δ : ℝ) : ℝ := (ripple factor + 1 / 5000) * |a| + 5 / 2 * δ + 1 / 2 ^ 100

theorem interp_near (hm : TrigWithin m (1 / 2 ^ 30)) {factor k : Nat} (hf : factor = 2 ∨ factor = 4)
    (hk : k < factor) {a ω δ : ℝ} (h0 : 0 ≤ ω) (h1 : ω ≤ Real.pi / 2) (hd : 0 ≤ δ) (ha : |a| + δ ≤ 2 ^ 100) (φ s : ℝ)
    {l : List F32} (hl : ∀ i < 48 / factor, ∀ v, l.reverse[i]? = some v → v.Finite)
    (hago : ∀ i < 48 / factor, |ago l i - sinusoid a ω φ (s - i)| ≤ δ) :
    (levelF (phase (ieeeEnv m bs t) (48 / factor) factor (l.map ([·])) k 0)).Finite ∧
    |(levelF (phase (ieeeEnv m bs t) (48 / factor) factor (l.map ([·])) k 0)).value -
      (|sinusoid a ω φ (s - (24 - k) / factor)|)| ≤ margin factor a δ := by
  have hM0 : 0 ≤ |a| + δ := by positivity
  obtain ⟨f1, f2⟩ := C56_interpolated (bs := bs) (t := t) hm hf hk (l := l) hM0 ha (by
    intro i hi v hv
    refine ⟨hl i hi v hv, ?_⟩
    have e : ago l i = v.value := by unfold ago; rw [hv]; rfl
    have := abs_add_le (v.value - sinusoid a ω φ (s - i)) (sinusoid a ω φ (s - i))
    rw [sub_add_cancel] at this
    have h2 := hago i hi
    rw [e] at h2
    linarith [sinusoid_abs a ω φ (s - i)])
  have r := C56_response hf hk (a := a) h0 h1 φ s
  have d : |∑ i ∈ Finset.range (48 / factor), kernel factor (i * factor + k) * ago l i -
      ∑ i ∈ Finset.range (48 / factor), kernel factor (i * factor + k) * sinusoid a ω φ (s - i)| ≤ 12 / 5 * δ := by
    rw [← Finset.sum_sub_distrib]
    refine (Finset.abs_sum_le_sum_abs _ _).trans ?_
    refine _root_.le_trans ?_ (mul_le_mul_of_nonneg_right (kernel_l1 hf hk) hd)
    rw [Finset.sum_mul]
    refine Finset.sum_le_sum fun i hi => ?_
    rw [← mul_sub, abs_mul]
    exact mul_le_mul_of_nonneg_left (hago i (Finset.mem_range.1 hi)) (abs_nonneg _)
  have key : App (phase (ieeeEnv m bs t) (48 / factor) factor (l.map ([·])) k 0)
      (sinusoid a ω φ (s - (24 - k) / factor)) ((ripple factor + 1 / 10000) * |a| + (12 / 5 + 1 / 10000) * δ + 1 / 2 ^ 118) := by
    refine ⟨f1, (abs_sub_le _ _ _).trans ((add_le_add f2 ((abs_sub_le _ _ _).trans (add_le_add d r))).trans ?_)⟩
    exact le_of_eq (by ring)
  have hr : ripple factor ≤ 1 / 250 := by unfold ripple; split <;> norm_num
  have hr0 : 0 ≤ ripple factor := by unfold ripple; split <;> norm_num
  have t1 := eta64
  refine ((levelF_app key (sinusoid_abs _ _ _ _) (by
    norm_num at ha ⊢
    nlinarith [abs_nonneg a]))).mono ?_
  unfold margin
  rw [eps64]
  norm_num at t1 ⊢
  nlinarith [abs_nonneg a]

/-- **C56.** The same for the code. -/
theorem C56_sinusoid (hm : TrigWithin m (1 / 2 ^ 30)) {factor k : Nat} (hf : factor = 2 ∨ factor = 4)
    (hk : k < factor) {a ω δ : ℝ} (h0 : 0 ≤ ω) (h1 : ω ≤ Real.pi / 2) (hd : 0 ≤ δ) (ha : |a| + δ ≤ 2 ^ 100) (φ s : ℝ)
    {l : List F32} (hl : ∀ i < 48 / factor, ∃ v, l.reverse[i]? = some v ∧ v.Finite ∧
      |v.value - sinusoid a ω φ (s - i)| ≤ δ) :
    (levelF (phase (ieeeEnv m bs t) (48 / factor) factor (l.map ([·])) k 0)).Finite ∧
    |(levelF (phase (ieeeEnv m bs t) (48 / factor) factor (l.map ([·])) k 0)).value -
      (|sinusoid a ω φ (s - (24 - k) / factor)|)| ≤ margin factor a δ := by
  refine interp_near hm hf hk h0 h1 hd ha φ s (fun i hi v hv => ?_) fun i hi => ?_
  · obtain ⟨w, e1, e2, -⟩ := hl i hi
    rw [hv] at e1
    cases e1
    exact e2
  · obtain ⟨w, e1, -, e3⟩ := hl i hi
    unfold ago
    rw [e1]
    exact e3

/-! ## The analyzer -/

theorem mem_between (E : Env F64 F32) (taps factor : Nat) (xs : List F32) : ∀ (pre : List F32) (v : F64),
    v ∈ between E taps factor pre (xs.map fun x => (true, x)) ↔
      ∃ i < xs.length, ∃ k < factor, v = levelF (phase E taps factor ((pre ++ xs.take (i + 1)).map ([·])) k 0) := by
  induction xs with
  | nil => intro pre v; simp [between]
  | cons x xs ih =>
    intro pre v
    rw [List.map_cons, between, if_pos rfl, List.mem_append, ih]
    constructor
    · rintro (h | ⟨i, hi, k, hk, h⟩)
      · obtain ⟨k, hk, h⟩ := List.mem_map.1 h
        exact ⟨0, by simp, k, List.mem_range.1 hk, by rw [← h]; simp⟩
      · exact ⟨i + 1, by simpa using hi, k, hk, by rw [h]; simp⟩
    · rintro ⟨i, hi, k, hk, h⟩
      cases i with
      | zero => exact .inl (List.mem_map.2 ⟨k, List.mem_range.2 hk, by rw [h]; simp⟩)
      | succ i => exact .inr ⟨i, by simpa using hi, k, hk, by rw [h]; simp⟩

/-- From position `first` on, the samples are within `δ` of a sinusoid. -/
def Spec.Follows (l : List F32) (first : Nat) (a ω φ δ : ℝ) : Prop :=
  ∀ i v, first ≤ i → l[i]? = some v → v.Finite ∧ |v.value - sinusoid a ω φ i| ≤ δ

theorem Spec.Follows.phase (hm : TrigWithin m (1 / 2 ^ 30)) {factor k : Nat} (hf : factor = 2 ∨ factor = 4)
    (hk : k < factor) {a ω δ : ℝ} (h0 : 0 ≤ ω) (h1 : ω ≤ Real.pi / 2) (hd : 0 ≤ δ) (ha : |a| + δ ≤ 2 ^ 100) {φ : ℝ}
    {pre xs : List F32} (hp : 48 / factor ≤ pre.length + 1)
    (h : Follows (pre ++ xs) (pre.length + 1 - 48 / factor) a ω φ δ) {i : Nat} (hi : i < xs.length) :
    App (levelF (Spec.phase (ieeeEnv m bs t) (48 / factor) factor ((pre ++ xs.take (i + 1)).map ([·])) k 0))
      |sinusoid a ω φ (((pre.length + i : Nat) : ℝ) - (24 - k) / factor)| (margin factor a δ) := by
  refine C56_sinusoid hm hf hk h0 h1 hd ha φ _ fun j hj => ?_
  have hlen : (pre ++ xs.take (i + 1)).length = pre.length + i + 1 := by
    rw [List.length_append, List.length_take]; omega
  have hle : j ≤ pre.length + i := by omega
  obtain ⟨v, hv⟩ : ∃ v, (pre ++ xs)[pre.length + i - j]? = some v :=
    ⟨_, List.getElem?_eq_getElem (by rw [List.length_append]; omega)⟩
  have hv' : (pre ++ xs.take (i + 1)).reverse[j]? = some v := by
    rw [List.getElem?_reverse (by omega), hlen, ← hv, show pre.length + i + 1 - 1 - j = pre.length + i - j by omega]
    rcases Nat.lt_or_ge (pre.length + i - j) pre.length with h | h
    · rw [List.getElem?_append_left h, List.getElem?_append_left h]
    · rw [List.getElem?_append_right h, List.getElem?_append_right h, List.getElem?_take_of_lt (by omega)]
  obtain ⟨g1, g2⟩ := h _ v (by omega) hv
  refine ⟨v, hv', g1, ?_⟩
  rw [Nat.cast_sub hle] at g2
  exact g2

theorem le_value {x y : F64} (h : Fl.le x y = true) : x.value ≤ y.value := by
  cases x with
  | nan => cases h
  | num s k hk =>
    cases y with
    | nan => rw [le_nan] at h; cases h
    | num s' l hl =>
      rw [value_num, value_num]
      refine div_le_div_of_nonneg_right ?_ (by positivity)
      exact_mod_cast smag_mono (of_decide_eq_true h)

/-- Every half period of a sinusoid has an extremum; the grid of interpolated samples comes near it. -/
theorem exists_near_extremum {factor N : Nat} (hf : 0 < factor) (a : ℝ) {ω : ℝ} (φ T : ℝ) (h0 : 0 < ω)
    (h1 : ω ≤ Real.pi / 2) (hN : Real.pi ≤ ω * (N - 1 / factor)) :
    ∃ i < N, ∃ k < factor, |a| * Real.cos (ω / (2 * factor)) ≤ |sinusoid a ω φ (T + i + k / factor)| := by
  have pi0 := Real.pi_pos
  have fR : (1 : ℝ) ≤ factor := by exact_mod_cast hf
  have f0 : (0 : ℝ) < factor := by linarith
  obtain ⟨z, hz⟩ : ∃ z : ℤ, z = ⌈(ω * T + φ) / Real.pi⌉ := ⟨_, rfl⟩
  have z1 := Int.le_ceil ((ω * T + φ) / Real.pi)
  have z2 := Int.ceil_lt_add_one ((ω * T + φ) / Real.pi)
  rw [← hz] at z1 z2
  rw [div_le_iff₀ pi0] at z1
  have z2' : z * Real.pi < ω * T + φ + Real.pi := by
    have := mul_lt_mul_of_pos_right z2 pi0
    rwa [add_mul, div_mul_cancel₀ _ pi0.ne', one_mul] at this
  obtain ⟨d, hd⟩ : ∃ d : ℝ, ω * d = z * Real.pi - (ω * T + φ) :=
    ⟨(z * Real.pi - (ω * T + φ)) / ω, mul_div_cancel₀ _ h0.ne'⟩
  have d0 : 0 ≤ d := by
    by_contra h
    nlinarith [mul_neg_of_pos_of_neg h0 (not_le.1 h)]
  have d1 : d ≤ N - 1 / factor := by
    by_contra h
    have := mul_lt_mul_of_pos_left (not_le.1 h) h0
    linarith
  have d2 : d * factor ≤ N * factor - 1 := by
    have := mul_le_mul_of_nonneg_right d1 f0.le
    rwa [sub_mul, one_div, inv_mul_cancel₀ f0.ne'] at this
  have dF : 0 ≤ d * factor := by positivity
  obtain ⟨g, hg⟩ : ∃ g : Nat, g = ⌊d * factor + 1 / 2⌋₊ := ⟨_, rfl⟩
  have g1 := Nat.floor_le (show 0 ≤ d * factor + 1 / 2 by positivity)
  have g2 := Nat.lt_floor_add_one (d * factor + 1 / 2)
  rw [← hg] at g1 g2
  have gN : g < N * factor := by
    have : (g : ℝ) < (N * factor : Nat) := by push_cast; linarith
    exact_mod_cast this
  refine ⟨g / factor, (Nat.div_lt_iff_lt_mul hf).2 gN, g % factor, Nat.mod_lt _ hf, ?_⟩
  have eg : ((g / factor : Nat) : ℝ) + ((g % factor : Nat) : ℝ) / factor = g / factor := by
    rw [eq_div_iff f0.ne', add_mul, div_mul_cancel₀ _ f0.ne']
    exact_mod_cast Nat.div_add_mod' g factor
  rw [add_assoc, eg]
  unfold sinusoid
  have ea : ω * (T + g / factor) + φ = z * Real.pi + ω * (g / factor - d) := by
    rw [mul_sub, hd]; ring
  rw [ea, Real.cos_add, Real.sin_int_mul_pi, zero_mul, sub_zero, abs_mul, abs_mul, Real.abs_cos_int_mul_pi, one_mul]
  refine mul_le_mul_of_nonneg_left ?_ (abs_nonneg _)
  refine _root_.le_trans ?_ (le_abs_self _)
  rw [← Real.cos_abs (ω * _)]
  have hx : |ω * (g / factor - d)| ≤ ω / (2 * factor) := by
    rw [abs_mul, abs_of_pos h0]
    rw [show ω / (2 * factor) = ω * (1 / (2 * factor)) by ring]
    refine mul_le_mul_of_nonneg_left ?_ h0.le
    rw [show (g : ℝ) / factor - d = (g - d * factor) / factor by field_simp, abs_div, abs_of_pos f0,
      show 1 / (2 * (factor : ℝ)) = 1 / 2 / factor by field_simp]
    refine div_le_div_of_nonneg_right ?_ f0.le
    rw [abs_le]
    constructor <;> linarith
  refine Real.cos_le_cos_of_nonneg_of_le_pi (abs_nonneg _) ?_ hx
  have : ω / (2 * factor) ≤ ω := div_le_self h0.le (by linarith)
  linarith

/-- The interpolated levels of samples following a sinusoid. -/
theorem oversampled_bounds (hm : TrigWithin m (1 / 2 ^ 30)) {rate taps factor : Nat}
    (ho : oversampling rate = some (taps, factor)) {a ω δ : ℝ} (h0 : 0 < ω) (h1 : ω ≤ Real.pi / 2) (hd : 0 ≤ δ)
    (ha : |a| + δ ≤ 2 ^ 100) {φ : ℝ} {pre xs : List F32} (hp : taps ≤ pre.length + 1)
    (h : Follows (pre ++ xs) (pre.length + 1 - taps) a ω φ δ) :
    (∀ v ∈ oversampled (ieeeEnv m bs t) rate pre (xs.map fun x => (true, x)),
      v.Finite ∧ v.value ≤ |a| + margin factor a δ) ∧
    (Real.pi ≤ ω * (xs.length - 1 / factor) →
      ∃ v ∈ oversampled (ieeeEnv m bs t) rate pre (xs.map fun x => (true, x)),
        v.Finite ∧ |a| * Real.cos (ω / (2 * factor)) - margin factor a δ ≤ v.value) := by
  have hf : (factor = 2 ∨ factor = 4) ∧ taps = 48 / factor := by
    unfold oversampling at ho
    split at ho
    · cases ho; exact ⟨.inr rfl, rfl⟩
    · split at ho
      · cases ho; exact ⟨.inl rfl, rfl⟩
      · cases ho
  obtain ⟨hf, rfl⟩ := hf
  unfold oversampled
  rw [ho]
  dsimp only
  constructor
  · intro v hv
    obtain ⟨i, hi, k, hk, rfl⟩ := (mem_between _ _ _ _ _ _).1 hv
    obtain ⟨p1, p2⟩ := h.phase (bs := bs) (t := t) hm hf hk h0.le h1 hd ha hp hi
    refine ⟨p1, ?_⟩
    have := sinusoid_abs a ω φ (((pre.length + i : Nat) : ℝ) - (24 - k) / factor)
    linarith [(abs_le.1 p2).2]
  · intro hN
    obtain ⟨i, hi, k, hk, hb⟩ := exists_near_extremum (by omega) a φ ((pre.length : ℝ) - 24 / factor) h0 h1 hN
    obtain ⟨p1, p2⟩ := h.phase (bs := bs) (t := t) hm hf hk h0.le h1 hd ha hp hi
    refine ⟨_, (mem_between _ _ _ _ _ _).2 ⟨i, hi, k, hk, rfl⟩, p1, ?_⟩
    rw [show (pre.length : ℝ) - 24 / factor + i + k / factor = ((pre.length + i : Nat) : ℝ) - (24 - k) / factor by
      push_cast; ring] at hb
    linarith [(abs_le.1 p2).1]

/-- **C56.** The true peak of a call whose samples, and the ones just before it, follow a sinusoid of amplitude `|a|`
at up to a quarter of the sampling rate: at most the amplitude, and if the call spans half a period at least the
amplitude times `cos (ω / (2 factor))`, up to `margin`. -/
theorem C56_prev_true_peak (hm : TrigWithin m (1 / 2 ^ 30)) {e e1 e2 e3 : Ebu F64 F32}
    (h0 : PeakStart (ieeeEnv m bs t) e) {log : List (Entry F64 F32)} (h : Calls (ieeeEnv m bs t) e log e1)
    (hk : ∀ p ∈ log, Steady e.channels e.rate p.1) (ha : ∀ p ∈ log, Accepted e.channels p)
    {x : Input F64 F32} (hs : step (ieeeEnv m bs t) e1 (.addFrames x) = .done (e2, .ok ()))
    (hn : 0 < frameCount e.channels x) {log' : List (Entry F64 F32)} (h' : Calls (ieeeEnv m bs t) e2 log' e3)
    (hq : ∀ p ∈ log', Quiet e.channels e.rate p.1) (hmode : e.mode.contains Mode.TRUE_PEAK = true)
    {c : UInt32} (hc : c.toNat < e.channels)
    {taps factor : Nat} (ho : oversampling e.rate = some (taps, factor))
    {a ω δ : ℝ} (hω : 0 < ω) (hω' : ω ≤ Real.pi / 2) (hd : 0 ≤ δ) (had : |a| + δ ≤ 2 ^ 100) {φ : ℝ}
    {pre xs : List F32} (hpre : pre = (heardBy (ieeeEnv m bs t) e.channels c.toNat log).map Prod.snd)
    (hxs : xs = inputStream (ieeeEnv m bs t) e.channels c.toNat x)
    (hp : taps ≤ pre.length + 1) (hfol : Follows (pre ++ xs) (pre.length + 1 - taps) a ω φ δ)
    (hlev : ∀ v ∈ inputLevels t e.channels c.toNat x, v.Finite ∧ v.value ≤ |a| + δ) :
    ∃ p, ask (ieeeEnv m bs t) e3 (.prevTruePeak c) = .done (.ok p) ∧ p.Finite ∧ p.value ≤ |a| + margin factor a δ ∧
      (Real.pi ≤ ω * (xs.length - 1 / factor) →
        |a| * Real.cos (ω / (2 * factor)) - margin factor a δ ≤ p.value) := by
  obtain ⟨p, hp1, hp2⟩ := C24_prev_true_peak h0 h hk ha hs hn h' hq hmode hc
  rw [← hpre, ← hxs] at hp2
  obtain ⟨b1, b2⟩ := oversampled_bounds (bs := bs) (t := t) hm ho hω hω' hd had hp hfol
  have hmar : δ ≤ margin factor a δ := by
    have hr0 : 0 ≤ ripple factor := by unfold ripple; split <;> norm_num
    unfold margin
    have : 0 ≤ (ripple factor + 1 / 5000) * |a| := by positivity
    have : (0 : ℝ) ≤ 1 / 2 ^ 100 := by positivity
    linarith
  have hup : p.Finite ∧ p.value ≤ |a| + margin factor a δ := by
    rcases hp2.attained with h | rfl
    · rcases List.mem_append.1 h with h | h
      · exact ⟨(hlev p h).1, (hlev p h).2.trans (by linarith)⟩
      · exact b1 p h
    · refine ⟨⟨false, 0, Nat.zero_le _, rfl, by decide⟩, ?_⟩
      rw [value_zero]
      linarith [abs_nonneg a]
  refine ⟨p, hp1, hup.1, hup.2, fun hN => ?_⟩
  obtain ⟨v, hv, hvf, hvb⟩ := b2 hN
  have hnan : v.isNan = false := by obtain ⟨_, _, _, rfl, _⟩ := hvf; rfl
  exact hvb.trans (le_value (hp2.bound v (List.mem_append_right _ hv) hnan))

theorem margin_le {factor : Nat} {a δ : ℝ} (ha : 1 / 2 ^ 80 ≤ |a|) (hd : δ ≤ |a| / 1000) :
    margin factor a δ ≤ 68 / 10000 * |a| := by
  have hr : ripple factor ≤ 1 / 250 := by unfold ripple; split <;> norm_num
  have h1 : ripple factor * |a| ≤ 1 / 250 * |a| := mul_le_mul_of_nonneg_right hr (abs_nonneg _)
  unfold margin
  rw [add_mul]
  norm_num at ha hd ⊢
  linarith

/-- The tolerance of EBU Tech 3341 for true-peak meters: between 0.4 dB below and 0.2 dB above. -/
theorem db_bounds {r : ℝ} (h1 : 97 / 100 ≤ r) (h2 : r ≤ 101 / 100) :
    -(4 / 10) ≤ 20 * Real.logb 10 r ∧ 20 * Real.logb 10 r ≤ 2 / 10 := by
  have r0 : 0 < r := by linarith
  constructor
  · have : -(1 : ℝ) ≤ Real.logb 10 (r ^ 50) := by
      rw [Real.le_logb_iff_rpow_le (by norm_num) (by positivity), Real.rpow_neg_one]
      refine _root_.le_trans ?_ (pow_le_pow_left₀ (by norm_num) h1 50)
      norm_num
    rw [← Real.rpow_natCast, Real.logb_rpow_eq_mul_logb_of_pos r0] at this
    push_cast at this
    linarith
  · have : Real.logb 10 (r ^ 100) ≤ 1 := by
      rw [Real.logb_le_iff_le_rpow (by norm_num) (by positivity), Real.rpow_one]
      refine _root_.le_trans (pow_le_pow_left₀ r0.le h2 100) ?_
      norm_num
    rw [← Real.rpow_natCast, Real.logb_rpow_eq_mul_logb_of_pos r0] at this
    push_cast at this
    linarith

/-- **C56.** For a sinusoid of up to a quarter of the sampling rate with 4x oversampling, or an eighth with 2x (12 kHz
at 48 kHz and at 96 kHz), known to 0.1 % of its amplitude: the true peak of a call of at least half a period is within
-0.4 dB and +0.2 dB of the amplitude, the tolerance of EBU Tech 3341. -/
theorem C56_tolerance (hm : TrigWithin m (1 / 2 ^ 30)) {e e1 e2 e3 : Ebu F64 F32}
    (h0 : PeakStart (ieeeEnv m bs t) e) {log : List (Entry F64 F32)} (h : Calls (ieeeEnv m bs t) e log e1)
    (hk : ∀ p ∈ log, Steady e.channels e.rate p.1) (ha : ∀ p ∈ log, Accepted e.channels p)
    {x : Input F64 F32} (hs : step (ieeeEnv m bs t) e1 (.addFrames x) = .done (e2, .ok ()))
    (hn : 0 < frameCount e.channels x) {log' : List (Entry F64 F32)} (h' : Calls (ieeeEnv m bs t) e2 log' e3)
    (hq : ∀ p ∈ log', Quiet e.channels e.rate p.1) (hmode : e.mode.contains Mode.TRUE_PEAK = true)
    {c : UInt32} (hc : c.toNat < e.channels)
    {taps factor : Nat} (ho : oversampling e.rate = some (taps, factor))
    {a ω δ : ℝ} (hω : 0 < ω) (hω' : ω ≤ factor * Real.pi / 8) (hd : 0 ≤ δ) (hda : δ ≤ |a| / 1000)
    (hal : 1 / 2 ^ 80 ≤ |a|) (had : |a| ≤ 2 ^ 99) {φ : ℝ}
    {pre xs : List F32} (hpre : pre = (heardBy (ieeeEnv m bs t) e.channels c.toNat log).map Prod.snd)
    (hxs : xs = inputStream (ieeeEnv m bs t) e.channels c.toNat x)
    (hp : taps ≤ pre.length + 1) (hfol : Follows (pre ++ xs) (pre.length + 1 - taps) a ω φ δ)
    (hlev : ∀ v ∈ inputLevels t e.channels c.toNat x, v.Finite ∧ v.value ≤ |a| + δ)
    (hN : Real.pi ≤ ω * (xs.length - 1 / factor)) :
    ∃ p, ask (ieeeEnv m bs t) e3 (.prevTruePeak c) = .done (.ok p) ∧ p.Finite ∧
      -(4 / 10) ≤ 20 * Real.logb 10 (p.value / |a|) ∧ 20 * Real.logb 10 (p.value / |a|) ≤ 2 / 10 := by
  have pi0 := Real.pi_pos
  have hf : factor = 2 ∨ factor = 4 := by
    unfold oversampling at ho
    split at ho
    · cases ho; exact .inr rfl
    · split at ho
      · cases ho; exact .inl rfl
      · cases ho
  have hfR : (0 : ℝ) < factor ∧ (factor : ℝ) ≤ 4 := by rcases hf with rfl | rfl <;> norm_num
  have a0 : 0 < |a| := lt_of_lt_of_le (by positivity) hal
  obtain ⟨p, p1, p2, p3, p4⟩ := C56_prev_true_peak (bs := bs) (t := t) hm h0 h hk ha hs hn h' hq hmode hc ho hω
    (hω'.trans (by nlinarith [hfR.2])) hd (by norm_num at had ⊢; linarith) hpre hxs hp hfol hlev
  have hmar := margin_le (factor := factor) hal hda
  have hcos : 98 / 100 ≤ Real.cos (ω / (2 * factor)) := by
    refine _root_.le_trans ?_ (Real.one_sub_sq_div_two_le_cos)
    have hx : ω / (2 * factor) ≤ 2 / 10 := by
      rw [div_le_iff₀ (by linarith [hfR.1])]
      nlinarith [Real.pi_lt_d2, hfR.1]
    have hx0 : 0 ≤ ω / (2 * factor) := by have := hfR.1; positivity
    nlinarith
  refine ⟨p, p1, p2, db_bounds ?_ ?_⟩
  · rw [le_div_iff₀ a0]
    nlinarith [p4 hN]
  · rw [div_le_iff₀ a0]
    linarith

/-- **C56.** The overall true peak cannot be lower: whatever came before and comes after. -/
theorem C56_true_peak (hm : TrigWithin m (1 / 2 ^ 30)) {e e3 : Ebu F64 F32}
    (h0 : PeakStart (ieeeEnv m bs t) e) {log log' : List (Entry F64 F32)} {x : Input F64 F32}
    (h : Calls (ieeeEnv m bs t) e (log ++ (.addFrames x, .ok ()) :: log') e3)
    (hk : ∀ p ∈ log ++ (.addFrames x, .ok ()) :: log', Steady e.channels e.rate p.1)
    (ha : ∀ p ∈ log ++ (.addFrames x, .ok ()) :: log', Accepted e.channels p)
    (hmode : e.mode.contains Mode.TRUE_PEAK = true) {c : UInt32} (hc : c.toNat < e.channels)
    {taps factor : Nat} (ho : oversampling e.rate = some (taps, factor))
    {a ω δ : ℝ} (hω : 0 < ω) (hω' : ω ≤ Real.pi / 2) (hd : 0 ≤ δ) (had : |a| + δ ≤ 2 ^ 100) {φ : ℝ}
    {pre xs : List F32} (hpre : pre = (heardBy (ieeeEnv m bs t) e.channels c.toNat log).map Prod.snd)
    (hxs : xs = inputStream (ieeeEnv m bs t) e.channels c.toNat x)
    (hp : taps ≤ pre.length + 1) (hfol : Follows (pre ++ xs) (pre.length + 1 - taps) a ω φ δ)
    (hN : Real.pi ≤ ω * (xs.length - 1 / factor)) :
    ∃ p, ask (ieeeEnv m bs t) e3 (.truePeak c) = .done (.ok p) ∧
      |a| * Real.cos (ω / (2 * factor)) - margin factor a δ ≤ p.value := by
  obtain ⟨p, hp1, hp2⟩ := C24_true_peak h0 h hk ha hmode hc
  obtain ⟨-, b2⟩ := oversampled_bounds (bs := bs) (t := t) hm ho hω hω' hd had hp hfol
  obtain ⟨v, hv, hvf, hvb⟩ := b2 hN
  have hnan : v.isNan = false := by obtain ⟨_, _, _, rfl, _⟩ := hvf; rfl
  refine ⟨p, hp1, hvb.trans (le_value (hp2.bound v (List.mem_append_right _ ?_) hnan))⟩
  have e1 : heardBy (ieeeEnv m bs t) e.channels c.toNat (log ++ (.addFrames x, .ok ()) :: log') =
      heardBy (ieeeEnv m bs t) e.channels c.toNat log ++ ((xs.map fun v => (true, v)) ++
        heardBy (ieeeEnv m bs t) e.channels c.toNat log') := by
    unfold heardBy
    rw [List.flatMap_append, List.flatMap_cons, hxs]
  rw [e1, oversampled_append, oversampled_append, List.nil_append, ← hpre]
  exact List.mem_append_right _ (List.mem_append_left _ hv)

/-! ## A case

A sinusoid of amplitude 1/2 at a quarter of the sampling rate, 45 degrees off: every sample is plus or minus 0.35355,
3 dB below the peak between them. -/

/-- `1/2 cos (π/4)` in single precision. -/
def Demo.q : F32 := Fl.lit _ 35355339 (10 ^ 8)

/-- One period. -/
def Demo.quarter : List F32 := [q, Fl.neg q, Fl.neg q, q]

theorem Demo.q_app : App q (1 / 2 * (√2 / 2)) (1 / 10 ^ 5) := by
  have t3 := top32
  norm_num at t3
  have h := App.lit Fmt.ok32 (n := 35355339) (d := 10 ^ 8) (by norm_num) (A := 1) (by norm_num)
    (_root_.le_trans (by norm_num) t3)
  have h1 : (1.41421356 : ℝ) ≤ √2 := Real.le_sqrt_of_sq_le (by norm_num)
  have h2 : √2 ≤ 1.41421357 := Real.sqrt_le_iff.2 (by norm_num)
  refine (h.near (Y := 1 / 2 * (√2 / 2)) (d := 1 / 10 ^ 7) ?_).mono (by rw [eps32, eta32]; norm_num)
  rw [abs_le]
  constructor <;> norm_num at h1 h2 ⊢ <;> linarith

theorem Demo.quarter_sinusoid (j : Nat) : sinusoid (1 / 2) (Real.pi / 2) (Real.pi / 4) j =
    if j % 4 = 0 ∨ j % 4 = 3 then 1 / 2 * (√2 / 2) else -(1 / 2 * (√2 / 2)) := by
  have key : ∀ r : ℝ, sinusoid (1 / 2) (Real.pi / 2) (Real.pi / 4) (((4 * (j / 4) : Nat) : ℝ) + r) =
      1 / 2 * Real.cos (Real.pi / 2 * r + Real.pi / 4) := by
    intro r
    unfold sinusoid
    push_cast
    rw [show Real.pi / 2 * (4 * ((j / 4 : Nat) : ℝ) + r) + Real.pi / 4 =
      Real.pi / 2 * r + Real.pi / 4 + ((j / 4 : Nat) : ℝ) * (2 * Real.pi) by ring, Real.cos_add_nat_mul_two_pi]
  have hj : (j : ℝ) = ((4 * (j / 4) : Nat) : ℝ) + ((j % 4 : Nat) : ℝ) := by exact_mod_cast (Nat.div_add_mod j 4).symm
  rw [hj, key]
  have h4 := Nat.mod_lt j (show 0 < 4 by norm_num)
  generalize j % 4 = r at h4
  interval_cases r
  · rw [if_pos (by decide), show Real.pi / 2 * ((0 : Nat) : ℝ) + Real.pi / 4 = Real.pi / 4 by norm_num, Real.cos_pi_div_four]
  · rw [if_neg (by decide), show Real.pi / 2 * ((1 : Nat) : ℝ) + Real.pi / 4 = Real.pi - Real.pi / 4 by push_cast; ring,
      Real.cos_pi_sub, Real.cos_pi_div_four]
    ring
  · rw [if_neg (by decide), show Real.pi / 2 * ((2 : Nat) : ℝ) + Real.pi / 4 = Real.pi / 4 + Real.pi by push_cast; ring,
      Real.cos_add_pi, Real.cos_pi_div_four]
    ring
  · rw [if_pos (by decide), show Real.pi / 2 * ((3 : Nat) : ℝ) + Real.pi / 4 = 2 * Real.pi - Real.pi / 4 by push_cast; ring,
      Real.cos_two_pi_sub, Real.cos_pi_div_four]

theorem Demo.quarter_follows : Follows ((quarter ++ quarter ++ quarter) ++ quarter) 1 (1 / 2) (Real.pi / 2)
    (Real.pi / 4) (1 / 10 ^ 5) := by
  intro i v _ hv
  rw [quarter_sinusoid]
  have hlt : i < 16 := by
    have := List.getElem?_eq_some_iff.1 hv
    exact this.1
  interval_cases i <;> simp only [quarter, List.cons_append, List.nil_append, List.getElem?_cons_succ,
    List.getElem?_cons_zero, Option.some.injEq] at hv <;> subst hv <;>
    first | (rw [if_pos (by decide)]; exact q_app) | (rw [if_neg (by decide)]; exact q_app.neg)

theorem Demo.stream_f32 (E : Env F64 F32) (l : List F32) : inputStream E 1 0 (.f32 l) = l := by
  have e : inputStream E 1 0 (.f32 l) = (groups 1 (l.map id)).filterMap (·[0]?) := rfl
  rw [e, List.map_id]
  unfold groups
  simp only [Nat.div_one, Nat.mul_one, List.filterMap_map]
  have : ((fun f : List F32 => f[0]?) ∘ fun k => (l.drop k).take 1) = fun k => l[k]? := by
    funext k
    simp [List.getElem?_take]
  rw [this]
  clear this e
  induction l with
  | nil => rfl
  | cons x l ih =>
    rw [List.length_cons, List.range_succ_eq_map, List.filterMap_cons]
    simp only [List.getElem?_cons_zero, List.filterMap_map]
    congr 1

theorem Demo.levels_f32 (t : Target) (l : List F32) : ∀ v ∈ inputLevels t 1 0 (.f32 l), ∃ x ∈ l, v = levelF x := by
  intro v hv
  unfold inputLevels mapFrames groups at hv
  obtain ⟨f, hf, hv⟩ := List.mem_filterMap.1 hv
  obtain ⟨k, -, rfl⟩ := List.mem_map.1 hf
  have := List.mem_of_mem_drop (List.mem_of_mem_take (List.mem_of_getElem? hv))
  obtain ⟨x, hx, rfl⟩ := List.mem_map.1 this
  exact ⟨x, hx, rfl⟩

/-- `C56_tolerance`: after three periods, one more reads within 0.4 dB below and 0.2 dB above -6.02 dBFS, although no
sample is above -9 dBFS. -/
example (m : Libm F64) (bs : BSearch) (t : Target) (h64 : 2 ^ 64 - 1 ≤ t.usizeMax) (hm : TrigWithin m (1 / 2 ^ 30)) :
    ∃ e e1 e2 : Ebu F64 F32, Ebu.new (ieeeEnv m bs t) 1 48000 Mode.TRUE_PEAK = .done (.ok e) ∧
      step (ieeeEnv m bs t) e (.addFrames (.f32 (Demo.quarter ++ Demo.quarter ++ Demo.quarter))) = .done (e1, .ok ()) ∧
      step (ieeeEnv m bs t) e1 (.addFrames (.f32 Demo.quarter)) = .done (e2, .ok ()) ∧
      ∃ p, ask (ieeeEnv m bs t) e2 (.prevTruePeak 0) = .done (.ok p) ∧ p.Finite ∧
        -(4 / 10) ≤ 20 * Real.logb 10 (p.value / |1 / 2|) ∧ 20 * Real.logb 10 (p.value / |1 / 2|) ≤ 2 / 10 := by
  obtain ⟨e, he⟩ := (C01_new_64 (ieeeEnv m bs t) h64 1 48000 Mode.TRUE_PEAK).1.2
    ⟨⟨by omega, by omega, by omega, by omega⟩, by decide⟩
  have hr : Reachable (ieeeEnv m bs t) e := ⟨_, _, _, e, [], he, rfl⟩
  have hch : e.channels = 1 ∧ e.rate = 48000 ∧ e.mode = Mode.TRUE_PEAK := by
    obtain ⟨rfl, -⟩ := Ebu.new_ok he
    exact ⟨rfl, rfl, rfl⟩
  have had : Adequate e.mode e.rate e.window := by
    obtain ⟨rfl, -⟩ := Ebu.new_ok he
    show Adequate Mode.TRUE_PEAK 48000 (minWindow Mode.TRUE_PEAK)
    decide
  obtain ⟨c1, c2, c3⟩ := hch
  have hg := hr.inv.good_iff.2 had
  obtain ⟨n, hpos⟩ := hr.inv2.pos hg
  have ok : ∀ (e' : Ebu F64 F32), e'.channels = 1 → ∀ l : List F32, interOk e'.channels l := by
    intro e' h l
    rw [h]
    exact ⟨one_ne_zero, Nat.mod_one _⟩
  obtain ⟨e1, s1, i1, k1, p1⟩ : ∃ e1, step (ieeeEnv m bs t) e (.addFrames (.f32 (Demo.quarter ++ Demo.quarter ++ Demo.quarter)))
      = .done (e1, .ok ()) ∧ e1.Inv (ieeeEnv m bs t) ∧ e.SameCfg e1 ∧ ∃ n, e1.PosAt n := by
    obtain ⟨s1, i1, k1, p1⟩ := Ebu.addInput_eq hr.inv hg hpos (x := .f32 (Demo.quarter ++ Demo.quarter ++ Demo.quarter))
      (ok _ c1 _) rfl
    exact ⟨_, s1, i1, k1, _, p1⟩
  obtain ⟨n1, p1⟩ := p1
  obtain ⟨e2, s2⟩ : ∃ e2, step (ieeeEnv m bs t) e1 (.addFrames (.f32 Demo.quarter)) = .done (e2, .ok ()) := by
    obtain ⟨s2, -, -, -⟩ := Ebu.addInput_eq i1 (k1.good_iff.2 hg) p1 (x := .f32 Demo.quarter) (ok _ (k1.channels.trans c1) _) rfl
    exact ⟨_, s2⟩
  refine ⟨e, _, _, he, s1, s2, ?_⟩
  have hq := Demo.q_app
  have hsq : √2 ≤ 3 / 2 := Real.sqrt_le_iff.2 (by norm_num)
  have hch : ((0 : UInt32)).toNat = 0 := rfl
  refine C56_tolerance (bs := bs) (t := t) hm (.inl ⟨_, _, _, he⟩) (.cons s1 (.nil _)) ?_ ?_ s2 ?_ (.nil _) (by simp)
    (by rw [c3]; decide) (c := 0) (by rw [c1]; decide) (taps := 12) (factor := 4) (by rw [c2]; rfl) (ω := Real.pi / 2)
    (by positivity) (by push_cast; linarith [Real.pi_pos]) (δ := 1 / 10 ^ 5) (by positivity) ?_ ?_ ?_
    (φ := Real.pi / 4) (pre := Demo.quarter ++ Demo.quarter ++ Demo.quarter) (xs := Demo.quarter) ?_ ?_ (by decide)
    Demo.quarter_follows ?_ ?_
  · intro p hp
    rw [List.mem_singleton.1 hp]
    trivial
  · intro p hp
    rw [List.mem_singleton.1 hp]
    exact fun _ => rfl
  · rw [c1]; decide
  · norm_num
  · rw [abs_of_pos (by norm_num)]; norm_num
  · rw [abs_of_pos (by norm_num)]; norm_num
  · rw [c1, hch]
    have : heardBy (ieeeEnv m bs t) 1 0 [(.addFrames (.f32 (Demo.quarter ++ Demo.quarter ++ Demo.quarter)), .ok ())] =
      (inputStream (ieeeEnv m bs t) 1 0 (.f32 (Demo.quarter ++ Demo.quarter ++ Demo.quarter))).map fun v => (true, v) :=
      List.append_nil _
    rw [this, Demo.stream_f32, List.map_map]
    exact (List.map_id _).symm
  · rw [c1, hch, Demo.stream_f32]
  · intro v hv
    rw [c1, hch] at hv
    obtain ⟨x, hx, rfl⟩ := Demo.levels_f32 t _ v hv
    have ha : App x (1 / 2 * (√2 / 2)) (1 / 10 ^ 5) ∨ App x (-(1 / 2 * (√2 / 2))) (1 / 10 ^ 5) := by
      simp only [Demo.quarter, List.mem_cons, List.not_mem_nil, or_false] at hx
      rcases hx with rfl | rfl | rfl | rfl
      · exact .inl hq
      · exact .inr hq.neg
      · exact .inr hq.neg
      · exact .inl hq
    have hb : |1 / 2 * (√2 / 2)| ≤ 3 / 8 := by
      rw [abs_of_nonneg (by positivity)]
      linarith
    have t1 := eta64
    have hl : App (levelF x) |1 / 2 * (√2 / 2)| (1 / 100) := by
      rcases ha with ha | ha
      · exact (levelF_app ha hb (by norm_num)).mono (by rw [eps64]; norm_num at t1 ⊢; linarith)
      · rw [← abs_neg]
        exact (levelF_app ha (A := 3 / 8) (by rw [abs_neg]; exact hb) (by norm_num)).mono (by rw [eps64]; norm_num at t1 ⊢; linarith)
    refine ⟨hl.1, ?_⟩
    have h1 := (abs_le.1 hl.2).2
    rw [abs_of_pos (show (0 : ℝ) < 1 / 2 by norm_num)]
    linarith
  · show Real.pi ≤ Real.pi / 2 * (((4 : Nat) : ℝ) - 1 / ((4 : Nat) : ℝ))
    push_cast
    linarith [Real.pi_pos]

end Verif
