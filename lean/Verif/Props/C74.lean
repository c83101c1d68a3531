import Verif.Spec.Taper
import Verif.Proofs.ToneFile
import Verif.Proofs.CRefConv
import Verif.Props.C56
/-! # C74: the true peak of a whole programme, faded in and out -/

set_option linter.unusedSimpArgs false

namespace Verif
open Fl Spec

variable {m : Libm F64} {bs : BSearch} {t : Target}

/-! ## The amplitude -/

/-- The amplitude `i` samples before sample `n`, zero before the start. -/
noncomputable def envAgo (env : ℕ → ℝ) (n i : ℕ) : ℝ := if i ≤ n then env (n - i) else 0

theorem Spec.Shaped.nonneg {l : List F32} {env : ℕ → ℝ} {A ω φ δ slope : ℝ} (h : Shaped l env A ω φ δ slope) :
    0 ≤ slope ∧ 0 ≤ A := ⟨(h.bounds 0).1.trans h.start, (h.bounds 0).1.trans (h.bounds 0).2⟩

theorem envAgo_succ {l : List F32} {env : ℕ → ℝ} {A ω φ δ slope : ℝ} (h : Shaped l env A ω φ δ slope) (n i : ℕ) :
    |envAgo env n (i + 1) - envAgo env n i| ≤ slope := by
  unfold envAgo
  rcases Nat.lt_trichotomy n i with hi | rfl | hi
  · rw [if_neg (by omega), if_neg (by omega), sub_zero, abs_zero]
    exact h.nonneg.1
  · rw [if_neg (by omega), if_pos le_rfl, Nat.sub_self, zero_sub, abs_neg, abs_of_nonneg (h.bounds 0).1]
    exact h.start
  · rw [if_pos (by omega), if_pos hi.le, abs_sub_comm]
    have := h.slow (n - (i + 1))
    rwa [show n - (i + 1) + 1 = n - i by omega] at this

theorem envAgo_add {l : List F32} {env : ℕ → ℝ} {A ω φ δ slope : ℝ} (h : Shaped l env A ω φ δ slope) (n i d : ℕ) :
    |envAgo env n (i + d) - envAgo env n i| ≤ d * slope := by
  induction d with
  | zero => simp
  | succ d ih =>
    have := abs_sub_le (envAgo env n (i + (d + 1))) (envAgo env n (i + d)) (envAgo env n i)
    have := envAgo_succ h n (i + d)
    push_cast
    rw [add_assoc] at this
    linarith

theorem envAgo_middle {l : List F32} {env : ℕ → ℝ} {A ω φ δ slope : ℝ} (h : Shaped l env A ω φ δ slope) (n c i : ℕ)
    (hi : i ≤ 2 * c) : |envAgo env n i - envAgo env n c| ≤ c * slope := by
  rcases Nat.le_total i c with hc | hc
  · obtain ⟨d, rfl⟩ := Nat.le.dest hc
    rw [abs_sub_comm]
    refine (envAgo_add h n i d).trans (mul_le_mul_of_nonneg_right ?_ h.nonneg.1)
    push_cast
    linarith [(Nat.cast_nonneg i : (0 : ℝ) ≤ i)]
  · obtain ⟨d, rfl⟩ := Nat.le.dest hc
    refine (envAgo_add h n c d).trans (mul_le_mul_of_nonneg_right ?_ h.nonneg.1)
    exact_mod_cast (by omega : d ≤ c)

theorem envAgo_bounds {l : List F32} {env : ℕ → ℝ} {A ω φ δ slope : ℝ} (h : Shaped l env A ω φ δ slope) (n i : ℕ) :
    0 ≤ envAgo env n i ∧ envAgo env n i ≤ A := by
  unfold envAgo
  split
  · exact h.bounds _
  · exact ⟨_root_.le_rfl, h.nonneg.2⟩

/-! ## The interpolated samples -/

theorem ago_take (l : List F32) {n i : ℕ} (hn : n < l.length) :
    (l.take (n + 1)).reverse[i]? = if i ≤ n then l[n - i]? else none := by
  have hlen : (l.take (n + 1)).length = n + 1 := by rw [List.length_take]; omega
  by_cases hi : i ≤ n
  · rw [if_pos hi, List.getElem?_reverse (by omega), hlen, List.getElem?_take_of_lt (by omega)]
    congr 1
  · rw [if_neg hi, List.getElem?_eq_none]
    rw [List.length_reverse]
    omega

/-- Every interpolated level of a shaped tone is at most its largest amplitude, up to `margin`. -/
theorem Spec.Shaped.phase (hm : TrigWithin m (1 / 2 ^ 30)) {factor k : Nat} (hf : factor = 2 ∨ factor = 4)
    (hk : k < factor) {l : List F32} {env : ℕ → ℝ} {A ω φ δ slope : ℝ} (h : Shaped l env A ω φ δ slope)
    (h0 : 0 ≤ ω) (h1 : ω ≤ Real.pi / 2) (hd : 0 ≤ δ) (ha : A + (δ + (24 / factor : ℕ) * slope) ≤ 2 ^ 100) {n : ℕ}
    (hn : n < l.length) :
    (levelF (Spec.phase (ieeeEnv m bs t) (48 / factor) factor ((l.take (n + 1)).map ([·])) k 0)).Finite ∧
    (levelF (Spec.phase (ieeeEnv m bs t) (48 / factor) factor ((l.take (n + 1)).map ([·])) k 0)).value ≤
      A + margin factor A (δ + (24 / factor : ℕ) * slope) := by
  obtain ⟨s0, A0⟩ := h.nonneg
  have hc : 48 / factor = 2 * (24 / factor) := by rcases hf with rfl | rfl <;> rfl
  obtain ⟨b0, b1⟩ := envAgo_bounds h n (24 / factor)
  have hD : 0 ≤ δ + (24 / factor : ℕ) * slope := by positivity
  obtain ⟨p1, p2⟩ := interp_near (bs := bs) (t := t) hm hf hk h0 h1 hD (a := envAgo env n (24 / factor))
    (by rw [abs_of_nonneg b0]; linarith) φ n (l := l.take (n + 1)) (by
      intro i hi v hv
      rw [ago_take l hn] at hv
      split at hv
      · exact (h.near _ v hv).1
      · cases hv) (by
      intro i hi
      have hm := envAgo_middle h n (24 / factor) i (by omega)
      have hv : |ago (l.take (n + 1)) i - sinusoid (envAgo env n i) ω φ (n - i)| ≤ δ := by
        unfold ago envAgo
        rw [ago_take l hn]
        by_cases hi : i ≤ n
        · rw [if_pos hi, if_pos hi, List.getElem?_eq_getElem (by omega)]
          have := (h.near (n - i) _ (List.getElem?_eq_getElem (by omega))).2
          rw [Nat.cast_sub hi] at this
          exact this
        · rw [if_neg hi, if_neg hi]
          unfold sinusoid
          simpa using hd
      have hs : |sinusoid (envAgo env n i) ω φ (n - i) - sinusoid (envAgo env n (24 / factor)) ω φ (n - i)| ≤
          (24 / factor : ℕ) * slope := by
        unfold sinusoid
        rw [← sub_mul, abs_mul]
        exact (mul_le_of_le_one_right (abs_nonneg _) (Real.abs_cos_le_one _)).trans hm
      have := abs_sub_le (ago (l.take (n + 1)) i) (sinusoid (envAgo env n i) ω φ (n - i))
        (sinusoid (envAgo env n (24 / factor)) ω φ (n - i))
      linarith)
  refine ⟨p1, ?_⟩
  have hs := sinusoid_abs (envAgo env n (24 / factor)) ω φ ((n : ℝ) - (24 - k) / factor)
  rw [abs_of_nonneg b0] at hs
  have hmar : margin factor (envAgo env n (24 / factor)) (δ + (24 / factor : ℕ) * slope) ≤
      margin factor A (δ + (24 / factor : ℕ) * slope) := by
    have hr0 : 0 ≤ ripple factor := by unfold ripple; split <;> norm_num
    unfold margin
    rw [abs_of_nonneg b0, abs_of_nonneg A0]
    have := mul_le_mul_of_nonneg_left b1 (show 0 ≤ ripple factor + 1 / 5000 by linarith)
    linarith
  linarith [(abs_le.1 p2).2]

theorem mem_between_of (E : Env F64 F32) (taps factor : Nat) (xs : List (Bool × F32)) : ∀ (pre : List F32) (v : F64),
    v ∈ between E taps factor pre xs →
      ∃ i < xs.length, ∃ k < factor, v = levelF (phase E taps factor ((pre ++ (xs.map Prod.snd).take (i + 1)).map ([·])) k 0) := by
  induction xs with
  | nil => intro pre v h; simp [between] at h
  | cons x xs ih =>
    obtain ⟨b, x⟩ := x
    intro pre v h
    rw [between, List.mem_append] at h
    rcases h with h | h
    · split at h
      · obtain ⟨k, hk, h⟩ := List.mem_map.1 h
        exact ⟨0, by simp, k, List.mem_range.1 hk, by rw [← h]; simp⟩
      · cases h
    · obtain ⟨i, hi, k, hk, h⟩ := ih _ _ h
      exact ⟨i + 1, by simpa using hi, k, hk, by rw [h]; simp⟩

theorem factor_of {rate taps factor : Nat} (ho : oversampling rate = some (taps, factor)) :
    (factor = 2 ∨ factor = 4) ∧ taps = 48 / factor := by
  unfold oversampling at ho
  split at ho
  · cases ho; exact ⟨.inr rfl, rfl⟩
  · split at ho
    · cases ho; exact ⟨.inl rfl, rfl⟩
    · cases ho

/-! ## The analyzer -/

/-- **C74.** A tone of up to a quarter of the sampling rate whose amplitude changes slowly: over the whole programme, from the
first sample on and however it is split into calls, with or without seeding, the true peak does not exceed the largest amplitude,
up to `margin`. -/
theorem C74_upper (hm : TrigWithin m (1 / 2 ^ 30)) {e e' : Ebu F64 F32} (h0 : PeakStart (ieeeEnv m bs t) e)
    {log : List (Entry F64 F32)} (h : Calls (ieeeEnv m bs t) e log e') (hk : ∀ p ∈ log, Steady e.channels e.rate p.1)
    (ha : ∀ p ∈ log, Accepted e.channels p) (hmode : e.mode.contains Mode.TRUE_PEAK = true) {c : UInt32}
    (hc : c.toNat < e.channels) {taps factor : Nat} (ho : oversampling e.rate = some (taps, factor))
    {env : ℕ → ℝ} {A ω φ δ slope : ℝ}
    (hsh : Shaped ((heardBy (ieeeEnv m bs t) e.channels c.toNat log).map Prod.snd) env A ω φ δ slope)
    (hω : 0 ≤ ω) (hω' : ω ≤ Real.pi / 2) (hd : 0 ≤ δ) (hA : A + (δ + (taps / 2 : ℕ) * slope) ≤ 2 ^ 100)
    (hlev : ∀ v ∈ levels t e.channels c.toNat log, v.Finite ∧ v.value ≤ A + δ) :
    ∃ p, ask (ieeeEnv m bs t) e' (.truePeak c) = .done (.ok p) ∧ p.Finite ∧
      p.value ≤ A + margin factor A (δ + (taps / 2 : ℕ) * slope) := by
  obtain ⟨hf, rfl⟩ := factor_of ho
  have h2 : 48 / factor / 2 = 24 / factor := by rcases hf with rfl | rfl <;> rfl
  rw [h2] at hA ⊢
  obtain ⟨s0, A0⟩ := hsh.nonneg
  have hmar : δ ≤ margin factor A (δ + (24 / factor : ℕ) * slope) := by
    have hr0 : 0 ≤ ripple factor := by unfold ripple; split <;> norm_num
    unfold margin
    have : 0 ≤ (ripple factor + 1 / 5000) * |A| := by positivity
    have : (0 : ℝ) ≤ 1 / 2 ^ 100 := by positivity
    have : 0 ≤ ((24 / factor : ℕ) : ℝ) * slope := by positivity
    linarith
  obtain ⟨p, hp1, hp2⟩ := C24_true_peak h0 h hk ha hmode hc
  refine ⟨p, hp1, ?_⟩
  rcases hp2.attained with h | rfl
  · rcases List.mem_append.1 h with h | h
    · exact ⟨(hlev p h).1, (hlev p h).2.trans (by linarith)⟩
    · unfold oversampled at h
      rw [ho] at h
      obtain ⟨i, hi, k, hk, rfl⟩ := mem_between_of _ _ _ _ _ _ h
      exact hsh.phase (bs := bs) (t := t) hm hf hk hω hω' hd hA (by rwa [List.length_map])
  · refine ⟨⟨false, 0, Nat.zero_le _, rfl, by decide⟩, ?_⟩
    rw [value_zero]
    linarith

/-- The true peak is at least every interpolated level of a stretch of the programme on which the amplitude is steady. -/
theorem C74_lower (hm : TrigWithin m (1 / 2 ^ 30)) {e e' : Ebu F64 F32} (h0 : PeakStart (ieeeEnv m bs t) e)
    {log : List (Entry F64 F32)} (h : Calls (ieeeEnv m bs t) e log e') (hk : ∀ p ∈ log, Steady e.channels e.rate p.1)
    (ha : ∀ p ∈ log, Accepted e.channels p) (hmode : e.mode.contains Mode.TRUE_PEAK = true) {c : UInt32}
    (hc : c.toNat < e.channels) {taps factor : Nat} (ho : oversampling e.rate = some (taps, factor))
    {pre xs post : List F32} (hx : heardBy (ieeeEnv m bs t) e.channels c.toNat log = (pre ++ xs ++ post).map fun v => (true, v))
    {a ω δ : ℝ} (hω : 0 < ω) (hω' : ω ≤ Real.pi / 2) (hd : 0 ≤ δ) (had : |a| + δ ≤ 2 ^ 100) {φ : ℝ}
    (hp : taps ≤ pre.length + 1) (hfol : Follows (pre ++ xs) (pre.length + 1 - taps) a ω φ δ)
    (hN : Real.pi ≤ ω * (xs.length - 1 / factor)) :
    ∃ p, ask (ieeeEnv m bs t) e' (.truePeak c) = .done (.ok p) ∧
      |a| * Real.cos (ω / (2 * factor)) - margin factor a δ ≤ p.value := by
  obtain ⟨p, hp1, hp2⟩ := C24_true_peak h0 h hk ha hmode hc
  obtain ⟨-, b2⟩ := oversampled_bounds (bs := bs) (t := t) hm ho hω hω' hd had hp hfol
  obtain ⟨v, hv, hvf, hvb⟩ := b2 hN
  have hnan : v.isNan = false := by obtain ⟨_, _, _, rfl, _⟩ := hvf; rfl
  refine ⟨p, hp1, hvb.trans (le_value (hp2.bound v (List.mem_append_right _ ?_) hnan))⟩
  rw [hx, List.map_append, List.map_append, oversampled_append, oversampled_append, List.nil_append, List.map_map]
  have e : (pre.map (Prod.snd ∘ fun v => (true, v))) = pre := List.map_id _
  rw [e]
  exact List.mem_append_left _ (List.mem_append_right _ hv)

/-- **C74.** A tone of up to a quarter of the sampling rate with 4x oversampling, or an eighth with 2x, which is faded in, reaches
its amplitude `A` for at least half a period and twice the length of the filter, and may be faded out: the true peak of the whole
programme is within -0.4 dB and +0.2 dB of `A`, the tolerance of EBU Tech 3341. -/
theorem C74_tolerance (hm : TrigWithin m (1 / 2 ^ 30)) {e e' : Ebu F64 F32} (h0 : PeakStart (ieeeEnv m bs t) e)
    {log : List (Entry F64 F32)} (h : Calls (ieeeEnv m bs t) e log e') (hk : ∀ p ∈ log, Steady e.channels e.rate p.1)
    (ha : ∀ p ∈ log, Accepted e.channels p) (hmode : e.mode.contains Mode.TRUE_PEAK = true) {c : UInt32}
    (hc : c.toNat < e.channels) {taps factor : Nat} (ho : oversampling e.rate = some (taps, factor))
    {l : List F32} (hx : heardBy (ieeeEnv m bs t) e.channels c.toNat log = l.map fun v => (true, v))
    {env : ℕ → ℝ} {A ω φ δ slope : ℝ} (hsh : Shaped l env A ω φ δ slope)
    (hω : 0 < ω) (hω' : ω ≤ factor * Real.pi / 8) (hd : 0 ≤ δ) (hda : δ ≤ A / 1000) (hsl : taps * slope ≤ A / 500)
    (hA : 1 / 2 ^ 80 ≤ A) (hA' : A ≤ 2 ^ 99) {first n : ℕ} (hst : ∀ i, first ≤ i → i < first + taps + n → env i = A)
    (hlen : first + taps + n ≤ l.length) (hN : Real.pi ≤ ω * (n - 1 / factor))
    (hlev : ∀ v ∈ levels t e.channels c.toNat log, v.Finite ∧ v.value ≤ A + δ) :
    ∃ p, ask (ieeeEnv m bs t) e' (.truePeak c) = .done (.ok p) ∧ p.Finite ∧ 0 < p.value ∧
      -(4 / 10) ≤ 20 * Real.logb 10 (p.value / A) ∧ 20 * Real.logb 10 (p.value / A) ≤ 2 / 10 := by
  have pi0 := Real.pi_pos
  have A0 : 0 < A := lt_of_lt_of_le (by positivity) hA
  have eA : |A| = A := abs_of_pos A0
  have ht : ((taps / 2 : ℕ) : ℝ) * slope ≤ A / 1000 := by
    have : ((taps / 2 : ℕ) : ℝ) ≤ taps / 2 := Nat.cast_div_le
    have := mul_le_mul_of_nonneg_right this hsh.nonneg.1
    linarith
  have ht0 : 0 ≤ ((taps / 2 : ℕ) : ℝ) * slope := mul_nonneg (Nat.cast_nonneg _) hsh.nonneg.1
  obtain ⟨hf, htaps⟩ := factor_of ho
  have hfR : (0 : ℝ) < factor ∧ (factor : ℝ) ≤ 4 := by rcases hf with rfl | rfl <;> norm_num
  have hω2 : ω ≤ Real.pi / 2 := hω'.trans (by nlinarith [hfR.2])
  have hmap : (heardBy (ieeeEnv m bs t) e.channels c.toNat log).map Prod.snd = l := by
    rw [hx, List.map_map]; exact List.map_id _
  obtain ⟨p, p1, p2, p3⟩ := C74_upper (bs := bs) (t := t) hm h0 h hk ha hmode hc ho (by rw [hmap]; exact hsh) hω.le hω2 hd
    (by norm_num at hA' ⊢; linarith) hlev
  have hcut : l = l.take (first + taps) ++ (l.drop (first + taps)).take n ++ l.drop (first + taps + n) := by
    have : l.drop (first + taps + n) = (l.drop (first + taps)).drop n := by rw [List.drop_drop]
    rw [this, List.append_assoc, List.take_append_drop, List.take_append_drop]
  obtain ⟨q, q1, q2⟩ := C74_lower (bs := bs) (t := t) hm h0 h hk ha hmode hc ho (by rw [hx, ← hcut]) hω hω2 hd
    (a := A) (φ := φ) (by rw [eA]; norm_num at hA' ⊢; linarith) (by rw [List.length_take]; omega) (by
      intro i v hi hv
      rw [List.length_take] at hi
      have hil : i < (l.take (first + taps) ++ (l.drop (first + taps)).take n).length := (List.getElem?_eq_some_iff.1 hv).1
      rw [List.length_append, List.length_take, List.length_take, List.length_drop] at hil
      have hv' : l[i]? = some v := by
        rw [hcut, List.getElem?_append_left]
        · exact hv
        · exact (List.getElem?_eq_some_iff.1 hv).1
      have := hsh.near i v hv'
      rwa [hst i (by omega) (by omega)] at this) (by
      rw [List.length_take, List.length_drop, Nat.min_eq_left (by omega)]
      exact hN)
  rw [p1] at q1
  cases q1
  have hmar := margin_le (factor := factor) (a := A) (δ := δ) (by rwa [eA]) (by rwa [eA])
  have hcos : 98 / 100 ≤ Real.cos (ω / (2 * factor)) := by
    refine _root_.le_trans ?_ (Real.one_sub_sq_div_two_le_cos)
    have hx : ω / (2 * factor) ≤ 2 / 10 := by
      rw [div_le_iff₀ (by linarith [hfR.1])]
      nlinarith [Real.pi_lt_d2, hfR.1]
    have hx0 : 0 ≤ ω / (2 * factor) := by have := hfR.1; positivity
    nlinarith
  rw [eA] at q2 hmar
  have hlow : 97 / 100 * A ≤ p.value := by nlinarith
  refine ⟨p, p1, p2, by linarith, db_bounds ?_ ?_⟩
  · rwa [le_div_iff₀ A0]
  · rw [div_le_iff₀ A0]
    have hr : ripple factor ≤ 1 / 250 := by unfold ripple; split <;> norm_num
    have h1 : ripple factor * A ≤ 1 / 250 * A := mul_le_mul_of_nonneg_right hr A0.le
    unfold margin at p3
    rw [add_mul, eA] at p3
    norm_num at hA hda ht p3 ⊢
    linarith

/-! ## Files -/

theorem fades_bounds (fade len n : ℕ) : 0 ≤ fades fade len n ∧ fades fade len n ≤ 1 :=
  ⟨le_max_left _ _, max_le zero_le_one (min_le_left _ _)⟩

theorem fades_zero (fade len : ℕ) : fades fade len 0 = 0 := by
  unfold fades
  rw [Nat.cast_zero, sub_zero, min_eq_left (Nat.cast_nonneg len), zero_div, min_eq_right zero_le_one, max_self]

theorem fades_slow {fade : ℕ} (hf : 0 < fade) (len n : ℕ) : |fades fade len (n + 1) - fades fade len n| ≤ 1 / fade := by
  unfold fades
  have f0 : (0 : ℝ) < fade := by exact_mod_cast hf
  have hmm : ∀ x y : ℝ, |max 0 x - max 0 y| ≤ |x - y| := by
    intro x y
    refine (abs_max_sub_max_le_max 0 x 0 y).trans ?_
    rw [sub_self, abs_zero, max_eq_right (abs_nonneg _)]
  have hmn : ∀ x y : ℝ, |min 1 x - min 1 y| ≤ |x - y| := by
    intro x y
    refine (abs_min_sub_min_le_max 1 x 1 y).trans ?_
    rw [sub_self, abs_zero, max_eq_right (abs_nonneg _)]
  refine (hmm _ _).trans ((hmn _ _).trans ?_)
  rw [← sub_div, abs_div, abs_of_pos f0]
  refine div_le_div_of_nonneg_right ?_ f0.le
  refine (abs_min_sub_min_le_max _ _ _ _).trans (max_le ?_ ?_)
  · push_cast; rw [add_sub_cancel_left, abs_one]
  · push_cast
    rw [show (len : ℝ) - (n + 1) - (len - n) = -1 by ring, abs_neg, abs_one]

theorem fades_steady {fade len n : ℕ} (hf : 0 < fade) (h1 : fade ≤ n) (h2 : n + fade ≤ len) : fades fade len n = 1 := by
  unfold fades
  have f0 : (0 : ℝ) < fade := by exact_mod_cast hf
  have r1 : (fade : ℝ) ≤ n := by exact_mod_cast h1
  have r2 : (n : ℝ) + fade ≤ len := by exact_mod_cast h2
  rw [min_eq_left, max_eq_right zero_le_one]
  rw [le_div_iff₀ f0, one_mul]
  exact le_min r1 (by linarith)

/-- Rounding to 16 bits, up to full scale. -/
theorem short_round' {x : ℝ} (hx : |x| ≤ 9999 / 10000) :
    |((Int16.ofInt (round (32768 * x))).toInt : ℝ) / 32768 - x| ≤ 1 / 65536 := by
  have h := abs_le.1 (abs_sub_round (32768 * x))
  have hx := abs_le.1 hx
  have h1 : (round (32768 * x) : ℤ) < 32768 := by
    have : (round (32768 * x) : ℝ) < (32768 : ℤ) := by push_cast; linarith
    exact_mod_cast this
  have h2 : -32768 < (round (32768 * x) : ℤ) := by
    have : ((-32768 : ℤ) : ℝ) < round (32768 * x) := by push_cast; linarith
    exact_mod_cast this
  have e : (Int16.ofInt (round (32768 * x))).toInt = round (32768 * x) :=
    Int16.toInt_ofInt_of_le (by omega) (by omega)
  rw [e, abs_le]
  constructor <;> linarith

/-- One call after the other succeeds. -/
theorem calls_frames {E : Env F64 F32} {channels : ℕ} (hc : channels ≠ 0) (parts : List (List (List Int16))) :
    ∀ {e : Ebu F64 F32}, e.Inv E → e.Good → (∃ n, e.PosAt n) → e.channels = channels →
    (∀ fs ∈ parts, ∀ f ∈ fs, f.length = channels) →
    ∃ e', Calls E e (parts.map fun fs => (.addFrames (.i16 fs.flatten), .ok ())) e' ∧
      runOps E e (parts.map fun fs => .addFrames (.i16 fs.flatten)) = .done e' := by
  induction parts with
  | nil => intro e _ _ _ _ _; exact ⟨e, .nil _, rfl⟩
  | cons fs parts ih =>
    rintro e hi hg ⟨n, hn⟩ hch hp
    have hw : interOk e.channels fs.flatten := by
      refine ⟨by rw [hch]; exact hc, ?_⟩
      rw [hch, List.length_flatten, List.map_congr_left (g := fun _ => channels) (fun f h => hp fs List.mem_cons_self f h)]
      simp
    obtain ⟨s1, i1, k1, p1⟩ := Ebu.addInput_eq hi hg hn (x := .i16 fs.flatten) hw rfl
    obtain ⟨e', c1, c2⟩ := ih i1 (k1.good_iff.2 hg) ⟨_, p1⟩ (k1.channels.trans hch)
      fun gs h => hp gs (List.mem_cons_of_mem _ h)
    refine ⟨e', .cons s1 c1, ?_⟩
    show Run.bind (step E e (.addFrames (.i16 fs.flatten))) _ = _
    have : step E e (.addFrames (.i16 fs.flatten)) = e.addInput E (.i16 fs.flatten) := rfl
    rw [this, s1]
    exact c2

/-- What one channel gets of the file. -/
theorem channel_frames (g : Int16 → α) {channels : ℕ} (hc : channels ≠ 0) {fs : List (List Int16)}
    (hp : ∀ f ∈ fs, f.length = channels) (c : ℕ) :
    (groups channels (fs.flatten.map g)).filterMap (·[c]?) = (fs.filterMap (·[c]?)).map g := by
  rw [groups_map', groups_flatten hc hp, List.filterMap_map, List.map_filterMap]
  refine List.filterMap_congr fun f _ => ?_
  simp

theorem channel_faded {channels c : ℕ} (hc : c < channels) (fade len : ℕ) (a ω φ : ℝ) :
    (fadedFile channels fade len a ω φ).filterMap (·[c]?) = (List.range len).map fun (n : ℕ) =>
      Int16.ofInt (round (32768 * sinusoid (a * fades fade len n) ω φ n)) := by
  unfold fadedFile
  rw [List.filterMap_map, ← List.filterMap_eq_map]
  refine List.filterMap_congr fun n _ => ?_
  simp [hc]

/-- **C74.** A 16-bit file of a tone with fades of at least `500 * taps` samples (0.125 s at 48 kHz), read in any number of calls of
any sizes: the true peak of every channel is the amplitude of the tone, to within -0.4 dB and +0.2 dB. -/
theorem C74_files (hm : TrigWithin m (1 / 2 ^ 30)) {channels rate : ℕ} {mode : Mode} {e : Ebu F64 F32}
    (h0 : Ebu.new (ieeeEnv m bs t) channels rate mode = .done (.ok e)) (hr : 146 ≤ rate)
    (hmode : mode.contains Mode.TRUE_PEAK = true) {taps factor : ℕ} (ho : oversampling rate = some (taps, factor))
    {c : UInt32} (hc : c.toNat < channels) {fade len n : ℕ} (hfade : 500 * taps ≤ fade) (hlen : 2 * fade + taps + n ≤ len)
    {a ω φ : ℝ} (ha : 1 / 50 ≤ a) (ha' : a ≤ 2) (hfit : ∀ i : ℕ, |sinusoid a ω φ i| ≤ 9999 / 10000)
    (hω : 0 < ω) (hω' : ω ≤ factor * Real.pi / 8) (hN : Real.pi ≤ ω * (n - 1 / factor))
    {parts : List (List (List Int16))} (hp : parts.flatten = fadedFile channels fade len a ω φ) :
    ∃ e' p, runOps (ieeeEnv m bs t) e (parts.map fun fs => .addFrames (.i16 fs.flatten)) = .done e' ∧
      ask (ieeeEnv m bs t) e' (.truePeak c) = .done (.ok p) ∧ p.Finite ∧ 0 < p.value ∧
      -(4 / 10) ≤ 20 * Real.logb 10 (p.value / a) ∧ 20 * Real.logb 10 (p.value / a) ≤ 2 / 10 := by
  obtain ⟨c1, c2, c3⟩ : e.channels = channels ∧ e.rate = rate ∧ e.mode = mode := by
    obtain ⟨rfl, -⟩ := Ebu.new_ok h0
    exact ⟨rfl, rfl, rfl⟩
  have hc0 : channels ≠ 0 := by omega
  have h2 := Ebu.new_inv2 h0
  have hg : e.Good := h2.inv.good_iff.2 (h2.inv.adequate (by rw [c2]; exact hr))
  have ht : 0 < taps := by
    obtain ⟨hf, rfl⟩ := factor_of ho
    rcases hf with rfl | rfl <;> decide
  have hf0 : 0 < fade := by omega
  have f0 : (0 : ℝ) < fade := by exact_mod_cast hf0
  have a0 : 0 < a := by linarith
  have hl : ∀ fs ∈ parts, ∀ f ∈ fs, f.length = channels := by
    intro fs hfs f hf
    have : f ∈ parts.flatten := List.mem_flatten.2 ⟨fs, hfs, hf⟩
    rw [hp] at this
    obtain ⟨n, -, rfl⟩ := List.mem_map.1 this
    simp
  obtain ⟨e', hcalls, hrun⟩ := calls_frames hc0 parts h2.inv hg (h2.pos hg) c1 hl
  obtain ⟨xs, hxs⟩ : ∃ xs : List Int16, xs = (List.range len).map fun (n : ℕ) =>
    Int16.ofInt (round (32768 * sinusoid (a * fades fade len n) ω φ n)) := ⟨_, rfl⟩
  have hall : ∀ {α : Type} (g : Int16 → α), (parts.flatMap fun fs => (groups channels (fs.flatten.map g)).filterMap (·[c.toNat]?)) =
      xs.map g := by
    intro α g
    rw [List.flatMap_def, List.map_congr_left (fun fs h => channel_frames g hc0 (hl fs h) c.toNat), hxs,
      ← channel_faded hc, ← hp, List.filterMap_flatten, List.map_flatten, List.map_map]
    rfl
  have hheard : heardBy (ieeeEnv m bs t) channels c.toNat (parts.map fun fs => (.addFrames (.i16 fs.flatten), .ok ())) =
      (xs.map (i16Ops (ieeeEnv m bs t)).toF32).map fun v => (true, v) := by
    rw [← hall, List.map_flatMap]
    unfold heardBy
    rw [List.flatMap_map]
    rfl
  have hlevs : levels t channels c.toNat (parts.map fun fs => (.addFrames (.i16 fs.flatten), .ok ())) = xs.map level16 := by
    rw [← hall]
    unfold levels
    rw [List.flatMap_map]
    rfl
  have hsin : ∀ i : ℕ, |sinusoid (a * fades fade len i) ω φ i| ≤ 9999 / 10000 := by
    intro i
    have := hfit i
    unfold sinusoid at this ⊢
    rw [mul_comm a, mul_assoc, abs_mul, abs_of_nonneg (fades_bounds fade len i).1]
    exact (mul_le_of_le_one_left (abs_nonneg _) (fades_bounds fade len i).2).trans this
  have hx : ∀ i x, xs[i]? = some x → |(x.toInt : ℝ) / 32768 - sinusoid (a * fades fade len i) ω φ i| ≤ 1 / 65536 := by
    intro i x h
    rw [hxs, List.getElem?_map] at h
    obtain ⟨j, hj, rfl⟩ := Option.map_eq_some_iff.1 h
    obtain ⟨hj1, rfl⟩ := List.getElem?_eq_some_iff.1 hj
    rw [List.getElem_range]
    exact short_round' (hsin i)
  have hsh : Shaped (xs.map (i16Ops (ieeeEnv m bs t)).toF32) (fun i => a * fades fade len i) a ω φ (1 / 50000) (a / fade) := by
    refine ⟨fun i => ?_, ?_, fun i => ?_, fun i v hv => ?_⟩
    · obtain ⟨b1, b2⟩ := fades_bounds fade len i
      exact ⟨by positivity, by nlinarith⟩
    · rw [fades_zero, mul_zero]
      positivity
    · rw [← mul_sub, abs_mul, abs_of_pos a0, div_eq_mul_one_div]
      exact mul_le_mul_of_nonneg_left (fades_slow hf0 len i) a0.le
    · rw [List.getElem?_map] at hv
      obtain ⟨x, hx1, rfl⟩ := Option.map_eq_some_iff.1 hv
      have h1 := hx i x hx1
      obtain ⟨q1, q2⟩ := rust_short (m := m) (bs := bs) (t := t) (n := x) (A := 2) (by
        have h1 : (-32768 : ℝ) ≤ x.toInt := by exact_mod_cast x.le_toInt
        have h2 : (x.toInt : ℝ) < 32768 := by exact_mod_cast x.toInt_lt
        rw [abs_le]
        constructor <;> linarith)
      refine ⟨q1.1, (abs_sub_le _ ((x.toInt : ℝ) / 32768) _).trans ?_⟩
      have h2 := q1.2
      have : convErr 2 ≤ 1 / 10 ^ 6 := by unfold convErr unit32; norm_num
      norm_num at this h1 h2 ⊢
      linarith
  rw [← c3] at hmode
  rw [← c2] at ho
  rw [← c1] at hc hheard hlevs
  obtain ⟨p, p1⟩ := C74_tolerance (bs := bs) (t := t) hm (.inl ⟨_, _, _, h0⟩) hcalls (by
    intro p hp
    obtain ⟨fs, -, rfl⟩ := List.mem_map.1 hp
    trivial) (by
    intro p hp
    obtain ⟨fs, -, rfl⟩ := List.mem_map.1 hp
    exact fun _ => rfl) hmode hc ho hheard hsh hω hω' (by norm_num) (by linarith) (by
      rw [mul_div_assoc', div_le_div_iff₀ f0 (by norm_num)]
      have : (500 : ℝ) * taps ≤ fade := by exact_mod_cast hfade
      nlinarith) (by norm_num at ha ⊢; linarith) (by norm_num at ha' ⊢; linarith) (first := fade) (n := n)
    (fun i h1 h2 => by rw [fades_steady hf0 h1 (by omega), mul_one])
    (by rw [List.length_map, hxs, List.length_map, List.length_range]; omega) hN (by
      rw [hlevs]
      intro v hv
      obtain ⟨x, hx1, rfl⟩ := List.mem_map.1 hv
      obtain ⟨i, hi⟩ := List.mem_iff_getElem?.1 hx1
      have h1 := hx i x hi
      have h2 := sinusoid_abs (a * fades fade len i) ω φ i
      rw [abs_of_nonneg (mul_nonneg a0.le (fades_bounds fade len i).1)] at h2
      have h3 : a * fades fade len i ≤ a := mul_le_of_le_one_right a0.le (fades_bounds fade len i).2
      have h4 : |(x.toInt : ℝ) / 32768| ≤ a + 1 / 65536 := by
        have := abs_add_le ((x.toInt : ℝ) / 32768 - sinusoid (a * fades fade len i) ω φ i) (sinusoid (a * fades fade len i) ω φ i)
        rw [sub_add_cancel] at this
        linarith
      have h5 := App.lit Fmt.ok64 (n := x.toInt.natAbs) (d := 32768) (by norm_num) (A := 3) (by
        rw [abs_div, abs_of_pos (by norm_num : (0 : ℝ) < 32768)] at h4
        rw [abs_div]
        push_cast
        rw [abs_abs, abs_of_pos (by norm_num : (0 : ℝ) < 32768)]
        linarith) (_root_.le_trans (by norm_num) top64)
      refine ⟨h5.1, ?_⟩
      have h6 := (abs_le.1 h5.2).2
      have t1 := eta64
      rw [eps64] at h6
      rw [abs_div, abs_of_pos (by norm_num : (0 : ℝ) < 32768)] at h4
      push_cast at h6
      have : (level16 x).value = (Fl.lit Fmt.b64 (x.toInt.natAbs : Int) 32768).value := rfl
      rw [this]
      norm_num at t1 h4 h6 ⊢
      linarith)
  exact ⟨e', p, hrun, p1⟩

/-! ## The test signals -/

/-- Samples at a quarter of the sampling rate, 45 degrees off, are all 3 dB below the peak. -/
theorem quarter_abs (a : ℝ) (i : ℕ) : |sinusoid a (Real.pi / 2) (Real.pi / 4) i| ^ 2 = a ^ 2 / 2 := by
  unfold sinusoid
  rw [sq_abs, mul_pow, Real.cos_sq]
  have : Real.cos (2 * (Real.pi / 2 * i + Real.pi / 4)) = 0 := by
    rw [show 2 * (Real.pi / 2 * i + Real.pi / 4) = i * Real.pi + Real.pi / 2 by ring, Real.cos_add_pi_div_two, Real.sin_nat_mul_pi,
      neg_zero]
  rw [this]
  ring

theorem three_db : (10 : ℝ) ^ (3 / 20 : ℝ) ≤ 1413 / 1000 ∧ 1 ≤ (10 : ℝ) ^ (3 / 20 : ℝ) := by
  refine ⟨?_, Real.one_le_rpow (by norm_num) (by norm_num)⟩
  have h : ((10 : ℝ) ^ (3 / 20 : ℝ)) ^ 20 = 10 ^ 3 := by
    rw [← Real.rpow_natCast, ← Real.rpow_mul (by norm_num)]
    norm_num
  by_contra h1
  have := pow_lt_pow_left₀ (not_le.1 h1) (by norm_num) (n := 20) (by norm_num)
  rw [h] at this
  norm_num at this

/-- **C74.** The cases 15 to 18 of EBU Tech 3341 (a quarter, a sixth and an eighth of the sampling rate at half of full scale, whatever
the phase) and 19 (a quarter of the sampling rate, 45 degrees off, 3 dB above full scale), as stereo files at 48 kHz: the true peak
of both channels is that of the tone, to within -0.4 dB and +0.2 dB. -/
theorem C74_cases (hm : TrigWithin m (1 / 2 ^ 30)) (hu : 2 ^ 64 - 1 ≤ t.usizeMax) {a ω φ : ℝ}
    (hcase : (a = 1 / 2 ∧ (ω = Real.pi / 2 ∨ ω = Real.pi / 3 ∨ ω = Real.pi / 4)) ∨
      (a = (10 : ℝ) ^ (3 / 20 : ℝ) ∧ ω = Real.pi / 2 ∧ φ = Real.pi / 4))
    {fade len : ℕ} (hfade : 6000 ≤ fade) (hlen : 2 * fade + 20 ≤ len) {c : UInt32} (hc : c.toNat < 2)
    {parts : List (List (List Int16))} (hp : parts.flatten = fadedFile 2 fade len a ω φ) :
    ∃ (e0 e : Ebu F64 F32) (p : F64), Ebu.new (ieeeEnv m bs t) 2 48000 Mode.TRUE_PEAK = .done (.ok e0) ∧
      runOps (ieeeEnv m bs t) e0 (parts.map fun fs => .addFrames (.i16 fs.flatten)) = .done e ∧
      ask (ieeeEnv m bs t) e (.truePeak c) = .done (.ok p) ∧ p.Finite ∧ 0 < p.value ∧
      -(4 / 10) ≤ 20 * Real.logb 10 (p.value / a) ∧ 20 * Real.logb 10 (p.value / a) ≤ 2 / 10 := by
  have pi0 := Real.pi_pos
  obtain ⟨e0, h0⟩ := (C01_new_64 (ieeeEnv m bs t) hu 2 48000 Mode.TRUE_PEAK).1.2
    ⟨⟨by omega, by omega, by omega, by omega⟩, by decide⟩
  have hω : Real.pi / 4 ≤ ω ∧ ω ≤ Real.pi / 2 := by
    rcases hcase with ⟨-, rfl | rfl | rfl⟩ | ⟨-, rfl, -⟩ <;> constructor <;> linarith
  have ha : 1 / 50 ≤ a ∧ a ≤ 2 ∧ ∀ i : ℕ, |sinusoid a ω φ i| ≤ 9999 / 10000 := by
    rcases hcase with ⟨rfl, -⟩ | ⟨rfl, rfl, rfl⟩
    · refine ⟨by norm_num, by norm_num, fun i => (sinusoid_abs _ _ _ _).trans ?_⟩
      rw [abs_of_pos (by norm_num)]
      norm_num
    · obtain ⟨d1, d2⟩ := three_db
      refine ⟨by linarith, by linarith, fun i => ?_⟩
      refine abs_le_of_sq_le_sq' ?_ (by norm_num) |>.2
      rw [quarter_abs]
      nlinarith
  obtain ⟨e, p, h⟩ := C74_files (bs := bs) (t := t) hm h0 (by norm_num) (by decide) (taps := 12) (factor := 4) rfl hc
    (n := 8) (by omega) (by omega) ha.1 ha.2.1 ha.2.2 (by linarith) (by push_cast; linarith) (by push_cast; nlinarith) hp
  exact ⟨e0, e, p, h0, h⟩

/-- Case 19: no sample is above full scale, but the true peak is. The file is read in one call. -/
example (hm : TrigWithin m (1 / 2 ^ 30)) (hu : 2 ^ 64 - 1 ≤ t.usizeMax) :
    ∃ (e0 e : Ebu F64 F32) (p : F64), Ebu.new (ieeeEnv m bs t) 2 48000 Mode.TRUE_PEAK = .done (.ok e0) ∧
      runOps (ieeeEnv m bs t) e0 [.addFrames (.i16 (fadedFile 2 6000 48000 ((10 : ℝ) ^ (3 / 20 : ℝ)) (Real.pi / 2)
        (Real.pi / 4)).flatten)] = .done e ∧
      ask (ieeeEnv m bs t) e (.truePeak 0) = .done (.ok p) ∧ 1 < p.value := by
  obtain ⟨e0, e, p, h0, h1, h2, h3, h5, h4, -⟩ := C74_cases (bs := bs) (t := t) hm hu (.inr ⟨rfl, rfl, rfl⟩) (fade := 6000) (len := 48000)
    (by norm_num) (by norm_num) (c := 0) (by decide) (parts := [fadedFile 2 6000 48000 ((10 : ℝ) ^ (3 / 20 : ℝ)) (Real.pi / 2)
        (Real.pi / 4)]) (by simp)
  refine ⟨e0, e, p, h0, h1, h2, ?_⟩
  by_contra hle
  have d : (0 : ℝ) < (10 : ℝ) ^ (3 / 20 : ℝ) := by positivity
  rw [Real.logb_div h5.ne' d.ne', Real.logb_rpow (by norm_num) (by norm_num)] at h4
  have := Real.logb_nonpos (b := 10) (by norm_num) h5.le (not_lt.1 hle)
  linarith

end Verif
