import Verif.Proofs.ScaleSample
import Verif.Proofs.Units
/-!
# The sample arithmetic of `examples/normalize.rs`: rounding errors
-/

namespace Verif.Examples
open Verif.Fl Spec

theorem value_le32 {x y : F32} (h : Fl.le x y = true) : x.value ≤ y.value := by
  cases x with
  | nan => simp [le] at h
  | num s k hk =>
  cases y with
  | nan => simp [le] at h
  | num t l hl =>
    rw [le_num, decide_eq_true_eq] at h
    have hm := Fl.smag_mono (φ := Fmt.b32) h
    rw [value_num, value_num]
    exact div_le_div_of_nonneg_right (by exact_mod_cast hm) (by positivity)

theorem one_value (s : Bool) : (one s).value = if s then -1 else 1 := by
  have h : Fmt.b32.mag 1065353216 = 2 ^ Fmt.b32.u := by decide +kernel
  have h0 : (2 : ℝ) ^ Fmt.b32.u ≠ 0 := by positivity
  rw [one, value_num]
  cases s
  · rw [show smag Fmt.b32 false 1065353216 = ((2 ^ Fmt.b32.u : Nat) : Int) from congrArg Int.ofNat h, Int.cast_natCast,
      Nat.cast_pow, Nat.cast_ofNat, div_self h0]; rfl
  · rw [show smag Fmt.b32 true 1065353216 = -((2 ^ Fmt.b32.u : Nat) : Int) from congrArg (fun n : Nat => -(n : Int)) h,
      Int.cast_neg, Int.cast_natCast, Nat.cast_pow, Nat.cast_ofNat, neg_div, div_self h0]; rfl

theorem clamp_value {x : F32} (hx : x.Finite) : (clamp x).Finite ∧ (clamp x).value = max (-1) (min 1 x.value) := by
  have f1 : ∀ s, (one s).Finite := fun s => ⟨s, _, _, rfl, by decide⟩
  have v1 := one_value false
  have v2 := one_value true
  simp only [if_true, Bool.false_eq_true, if_false] at v1 v2
  have hn : x.isNan = false := by obtain ⟨s, k, hk, rfl, -⟩ := hx; rfl
  rw [clamp_eq]
  split
  · next h =>
    have := value_le32 (Fl.le_of_lt h)
    rw [v2] at this
    exact ⟨f1 _, by rw [v2, min_eq_right (by linarith), max_eq_left this]⟩
  · next h =>
    rw [Bool.not_eq_true, Fl.not_lt hn rfl] at h
    have h := value_le32 h
    rw [v2] at h
    split
    · next h' =>
      have := value_le32 (Fl.le_of_lt h')
      rw [v1] at this
      exact ⟨f1 _, by rw [v1, min_eq_left this, max_eq_right (by norm_num)]⟩
    · next h' =>
      rw [Bool.not_eq_true, Fl.not_lt rfl hn] at h'
      have h' := value_le32 h'
      rw [v1] at h'
      exact ⟨hx, by rw [min_eq_right h', max_eq_right h]⟩

/-- Truncation: towards zero, by less than one. -/
theorem toI16_value {x : F32} (hx : x.Finite) (h : |x.value| < 32768) :
    |(toI16 x : ℝ) - x.value| < 1 ∧ |(toI16 x : ℝ)| ≤ |x.value| := by
  obtain ⟨s, k, hk, rfl, hne⟩ := hx
  rw [toI16_num, if_neg hne]
  rw [value_num] at h ⊢
  have hp : (0 : Int) < 2 ^ Fmt.b32.u := by positivity
  have hpr : (0 : ℝ) < 2 ^ Fmt.b32.u := by positivity
  generalize smag Fmt.b32 s k = a at *
  have e2 : ((2 ^ Fmt.b32.u : Int) : ℝ) = 2 ^ Fmt.b32.u := by push_cast; rfl
  generalize (2 : ℝ) ^ Fmt.b32.u = P at *
  generalize (2 : Int) ^ Fmt.b32.u = p at *
  subst e2
  have d := Int.mul_tdiv_add_tmod a p
  have m1 := Int.tmod_lt_of_pos a hp
  have m2 : -p < Int.tmod a p := by
    have := Int.lt_tmod_of_pos a hp
    exact this
  have m3 : 0 ≤ a → 0 ≤ Int.tmod a p := Int.tmod_nonneg p
  have m4 : a ≤ 0 → Int.tmod a p ≤ 0 := by
    intro h0
    have := Int.tmod_nonneg p (a := -a) (by omega)
    rw [Int.neg_tmod] at this
    omega
  generalize Int.tdiv a p = q at *
  generalize Int.tmod a p = r at *
  have dr : (p : ℝ) * q + r = a := by exact_mod_cast d
  have hv : (a : ℝ) / p = q + r / p := by rw [← dr]; field_simp
  have r1 : (r : ℝ) / p < 1 := by rw [div_lt_one hpr]; exact_mod_cast m1
  have r2 : -1 < (r : ℝ) / p := by rw [lt_div_iff₀ hpr]; have : -(p : ℝ) < r := by exact_mod_cast m2
                                   linarith
  have sgn : (0 ≤ (q : ℝ) ∧ 0 ≤ (r : ℝ) / p) ∨ ((q : ℝ) ≤ 0 ∧ (r : ℝ) / p ≤ 0) := by
    rcases le_total 0 a with ha | ha
    · left
      have hr := m3 ha
      have hq : 0 ≤ q := by
        by_contra hc
        have : p * q ≤ p * (-1) := Int.mul_le_mul_of_nonneg_left (by omega) hp.le
        omega
      exact ⟨by exact_mod_cast hq, div_nonneg (by exact_mod_cast hr) hpr.le⟩
    · right
      have hr := m4 ha
      have hq : q ≤ 0 := by
        by_contra hc
        have : p * 1 ≤ p * q := Int.mul_le_mul_of_nonneg_left (by omega) hp.le
        omega
      exact ⟨by exact_mod_cast hq, div_nonpos_of_nonpos_of_nonneg (by exact_mod_cast hr) hpr.le⟩
  rw [hv] at h ⊢
  rw [abs_lt] at h
  have hq : -32768 < (q : ℝ) ∧ (q : ℝ) < 32768 := by
    rcases sgn with ⟨h1, h2⟩ | ⟨h1, h2⟩ <;> constructor <;> linarith [h.1, h.2]
  have hq1 : -32768 < q := by exact_mod_cast hq.1
  have hq2 : q < 32768 := by exact_mod_cast hq.2
  rw [min_eq_right (by omega), max_eq_right (by omega)]
  refine ⟨by rw [abs_lt]; constructor <;> linarith, ?_⟩
  rcases sgn with ⟨h1, h2⟩ | ⟨h1, h2⟩
  · rw [abs_of_nonneg h1, abs_of_nonneg (by linarith)]; linarith
  · rw [abs_of_nonpos h1, abs_of_nonpos (by linarith)]; linarith

theorem clip_near {y R d : ℝ} (h : |y - R| ≤ d) : |max (-1) (min 1 y) - max (-1) (min 1 R)| ≤ d := by
  have h0 : 0 ≤ d := (abs_nonneg _).trans h
  refine (abs_max_sub_max_le_max _ _ _ _).trans (max_le (by simpa using h0) ?_)
  exact (abs_min_sub_min_le_max _ _ _ _).trans (max_le (by simpa using h0) h)

/-- The exact sample, its quotient and its product with the gain, both rounded. -/
theorem product_near {S x g y : ℝ} (g0 : 0 ≤ g) (g1 : g ≤ 2 ^ 100) (hx : |x - S| ≤ 1 / 2 ^ 24 * |x| + 1 / 2 ^ 150)
    (hy : |y - x * g| ≤ 1 / 2 ^ 24 * |y| + 1 / 2 ^ 150) :
    |max (-1) (min 1 y) - max (-1) (min 1 (S * g))| ≤ 41 / 10 * (1 / 2 ^ 24) := by
  have ht : g * (1 / 2 ^ 150) ≤ 1 / 2 ^ 50 := by
    calc g * (1 / 2 ^ 150) ≤ 2 ^ 100 * (1 / 2 ^ 150) := by gcongr
      _ = 1 / 2 ^ 50 := by norm_num
  have hxg : |x * g - S * g| ≤ 1 / 2 ^ 24 * |x * g| + 1 / 2 ^ 50 := by
    rw [← sub_mul, abs_mul, abs_mul, abs_of_nonneg g0]
    nlinarith [mul_le_mul_of_nonneg_right hx g0]
  generalize x * g = P at *
  generalize S * g = R at *
  by_cases hR : |R| ≤ 2
  · apply clip_near
    have h1 : |P| ≤ |R| + |P - R| := by
      have := abs_add_le R (P - R)
      rwa [add_sub_cancel] at this
    have h2 : |y| ≤ |P| + |y - P| := by
      have := abs_add_le P (y - P)
      rwa [add_sub_cancel] at this
    have h3 := abs_sub_le y P R
    have p1 : |P| ≤ 2001 / 1000 := by norm_num at *; linarith
    have p2 : |y| ≤ 2002 / 1000 := by norm_num at *; linarith
    norm_num at *; linarith
  · rw [not_le] at hR
    have key : (2 < R ∧ 1 ≤ y) ∨ (R < -2 ∧ y ≤ -1) := by
      rcases lt_abs.1 hR with h | h
      · left
        have hP : 0 ≤ P := by
          by_contra hc
          rw [not_le] at hc
          rw [abs_of_neg hc, abs_le] at hxg
          norm_num at *
          linarith [hxg.1]
        rw [abs_of_nonneg hP, abs_le] at hxg
        have hP2 : 19 / 10 ≤ P := by norm_num at *; linarith [hxg.1]
        have hy0 : 0 ≤ y := by
          by_contra hc
          rw [not_le] at hc
          rw [abs_of_neg hc, abs_le] at hy
          norm_num at *
          linarith [hy.1]
        rw [abs_of_nonneg hy0, abs_le] at hy
        refine ⟨h, ?_⟩
        norm_num at *; linarith [hy.1]
      · right
        have hP : P ≤ 0 := by
          by_contra hc
          rw [not_le] at hc
          rw [abs_of_pos hc, abs_le] at hxg
          norm_num at *
          linarith [hxg.2]
        rw [abs_of_nonpos hP, abs_le] at hxg
        have hP2 : P ≤ -(19 / 10) := by norm_num at *; linarith [hxg.2]
        have hy0 : y ≤ 0 := by
          by_contra hc
          rw [not_le] at hc
          rw [abs_of_pos hc, abs_le] at hy
          norm_num at *
          linarith [hy.2]
        rw [abs_of_nonpos hy0, abs_le] at hy
        refine ⟨by linarith, ?_⟩
        norm_num at *; linarith [hy.2]
    rcases key with ⟨h1, h2⟩ | ⟨h1, h2⟩
    · rw [min_eq_left h2, min_eq_left (by linarith), sub_self, abs_zero]; norm_num
    · rw [min_eq_right (by linarith), min_eq_right (by linarith), max_eq_left h2, max_eq_left (by linarith), sub_self,
        abs_zero]
      norm_num

theorem sampleOf_lit (s : Int16) : sampleOf s = Fl.lit Fmt.b32 s.toInt 32767 := sampleOf_eq s

theorem sample_abs (s : Int16) : |(s.toInt : ℝ)| ≤ 32768 := by
  have h1 : s.toInt ≤ 32768 := by have := s.toInt_lt; omega
  have h2 : -32768 ≤ s.toInt := s.le_toInt
  rw [abs_le]
  exact ⟨by exact_mod_cast h2, by exact_mod_cast h1⟩

/-- What is written is the exact product, clipped and truncated, up to a hundredth of the last bit. -/
theorem scale_near {g : F32} (hg : g.Finite) (g0 : 0 ≤ g.value) (g1 : g.value ≤ 2 ^ 100) (s : Int16) :
    |(scale g s : ℝ) - max (-32767) (min 32767 (s.toInt * g.value))| ≤ 1 + 1 / 100 ∧
    |(scale g s : ℝ)| ≤ |s.toInt * g.value| + 1 / 100 := by
  have hs := sample_abs s
  have ht := top32
  have xf : (sampleOf s).Finite := by
    rw [sampleOf_lit]
    refine lit_finite_int ok32 (by norm_num) (hs.trans ?_)
    norm_num at *; linarith
  have xe := lit_err mb32 (n := s.toInt) (d := 32767) (by norm_num) (by rw [← sampleOf_lit]; exact xf)
  rw [← sampleOf_lit, eps32, eta32] at xe
  have xa : |(sampleOf s).value| ≤ 2 := by
    have h1 : |(s.toInt : ℝ) / (32767 : Nat)| ≤ 32768 / 32767 := by
      rw [abs_div]
      push_cast
      rw [abs_of_pos (show (0 : ℝ) < 32767 by norm_num)]
      exact div_le_div_of_nonneg_right hs (by norm_num)
    have h2 := abs_add_le ((s.toInt : ℝ) / (32767 : Nat)) ((sampleOf s).value - (s.toInt : ℝ) / (32767 : Nat))
    rw [add_sub_cancel] at h2
    norm_num at *; linarith
  have pf : (mul (sampleOf s) g).Finite := by
    refine mul_finite ok32 xf hg (_root_.le_trans ?_ ht)
    rw [abs_mul, abs_of_nonneg g0]
    calc |(sampleOf s).value| * g.value ≤ 2 * 2 ^ 100 := by gcongr
      _ ≤ 2 ^ 120 := by norm_num
  have pe := mul_err mb32 xf hg pf
  rw [eps32, eta32] at pe
  have near := product_near g0 g1 xe pe
  obtain ⟨cf, cv⟩ := clamp_value pf
  have c1 : |(clamp (mul (sampleOf s) g)).value| ≤ 1 := by
    rw [cv, abs_le]
    exact ⟨le_max_left _ _, max_le (by norm_num) (min_le_left _ _)⟩
  rw [← cv] at near
  obtain ⟨v32, f32⟩ := value_ofInt ok32 (n := 32767) (by decide)
  push_cast at v32 f32
  have zf : (mul (clamp (mul (sampleOf s) g)) (Fl.ofInt Fmt.b32 32767)).Finite := by
    refine mul_finite ok32 cf f32 (_root_.le_trans ?_ ht)
    rw [v32, abs_mul, abs_of_pos (show (0 : ℝ) < 32767 by norm_num)]
    calc _ ≤ (1 : ℝ) * 32767 := by gcongr
      _ ≤ 2 ^ 120 := by norm_num
  have ze := mul_err mb32 cf f32 zf
  rw [eps32, eta32, v32] at ze
  have hsc : scale g s = toI16 (mul (clamp (mul (sampleOf s) g)) (Fl.ofInt Fmt.b32 32767)) := rfl
  rw [hsc]
  generalize mul (clamp (mul (sampleOf s) g)) (Fl.ofInt Fmt.b32 32767) = z at *
  generalize (clamp (mul (sampleOf s) g)).value = c at *
  have zc : |z.value - c * 32767| ≤ 2 / 1000 := by
    have h1 := abs_add_le (c * 32767) (z.value - c * 32767)
    rw [add_sub_cancel, abs_mul, abs_of_pos (show (0 : ℝ) < 32767 by norm_num)] at h1
    have h2 : |z.value| ≤ 32768 := by norm_num at *; linarith
    norm_num at *; linarith
  have zb : |z.value| < 32768 := by
    have h1 := abs_add_le (c * 32767) (z.value - c * 32767)
    rw [add_sub_cancel, abs_mul, abs_of_pos (show (0 : ℝ) < 32767 by norm_num)] at h1
    linarith
  obtain ⟨t1, t2⟩ := toI16_value zf zb
  have scaled : max (-32767) (min 32767 ((s.toInt : ℝ) * g.value)) =
      32767 * max (-1) (min 1 ((s.toInt : ℝ) / (32767 : Nat) * g.value)) := by
    rw [mul_max_of_nonneg _ _ (by norm_num), mul_min_of_nonneg _ _ (by norm_num)]
    congr 1
    · norm_num
    · congr 1
      · norm_num
      · push_cast; ring
  have clipAbs : |max (-32767) (min 32767 ((s.toInt : ℝ) * g.value))| ≤ |(s.toInt : ℝ) * g.value| := by
    generalize (s.toInt : ℝ) * g.value = X
    rcases le_total 0 X with h | h
    · rw [max_eq_right (by rw [le_min_iff]; constructor <;> linarith), abs_of_nonneg (le_min (by norm_num) h), abs_of_nonneg h]
      exact min_le_right _ _
    · rw [min_eq_right (by linarith), abs_of_nonpos (max_le (by norm_num) h), abs_of_nonpos h]
      linarith [le_max_right (-32767) X]
  rw [scaled] at clipAbs ⊢
  generalize max (-1) (min 1 ((s.toInt : ℝ) / (32767 : Nat) * g.value)) = C at *
  have zC : |z.value - 32767 * C| ≤ 1 / 100 := by
    have : z.value - 32767 * C = (z.value - c * 32767) + 32767 * (c - C) := by ring
    rw [this]
    refine (abs_add_le _ _).trans ?_
    rw [abs_mul, abs_of_pos (show (0 : ℝ) < 32767 by norm_num)]
    norm_num at *; linarith
  constructor
  · have := abs_sub_le (toI16 z : ℝ) z.value (32767 * C)
    linarith
  · have h1 := abs_add_le (32767 * C) (z.value - 32767 * C)
    rw [add_sub_cancel] at h1
    linarith

/-- The exponent of the gain. -/
theorem gain_near (powf : F32 → F32 → F32) {l : F64} (hl : l.Finite) (hb : |l.value| ≤ 1000) :
    ∃ y : F32, gain powf l = powf (Fl.lit Fmt.b32 10 1) y ∧ App y ((-23 - l.value) / 20) (1 / 10 ^ 5) := by
  refine ⟨_, rfl, ?_⟩
  have h23 : Ulp (Fl.lit Fmt.b64 (-23) 1) (-23) 24 := by
    have := Ulp.lit (n := -23) (d := 1) (A := 23) (c := 24) (by norm_num) (by norm_num) (by norm_num) (by norm_num)
    push_cast at this
    rwa [div_one] at this
  have hl0 : Ulp l l.value 0 := by unfold Ulp; rw [zero_mul]; exact App.of hl
  have hs := h23.sub hl0 (A := 1023) (r := 1048) (by
    rw [abs_le] at hb ⊢; constructor <;> linarith [hb.1, hb.2]) (by norm_num) (by norm_num) (by norm_num) (by norm_num)
  have h20 : Ulp (Fl.lit Fmt.b64 20 1) 20 0 := by
    have := Ulp.nat 20 (by norm_num)
    push_cast at this
    exact this
  have hd := App.div Fmt.ok64 hs h20 (A := 1023) (L := 20) (by
    rw [abs_le] at hb ⊢; constructor <;> linarith [hb.1, hb.2]) (by norm_num) (by norm_num) (by
    have := top64
    norm_num at *; linarith)
  rw [eps64] at hd
  have hd := hd.mono (e' := 1 / 10 ^ 10) (by have := eta64; norm_num at *; linarith)
  have hc := App.cast ok32 hd (A := 52) (by
    rw [abs_div, abs_of_pos (show (0 : ℝ) < 20 by norm_num), div_le_iff₀ (by norm_num)]
    rw [abs_le] at hb ⊢; constructor <;> linarith [hb.1, hb.2]) (by
    have := top32
    norm_num at *; linarith)
  refine hc.mono ?_
  rw [eps32, eta32]
  norm_num

/-- The gain `replaygain` prints. -/
theorem rgGain_near {l : F64} (hl : l.Finite) (hb : |l.value| ≤ 1000) : App (rgGain l) (-18 - l.value) (1 / 10 ^ 12) := by
  have h18 : Ulp (Fl.lit Fmt.b64 (-18) 1) (-18) 19 := by
    have := Ulp.lit (n := -18) (d := 1) (A := 18) (c := 19) (by norm_num) (by norm_num) (by norm_num) (by norm_num)
    push_cast at this
    rwa [div_one] at this
  have hl0 : Ulp l l.value 0 := by unfold Ulp; rw [zero_mul]; exact App.of hl
  have hs := h18.sub hl0 (A := 1018) (r := 1038) (by
    rw [abs_le] at hb ⊢; constructor <;> linarith [hb.1, hb.2]) (by norm_num) (by norm_num) (by norm_num) (by norm_num)
  exact App.mono hs (by norm_num)

end Verif.Examples
