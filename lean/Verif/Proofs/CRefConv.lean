import Verif.Proofs.CRefTaps
import Verif.Props.C62
/-! # Samples as the two true peak detectors store them -/

namespace Verif
open Fl Spec
variable {m : Libm F64} {bs : BSearch} {t : Target}

/-- The stored sample `x` is close to the exact amplitude `X`, which is at most `A`. -/
def Conv (A : ℝ) (x : F32) (X : ℝ) : Prop := App x X (convErr A) ∧ |X| ≤ A

theorem convErr_nonneg {A : ℝ} (hA : 0 ≤ A) : 1 / 2 ^ 124 ≤ convErr A := by
  have h : 0 ≤ A * (2 * unit32) := mul_nonneg hA (by unfold unit32; norm_num)
  unfold convErr
  linarith

/-! ## Through doubles -/

theorem narrow_conv {x : F64} {X A : ℝ} (A0 : 0 ≤ A) (hA : A ≤ 2 ^ 100)
    (h : App x X (A * (1 / 2 ^ 49) + 1 / 2 ^ 190)) (hX : |X| ≤ A) : Conv A ((ieeeEnv m bs t).narrowP x) X := by
  refine ⟨?_, hX⟩
  rw [ieee_narrowP]
  have t1 := top32
  have key := ((h.cast_tight Fmt.ok32 tight32 hX ?_).flush t)
  · refine key.mono ?_
    rw [flush_err32, eps32, eta32]
    unfold convErr unit32
    norm_num
    linarith
  · norm_num at *
    linarith

theorem div_app {x s : F64} {V A S : ℝ} (A0 : 0 ≤ A) (hA : A ≤ 2 ^ 100) (S1 : 1 ≤ S)
    (h : App x V (S * A * (1 / 2 ^ 52) + 1 / 2 ^ 198)) (hV : |V| ≤ S * A) (hs : App s S 0) :
    App ((ieeeEnv m bs t).f64p.div x s) (V / S) (A * (1 / 2 ^ 49) + 1 / 2 ^ 190) := by
  rw [ieee_p_div]
  have t1 := top64
  have t2 := eta64
  have t3 := tiny64
  have S0 : (0 : ℝ) < S := by linarith
  have q : (S * A + (S * A * (1 / 2 ^ 52) + 1 / 2 ^ 198)) / S = A + A * (1 / 2 ^ 52) + 1 / 2 ^ 198 / S := by
    field_simp
    ring
  have r : (1 / 2 ^ 198 / S : ℝ) ≤ 1 / 2 ^ 198 := div_le_self (by positivity) S1
  have key := ((h.div Fmt.ok64 hs hV (L := S) (by rw [add_zero]; exact le_abs_self _) S0 ?_).flush t)
  · refine key.mono ?_
    have q2 : (S * A * (1 / 2 ^ 52) + 1 / 2 ^ 198) / S = A * (1 / 2 ^ 52) + 1 / 2 ^ 198 / S := by field_simp
    rw [q, q2, mul_zero, zero_div, eps64]
    generalize (1 / 2 ^ 198 / S : ℝ) = r at *
    generalize eta Fmt.b64 = y at *
    generalize (2 : ℝ) * 2 ^ Fmt.b64.mb / 2 ^ Fmt.b64.u = z at *
    norm_num at *
    linarith
  · rw [q]
    generalize (1 / 2 ^ 198 / S : ℝ) = r at *
    norm_num at *
    linarith

theorem lit_nat64 {n : Nat} (hn : n ≤ 2 * 2 ^ 52) : App (Fl.lit Fmt.b64 (n : Int) 1) n 0 :=
  App.ofNat Fmt.ok64 hn

theorem int_app {n : Int} {A S : ℝ} (hn : |(n : ℝ)| ≤ S * A) (hA : S * A ≤ 2 ^ 140) :
    App (Fl.ofInt Fmt.b64 n) n (S * A * (1 / 2 ^ 52) + 1 / 2 ^ 198) := by
  have t1 := top64
  have t2 := eta64
  have h := App.lit Fmt.ok64 (n := n) (d := 1) (by decide) (A := S * A) (by simpa using hn) (by
    generalize S * A = y at *
    norm_num at *
    linarith)
  rw [Nat.cast_one, div_one, eps64] at h
  refine Fl.App.mono (x := Fl.ofInt Fmt.b64 n) h ?_
  generalize eta Fmt.b64 = y at *
  generalize S * A = z at *
  norm_num at *
  linarith

theorem widen_app {x : F32} {A : ℝ} (hx : x.Finite) (hv : |x.value| ≤ A) (hA : A ≤ 2 ^ 100) :
    App (Fl.cast Fmt.b64 x) x.value (1 * A * (1 / 2 ^ 52) + 1 / 2 ^ 198) := by
  have t1 := top64
  have t2 := eta64
  refine ((App.of hx).cast Fmt.ok64 hv ?_).mono ?_
  · norm_num at *
    linarith
  · rw [eps64]
    generalize eta Fmt.b64 = y at *
    norm_num at *
    linarith

/-! ## The C reference -/

theorem c_short {n : Int16} {A : ℝ} (A0 : 0 ≤ A) (hA : A ≤ 2 ^ 100) (h : |(n.toInt : ℝ) / 32768| ≤ A) :
    Conv A ((ieeeEnv m bs t).narrowP ((ieeeEnv m bs t).f64p.div ((CRef.cShort (ieeeEnv m bs t)).toDouble n)
      (CRef.cShort (ieeeEnv m bs t)).scale)) ((n.toInt : ℝ) / 32768) := by
  have hn : |(n.toInt : ℝ)| ≤ 32768 * A := by
    rw [abs_div, abs_of_pos (by norm_num : (0 : ℝ) < 32768), div_le_iff₀ (by norm_num)] at h
    linarith
  rw [CRef.short_scale]
  refine narrow_conv A0 hA (div_app A0 hA (by norm_num) ?_ hn ?_) h
  · show App ((ieeeEnv m bs t).f64p.ofInt n.toInt) _ _
    rw [ieee_p_ofInt]
    exact int_app hn (by norm_num at *; linarith)
  · exact_mod_cast lit_nat64 (n := 32768) (by norm_num)

theorem c_int {n : Int32} {A : ℝ} (A0 : 0 ≤ A) (hA : A ≤ 2 ^ 100) (h : |(n.toInt : ℝ) / 2147483648| ≤ A) :
    Conv A ((ieeeEnv m bs t).narrowP ((ieeeEnv m bs t).f64p.div ((CRef.cInt (ieeeEnv m bs t)).toDouble n)
      (CRef.cInt (ieeeEnv m bs t)).scale)) ((n.toInt : ℝ) / 2147483648) := by
  have hn : |(n.toInt : ℝ)| ≤ 2147483648 * A := by
    rw [abs_div, abs_of_pos (by norm_num : (0 : ℝ) < 2147483648), div_le_iff₀ (by norm_num)] at h
    linarith
  rw [CRef.int_scale]
  refine narrow_conv A0 hA (div_app A0 hA (by norm_num) ?_ hn ?_) h
  · show App ((ieeeEnv m bs t).f64p.ofInt n.toInt) _ _
    rw [ieee_p_ofInt]
    exact int_app hn (by norm_num at *; linarith)
  · exact_mod_cast lit_nat64 (n := 2147483648) (by norm_num)

theorem c_float {x : F32} {A : ℝ} (A0 : 0 ≤ A) (hA : A ≤ 2 ^ 100) (hx : x.Finite) (h : |x.value| ≤ A) :
    Conv A ((ieeeEnv m bs t).narrowP ((ieeeEnv m bs t).f64p.div ((CRef.cFloat (ieeeEnv m bs t)).toDouble x)
      (CRef.cFloat (ieeeEnv m bs t)).scale)) x.value := by
  rw [CRef.float_scale]
  have := div_app (m := m) (bs := bs) (t := t) A0 hA (S := 1) (V := x.value) _root_.le_rfl (x := Fl.cast Fmt.b64 x)
    (widen_app hx h hA) (by rwa [one_mul]) (s := Fl.lit Fmt.b64 1 1) (by exact_mod_cast lit_nat64 (n := 1) (by norm_num))
  rw [div_one] at this
  exact narrow_conv A0 hA this h

theorem c_double {x : F64} {A : ℝ} (A0 : 0 ≤ A) (hA : A ≤ 2 ^ 100) (hx : x.Finite) (h : |x.value| ≤ A) :
    Conv A ((ieeeEnv m bs t).narrowP ((ieeeEnv m bs t).f64p.div ((CRef.cDouble (ieeeEnv m bs t)).toDouble x)
      (CRef.cDouble (ieeeEnv m bs t)).scale)) x.value := by
  rw [CRef.double_scale]
  have := div_app (m := m) (bs := bs) (t := t) A0 hA (S := 1) (V := x.value) _root_.le_rfl (x := x)
    ((App.of hx).mono (by positivity)) (by rwa [one_mul]) (s := Fl.lit Fmt.b64 1 1)
    (by exact_mod_cast lit_nat64 (n := 1) (by norm_num))
  rw [div_one] at this
  exact narrow_conv A0 hA this h

/-! ## The crate -/

theorem rust_float {x : F32} {A : ℝ} (A0 : 0 ≤ A) (hx : x.Finite) (h : |x.value| ≤ A) :
    Conv A ((f32Ops (ieeeEnv m bs t)).toF32 x) x.value :=
  ⟨(App.of hx).mono ((by positivity : (0 : ℝ) ≤ 1 / 2 ^ 124).trans (convErr_nonneg A0)), h⟩

theorem rust_double {x : F64} {A : ℝ} (A0 : 0 ≤ A) (hA : A ≤ 2 ^ 100) (hx : x.Finite) (h : |x.value| ≤ A) :
    Conv A ((f64Ops (ieeeEnv m bs t)).toF32 x) x.value :=
  narrow_conv (m := m) (bs := bs) (t := t) A0 hA ((App.of hx).mono (by positivity)) h

theorem round_fine {r R : ℝ} (h : |r - R| ≤ 1 / 2 ^ 24 * |r| + 1 / 2 ^ 150) :
    |r - R| ≤ 65 / 64 / 2 ^ 24 * |R| + 1 / 2 ^ 149 := by
  have h1 : |r| ≤ |r - R| + |R| := by
    have := abs_add_le (r - R) R
    rwa [sub_add_cancel] at this
  have h2 := abs_nonneg R
  generalize |r - R| = x at *
  generalize |r| = y at *
  generalize |R| = z at *
  norm_num at *
  linarith

theorem div_conv {n : Int} {s : F32} {S A : ℝ} (A0 : 0 ≤ A) (hA : A ≤ 2 ^ 16) (S1 : 1 ≤ S) (S2 : S ≤ 2 ^ 31)
    (hs : s.Finite) (hv : s.value = S) (h : |(n : ℝ) / S| ≤ A) :
    Conv A ((ieeeEnv m bs t).f32p.div ((ieeeEnv m bs t).f32p.ofInt n) s) ((n : ℝ) / S) := by
  refine ⟨?_, h⟩
  have S0 : (0 : ℝ) < S := by linarith
  have t1 := top32
  have hn : |(n : ℝ)| ≤ A * S := by rwa [abs_div, abs_of_pos S0, div_le_iff₀ S0] at h
  have hb : A * S ≤ 2 ^ 47 := by
    calc A * S ≤ 2 ^ 16 * 2 ^ 31 := mul_le_mul hA S2 S0.le (by norm_num)
      _ = 2 ^ 47 := by norm_num
  rw [ieee_q_div, ieee_q_ofInt]
  have f1 : (Fl.ofInt Fmt.b32 n).Finite := lit_finite_int Fmt.ok32 (n := n) (d := 1) (by decide) (by
    rw [Nat.cast_one, one_mul]
    refine hn.trans (hb.trans (_root_.le_trans ?_ t1))
    norm_num)
  have e1 : |(Fl.ofInt Fmt.b32 n).value - n| ≤ 65 / 64 / 2 ^ 24 * |(n : ℝ)| + 1 / 2 ^ 149 := by
    have e := lit_err Fmt.ok32.mb (n := n) (d := 1) (by decide) (φ := Fmt.b32) f1
    rw [Nat.cast_one, div_one, eps32, eta32] at e
    exact round_fine e
  have hv1 : |(Fl.ofInt Fmt.b32 n).value / S - n / S| ≤ 65 / 64 / 2 ^ 24 * A + 1 / 2 ^ 149 := by
    rw [← sub_div, abs_div, abs_of_pos S0, div_le_iff₀ S0]
    refine e1.trans ?_
    have : (1 / 2 ^ 149 : ℝ) ≤ 1 / 2 ^ 149 * S := by
      have := mul_le_mul_of_nonneg_left S1 (by positivity : (0 : ℝ) ≤ 1 / 2 ^ 149)
      linarith
    have h2 := mul_le_mul_of_nonneg_left hn (by positivity : (0 : ℝ) ≤ 65 / 64 / 2 ^ 24)
    rw [add_mul, _root_.mul_assoc]
    linarith
  have hv2 : |(Fl.ofInt Fmt.b32 n).value / S| ≤ A + 65 / 64 / 2 ^ 24 * A + 1 / 2 ^ 149 := by
    have := abs_add_le ((Fl.ofInt Fmt.b32 n).value / S - n / S) (n / S)
    rw [sub_add_cancel] at this
    linarith
  have f2 := div_finite Fmt.ok32 f1 hs (by rw [hv]; exact S0.ne') (by
    rw [hv]
    refine hv2.trans (_root_.le_trans ?_ t1)
    norm_num at *
    linarith)
  have e2 := div_err Fmt.ok32.mb f1 hs (by rw [hv]; exact S0.ne') f2
  rw [hv, eps32, eta32] at e2
  have e3 := round_fine e2
  have e4 : App (Fl.div (Fl.ofInt Fmt.b32 n) s) (n / S) (A * (2 * unit32) + 1 / 2 ^ 140) := by
    refine ⟨f2, (abs_sub_le _ ((Fl.ofInt Fmt.b32 n).value / S) _).trans ?_⟩
    have h3 := mul_le_mul_of_nonneg_left hv2 (by positivity : (0 : ℝ) ≤ 65 / 64 / 2 ^ 24)
    generalize |(Fl.ofInt Fmt.b32 n).value / S| = q at *
    unfold unit32
    norm_num at *
    linarith
  refine (e4.flush t).mono ?_
  rw [flush_err32]
  unfold convErr
  norm_num
  linarith

theorem lit_short : Fl.lit Fmt.b32 32768 1 = .num false (142 * 2 ^ 23) (by decide) := by decide +kernel
theorem lit_int : Fl.lit Fmt.b32 2147483648 1 = .num false (158 * 2 ^ 23) (by decide) := by decide +kernel

theorem Conv.mono {A B : ℝ} {x : F32} {X : ℝ} (h : Conv A x X) (hAB : A ≤ B) : Conv B x X := by
  refine ⟨h.1.mono ?_, h.2.trans hAB⟩
  have := mul_le_mul_of_nonneg_right hAB (by unfold unit32; norm_num : (0 : ℝ) ≤ 2 * unit32)
  unfold convErr
  linarith

theorem rust_short {n : Int16} {A : ℝ} (h : |(n.toInt : ℝ) / 32768| ≤ A) :
    Conv A ((i16Ops (ieeeEnv m bs t)).toF32 n) ((n.toInt : ℝ) / 32768) := by
  refine Conv.mono (A := |(n.toInt : ℝ) / 32768|) ?_ h
  show Conv _ ((ieeeEnv m bs t).f32p.div ((ieeeEnv m bs t).f32p.ofInt n.toInt) ((ieeeEnv m bs t).f32p.lit 32768 1)) _
  rw [ieee_q_lit, lit_short]
  refine div_conv (abs_nonneg _) ?_ (by norm_num) (by norm_num) ⟨false, _, _, rfl, by decide⟩ ?_ _root_.le_rfl
  · have h1 : (-32768 : ℝ) ≤ n.toInt := by exact_mod_cast n.le_toInt
    have h2 : (n.toInt : ℝ) < 32768 := by exact_mod_cast n.toInt_lt
    rw [abs_le]
    constructor <;> norm_num <;> linarith
  · rw [value_num, show smag Fmt.b32 false (142 * 2 ^ 23) = 2 ^ 164 by decide +kernel, show Fmt.b32.u = 149 from rfl]
    norm_num

theorem rust_int {n : Int32} {A : ℝ} (h : |(n.toInt : ℝ) / 2147483648| ≤ A) :
    Conv A ((i32Ops (ieeeEnv m bs t)).toF32 n) ((n.toInt : ℝ) / 2147483648) := by
  refine Conv.mono (A := |(n.toInt : ℝ) / 2147483648|) ?_ h
  show Conv _ ((ieeeEnv m bs t).f32p.div ((ieeeEnv m bs t).f32p.ofInt n.toInt)
    ((ieeeEnv m bs t).f32p.lit 2147483648 1)) _
  rw [ieee_q_lit, lit_int]
  refine div_conv (abs_nonneg _) ?_ (by norm_num) (by norm_num) ⟨false, _, _, rfl, by decide⟩ ?_ _root_.le_rfl
  · have h1 : (-2147483648 : ℝ) ≤ n.toInt := by exact_mod_cast n.le_toInt
    have h2 : (n.toInt : ℝ) < 2147483648 := by exact_mod_cast n.toInt_lt
    rw [abs_le]
    constructor <;> norm_num <;> linarith
  · rw [value_num, show smag Fmt.b32 false (158 * 2 ^ 23) = 2 ^ 180 by decide +kernel, show Fmt.b32.u = 149 from rfl]
    norm_num

end Verif
