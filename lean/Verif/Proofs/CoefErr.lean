import Verif.Proofs.Noise
import Verif.Proofs.Units
/-!
# The filter coefficients in floating point

For any tangent and power function accurate to a relative error of `2^-50`, every coefficient computed by
`filter_coefficients` is a finite number close to the coefficient computed without rounding.
-/

set_option linter.unusedSimpArgs false

namespace Verif
open Spec Fl
variable {m : Libm F64} {bs : BSearch} {t : Target}

/-- `tan` on `[0, 1]` and `powf` on `[1, 10] × [0, 1]` have a relative error of at most `δ`. -/
def Spec.ElemWithin (m : Libm F64) (δ : ℝ) : Prop :=
  (∀ x : F64, x.Finite → 0 ≤ x.value → x.value ≤ 1 →
    (m.tan x).Finite ∧ |(m.tan x).value - Real.tan x.value| ≤ δ * Real.tan x.value) ∧
  (∀ x y : F64, x.Finite → y.Finite → 1 ≤ x.value → x.value ≤ 10 → 0 ≤ y.value → y.value ≤ 1 →
    (m.powf x y).Finite ∧ |(m.powf x y).value - x.value ^ y.value| ≤ δ * x.value ^ y.value)

/-! ## Elementary functions -/

theorem tan_lipschitz {a b : ℝ} (ha : 0 ≤ a) (ha' : a ≤ Real.pi / 4) (hb : 0 ≤ b) (hb' : b ≤ Real.pi / 4) :
    |Real.tan a - Real.tan b| ≤ 2 * |a - b| := by
  have hp := Real.pi_pos
  have c : ∀ x, 0 ≤ x → x ≤ Real.pi / 4 → Real.sqrt 2 / 2 ≤ Real.cos x := fun x h0 h1 => by
    rw [← Real.cos_pi_div_four]
    exact Real.cos_le_cos_of_nonneg_of_le_pi h0 (by linarith) h1
  have ca := c a ha ha'
  have cb := c b hb hb'
  have s2 : 0 < Real.sqrt 2 := by positivity
  have hs : Real.sqrt 2 * Real.sqrt 2 = 2 := Real.mul_self_sqrt (by norm_num)
  have hm : 1 / 2 ≤ Real.cos a * Real.cos b := by
    have := mul_le_mul ca cb (by positivity) (by linarith)
    have e : Real.sqrt 2 / 2 * (Real.sqrt 2 / 2) = 1 / 2 := by rw [div_mul_div_comm, hs]; norm_num
    linarith
  have e : Real.tan a - Real.tan b = Real.sin (a - b) / (Real.cos a * Real.cos b) := by
    have h1 : Real.cos a ≠ 0 := by linarith
    have h2 : Real.cos b ≠ 0 := by linarith
    rw [Real.tan_eq_sin_div_cos, Real.tan_eq_sin_div_cos, Real.sin_sub]
    field_simp
  rw [e, abs_div, div_le_iff₀ (by rw [abs_pos]; linarith), abs_of_pos (by linarith : 0 < Real.cos a * Real.cos b)]
  have h1 : |Real.sin (a - b)| ≤ |a - b| := Real.abs_sin_le_abs
  nlinarith [abs_nonneg (a - b)]

theorem rpow_base {x X y : ℝ} (hx : 1 ≤ x) (hX : 1 ≤ X) (hy : 0 ≤ y) (hy1 : y ≤ 1) :
    |x ^ y - X ^ y| ≤ y * |x - X| := by
  have key : ∀ {a b : ℝ}, 1 ≤ a → a ≤ b → |a ^ y - b ^ y| ≤ y * |a - b| := by
    intro a b ha hab
    have a0 : 0 < a := by linarith
    have h1 : a ^ y ≤ b ^ y := Real.rpow_le_rpow a0.le hab hy
    rw [abs_sub_comm, abs_of_nonneg (by linarith), abs_sub_comm, abs_of_nonneg (by linarith)]
    have hb : b = a * (1 + (b - a) / a) := by field_simp; ring
    have s0 : 0 ≤ (b - a) / a := div_nonneg (by linarith) a0.le
    have h2 : b ^ y = a ^ y * (1 + (b - a) / a) ^ y := by
      conv_lhs => rw [hb]
      rw [Real.mul_rpow a0.le (by linarith)]
    have h3 := rpow_one_add_le_one_add_mul_self (s := (b - a) / a) (p := y) (by linarith) hy hy1
    have h4 : a ^ y ≤ a := by
      conv_rhs => rw [← Real.rpow_one a]
      exact Real.rpow_le_rpow_of_exponent_le ha hy1
    have h5 : 0 ≤ a ^ y := Real.rpow_nonneg a0.le _
    rw [h2]
    have h6 := mul_le_mul_of_nonneg_left h3 h5
    have h7 : a ^ y * (y * ((b - a) / a)) ≤ a * (y * ((b - a) / a)) :=
      mul_le_mul_of_nonneg_right h4 (mul_nonneg hy s0)
    have h8 : a * (y * ((b - a) / a)) = y * (b - a) := by field_simp
    nlinarith
  rcases le_total x X with h | h
  · exact key hx h
  · rw [abs_sub_comm, abs_sub_comm x]; exact key hX h

theorem rpow_exponent {X y Y : ℝ} (hX : 1 ≤ X) (h : |(y - Y) * Real.log X| ≤ 1) :
    |X ^ y - X ^ Y| ≤ X ^ Y * (2 * |y - Y| * Real.log X) := by
  have X0 : 0 < X := by linarith
  have e : X ^ y - X ^ Y = X ^ Y * (Real.exp ((y - Y) * Real.log X) - 1) := by
    rw [mul_sub, mul_one, Real.rpow_def_of_pos X0, Real.rpow_def_of_pos X0, ← Real.exp_add]
    congr 2
    ring
  have h0 : 0 ≤ X ^ Y := Real.rpow_nonneg X0.le _
  rw [e, abs_mul, abs_of_nonneg h0]
  refine mul_le_mul_of_nonneg_left ((Real.abs_exp_sub_one_le h).trans (le_of_eq ?_)) h0
  rw [abs_mul, abs_of_nonneg (Real.log_nonneg hX)]
  ring

/-! ## Gains -/

theorem Fl.Ulp.value_le {x : F64} {X c : ℝ} (h : Ulp x X c) (hc : c ≤ 2 ^ 20) : |x.value - X| ≤ 1 / 2 ^ 32 := by
  refine h.2.trans ?_
  norm_num at hc ⊢
  linarith

theorem ulp_gainH (hm : ElemWithin m (1 / 2 ^ 50)) :
    Ulp (m.powf (Fl.lit Fmt.b64 10 1) (Fl.div (Fl.lit Fmt.b64 3999843853973347 (10 ^ 15)) (Fl.lit Fmt.b64 20 1)))
      gainH (93 / 10) := by
  have t10 := Ulp.nat 10 (by norm_num)
  have t20 := Ulp.nat 20 (by norm_num)
  have g : Ulp (Fl.lit Fmt.b64 3999843853973347 (10 ^ 15)) _ (401 / 100) :=
    Ulp.lit (A := 4) (by norm_num) (by norm_num) (by norm_num)
  have y := g.div t20 (A := 4) (L := 20) (r := 402 / 1000) (by norm_num) (by norm_num) (by norm_num)
  have hy := abs_le.1 (y.value_le (by norm_num))
  have hv : (Fl.lit Fmt.b64 10 1 : F64).value = 10 := by
    have := t10.2
    rw [zero_mul] at this
    have := abs_eq_zero.1 (le_antisymm this (abs_nonneg _))
    push_cast at this
    linarith
  have h10 := hm.2 _ _ t10.1 y.1 (by rw [show ((10 : Nat) : Int) = 10 from rfl, hv]; norm_num)
    (by rw [show ((10 : Nat) : Int) = 10 from rfl, hv]) (by norm_num at hy ⊢; linarith [hy.1])
    (by norm_num at hy ⊢; linarith [hy.2])
  rw [show ((10 : Nat) : Int) = 10 from rfl, hv] at h10
  rw [show ((20 : Nat) : Int) = 20 from rfl] at h10 y hy
  have hlog := log10_near
  obtain ⟨gh1, gh2⟩ := gainH_bounds
  have eY : ((3999843853973347 : Int) : ℝ) / ((10 ^ 15 : Nat) : ℝ) / ((20 : Nat) : ℝ) =
      (3999843853973347 / 10 ^ 15 : ℝ) / 20 := by norm_num
  rw [eY] at y hy
  refine ⟨h10.1, ?_⟩
  generalize (Fl.div (Fl.lit Fmt.b64 3999843853973347 (10 ^ 15)) (Fl.lit Fmt.b64 20 1) : F64) = Y at *
  have hd := y.2
  have hl0 : 0 ≤ Real.log 10 := Real.log_nonneg (by norm_num)
  have hr := rpow_exponent (X := 10) (y := Y.value) (Y := (3999843853973347 / 10 ^ 15 : ℝ) / 20) (by norm_num) (by
    rw [abs_mul, abs_of_nonneg hl0]
    have := mul_le_mul hd (le_of_lt (lt_of_le_of_lt hlog.2 (by norm_num : _ < (3 : ℝ)))) hl0 (by norm_num)
    norm_num at this ⊢
    linarith)
  rw [show (10 : ℝ) ^ ((3999843853973347 / 10 ^ 15 : ℝ) / 20) = gainH from rfl] at hr
  have hl3 : Real.log 10 ≤ 2303 / 1000 := by norm_num at hlog ⊢; linarith [hlog.2]
  have hr2 : |(10 : ℝ) ^ Y.value - gainH| ≤ 158487 / 100000 * (2 * (402 / 1000 * (1 / 2 ^ 52)) * (2303 / 1000)) := by
    refine hr.trans (mul_le_mul gh2 ?_ ?_ (by norm_num))
    · exact mul_le_mul (by linarith) hl3 (by linarith [hlog.1]) (by norm_num)
    · have : 0 ≤ Real.log 10 := by linarith [hlog.1]
      positivity
  have ha := abs_le.1 hr2
  have hb := abs_sub_le (m.powf (Fl.lit Fmt.b64 10 1) Y).value ((10 : ℝ) ^ Y.value) gainH
  have hc := h10.2
  norm_num at *
  linarith

theorem ulp_gainB (hm : ElemWithin m (1 / 2 ^ 50)) {H : F64} (hH : Ulp H gainH (93 / 10)) :
    Ulp (m.powf H (Fl.lit Fmt.b64 4996667741545416 (10 ^ 16))) gainB (105 / 10) := by
  have g : Ulp (Fl.lit Fmt.b64 4996667741545416 (10 ^ 16)) _ (502 / 1000) :=
    Ulp.lit (A := 1 / 2) (by norm_num) (by norm_num) (by norm_num)
  have eY : ((4996667741545416 : Int) : ℝ) / ((10 ^ 16 : Nat) : ℝ) = (4996667741545416 / 10 ^ 16 : ℝ) := by norm_num
  rw [eY] at g
  have hy := abs_le.1 (g.value_le (by norm_num))
  have hx := abs_le.1 (hH.value_le (by norm_num))
  obtain ⟨gh1, gh2⟩ := gainH_bounds
  obtain ⟨gb1, gb2⟩ := gainB_bounds
  generalize (Fl.lit Fmt.b64 4996667741545416 (10 ^ 16) : F64) = Y at *
  have x1 : 1 ≤ H.value := by norm_num at hx ⊢; linarith [hx.1]
  have x2 : H.value ≤ 159 / 100 := by norm_num at hx ⊢; linarith [hx.2]
  have h := hm.2 _ _ hH.1 g.1 x1 (by linarith) (by norm_num at hy ⊢; linarith [hy.1])
    (by norm_num at hy ⊢; linarith [hy.2])
  refine ⟨h.1, ?_⟩
  have hl : Real.log H.value ≤ 59 / 100 := by
    have := Real.log_le_sub_one_of_pos (by linarith : 0 < H.value)
    linarith
  have hl0 := Real.log_nonneg x1
  have hr := rpow_exponent (X := H.value) (y := Y.value) (Y := (4996667741545416 / 10 ^ 16 : ℝ)) x1 (by
    rw [abs_mul, abs_of_nonneg hl0]
    have := mul_le_mul g.2 hl hl0 (by norm_num)
    norm_num at this ⊢
    linarith)
  have hb := rpow_base (x := H.value) (X := gainH) (y := (4996667741545416 / 10 ^ 16 : ℝ)) x1 (by linarith) (by norm_num)
    (by norm_num)
  rw [show gainH ^ (4996667741545416 / 10 ^ 16 : ℝ) = gainB from rfl] at hb
  have hb2 : |H.value ^ (4996667741545416 / 10 ^ 16 : ℝ) - gainB| ≤ 1 / 2 * (93 / 10 * (1 / 2 ^ 52)) :=
    hb.trans (mul_le_mul (by norm_num) hH.2 (abs_nonneg _) (by norm_num))
  have hB3 : H.value ^ (4996667741545416 / 10 ^ 16 : ℝ) ≤ 126 / 100 := by
    have := abs_le.1 hb2
    norm_num at this ⊢
    linarith [this.2]
  have hr2 : |H.value ^ Y.value - H.value ^ (4996667741545416 / 10 ^ 16 : ℝ)| ≤
      126 / 100 * (2 * (502 / 1000 * (1 / 2 ^ 52)) * (59 / 100)) := by
    refine hr.trans (mul_le_mul hB3 ?_ (by positivity) (by norm_num))
    exact mul_le_mul (by linarith [g.2]) hl hl0 (by norm_num)
  have k1 := abs_sub_le (m.powf H Y).value (H.value ^ Y.value) gainB
  have k2 := abs_sub_le (H.value ^ Y.value) (H.value ^ (4996667741545416 / 10 ^ 16 : ℝ)) gainB
  have k3 := abs_le.1 hr2
  have k4 := h.2
  norm_num at *
  linarith

/-! ## Tangents -/

theorem ulp_tan (hm : ElemWithin m (1 / 2 ^ 50)) {x : F64} {X c T r : ℝ} (hx : Ulp x X c) (hX : 1 / 2 ^ 31 ≤ X)
    (hX' : X ≤ 67 / 100) (hT : Real.tan X ≤ T) (hr : 2 * c + 4 * T + 1 / 1000 ≤ r) (hc : c ≤ 2 ^ 14 := by norm_num) :
    Ulp (m.tan x) (Real.tan X) r := by
  have pi1 := Real.pi_gt_d2
  have c0 := hx.nonneg
  have h1 := abs_le.1 hx.2
  have cu : c * (1 / 2 ^ 52) ≤ 1 / 2 ^ 38 := by norm_num at hc ⊢; linarith
  have x0 : 0 ≤ x.value := by norm_num at *; linarith [h1.1]
  have x1 : x.value ≤ 7 / 10 := by norm_num at *; linarith [h1.2]
  obtain ⟨hf, he⟩ := hm.1 x hx.1 x0 (by linarith)
  have hl := tan_lipschitz x0 (by linarith) (by norm_num at *; linarith : 0 ≤ X) (by linarith)
  have hl2 := hl.trans (mul_le_mul_of_nonneg_left hx.2 (by norm_num))
  refine ⟨hf, ?_⟩
  have k1 := abs_sub_le (m.tan x).value (Real.tan x.value) (Real.tan X)
  have k2 := abs_le.1 hl2
  generalize Real.tan x.value = tx at *
  generalize Real.tan X = tX at *
  have hr' := mul_le_mul_of_nonneg_right hr (by positivity : (0 : ℝ) ≤ 1 / 2 ^ 52)
  norm_num at *
  linarith

theorem ulp_arg {rate : Nat} (hr : 8000 ≤ rate) (hr' : rate ≤ 2 ^ 20) {x : F64} {X c A r : ℝ} (hx : Ulp x X c) (hX : |X| ≤ A)
    (hA : A ≤ 2 ^ 14) (hc : c ≤ 2 ^ 16) (hres : (c + A) / 8000 + 1 / 1000 ≤ r) :
    Ulp (Fl.div x (Fl.ofInt Fmt.b64 (rate : Nat))) (X / rate) r := by
  have t1 := eta64
  have t2 := top64
  have hR : (8000 : ℝ) ≤ rate := by exact_mod_cast hr
  have c0 := hx.nonneg
  have A0 := (abs_nonneg _).trans hX
  have hn := App.ofNat Fmt.ok64 (n := rate) (hr'.trans (by decide))
  have cu : c * (1 / 2 ^ 52) ≤ 1 / 2 ^ 36 := by norm_num at hc ⊢; linarith
  have q : (A + c * (1 / 2 ^ 52)) / rate ≤ (A + c * (1 / 2 ^ 52)) / 8000 :=
    div_le_div_of_nonneg_left (by positivity) (by norm_num) hR
  have q2 : c * (1 / 2 ^ 52) / rate ≤ c * (1 / 2 ^ 52) / 8000 :=
    div_le_div_of_nonneg_left (by positivity) (by norm_num) hR
  have := App.div Fmt.ok64 hx hn hX (L := (rate : ℝ)) (by rw [abs_of_pos (by linarith)]; linarith) (by linarith)
    (q.trans (_root_.le_trans (by norm_num at *; linarith) t2))
  refine this.mono ?_
  rw [eps64, mul_zero, zero_div, add_zero]
  have hr' := mul_le_mul_of_nonneg_right hres (by positivity : (0 : ℝ) ≤ 1 / 2 ^ 52)
  generalize (A + c * (1 / 2 ^ 52)) / rate = p at *
  generalize c * (1 / 2 ^ 52) / rate = p2 at *
  norm_num at *
  linarith

theorem ulp_pi : Ulp (piLit (Fl.arith Fmt.b64)) piC (316 / 100) := by
  have : Ulp (Fl.lit Fmt.b64 314159265358979323846264338327950288 (10 ^ 35)) _ (316 / 100) :=
    Ulp.lit (A := 315 / 100) (by norm_num) (by norm_num) (by norm_num)
  rwa [show ((314159265358979323846264338327950288 : Int) : ℝ) / ((10 ^ 35 : Nat) : ℝ) = piC by unfold piC; norm_num] at this

theorem piC_abs : |piC| ≤ 315 / 100 := by unfold piC; norm_num

theorem ulp_tan1 (hm : ElemWithin m (1 / 2 ^ 50)) {rate : Nat} (hr : 8000 ≤ rate) (hr' : rate ≤ 2 ^ 20) :
    Ulp (m.tan (Fl.div (Fl.mul (piLit (Fl.arith Fmt.b64)) (Fl.lit Fmt.b64 1681974450955533 (10 ^ 12)))
      (Fl.ofInt Fmt.b64 (rate : Nat)))) (tan1 rate) (94 / 10) := by
  have hR : (8000 : ℝ) ≤ rate := by exact_mod_cast hr
  have hR2 : (rate : ℝ) ≤ 1048576 := by exact_mod_cast hr'
  have f : Ulp (Fl.lit Fmt.b64 1681974450955533 (10 ^ 12)) _ 1683 :=
    Ulp.lit (A := 1682) (by norm_num) (by norm_num) (by norm_num)
  have p := ulp_pi.mul f (A := 315 / 100) (B := 1682) (r := 16000) piC_abs (by norm_num) (by norm_num)
  have a := ulp_arg hr hr' p (A := 5299) (r := 267 / 100) (by unfold piC; norm_num) (by norm_num) (by norm_num) (by norm_num)
  rw [show ((1681974450955533 : Int) : ℝ) / ((10 ^ 12 : Nat) : ℝ) = 1681974450955533 / 10 ^ 12 by norm_num] at a
  refine ulp_tan hm a ?_ ?_ (tan1_bounds hr).2 (by norm_num)
  · rw [le_div_iff₀ (by linarith)]
    unfold piC
    norm_num
    linarith
  · rw [div_le_iff₀ (by linarith)]
    unfold piC
    norm_num
    linarith

theorem ulp_tan2 (hm : ElemWithin m (1 / 2 ^ 50)) {rate : Nat} (hr : 8000 ≤ rate) (hr' : rate ≤ 2 ^ 20) :
    Ulp (m.tan (Fl.div (Fl.mul (piLit (Fl.arith Fmt.b64)) (Fl.lit Fmt.b64 3813547087602444 (10 ^ 14)))
      (Fl.ofInt Fmt.b64 (rate : Nat)))) (tan2 rate) (2 / 10) := by
  have hR : (8000 : ℝ) ≤ rate := by exact_mod_cast hr
  have hR2 : (rate : ℝ) ≤ 1048576 := by exact_mod_cast hr'
  have f : Ulp (Fl.lit Fmt.b64 3813547087602444 (10 ^ 14)) _ (383 / 10) :=
    Ulp.lit (A := 382 / 10) (by norm_num) (by norm_num) (by norm_num)
  have p := ulp_pi.mul f (A := 315 / 100) (B := 382 / 10) (r := 362) piC_abs (by norm_num) (by norm_num)
  have a := ulp_arg hr hr' p (A := 121) (r := 62 / 1000) (by unfold piC; norm_num) (by norm_num) (by norm_num) (by norm_num)
  rw [show ((3813547087602444 : Int) : ℝ) / ((10 ^ 14 : Nat) : ℝ) = 3813547087602444 / 10 ^ 14 by norm_num] at a
  refine ulp_tan hm a ?_ ?_ (tan2_bounds hr).2 (by norm_num)
  · rw [le_div_iff₀ (by linarith)]
    unfold piC
    norm_num
    linarith
  · rw [div_le_iff₀ (by linarith)]
    unfold piC
    norm_num
    linarith

/-! ## Sections -/

/-- One recursive section in floating point. -/
theorem ulp_section1 {K Q kk kq d : F64} {k : ℝ} (hK : Ulp K k (94 / 10)) (k0 : 0 < k) (k1 : k ≤ 1)
    (hQ : Ulp Q q1 (71 / 100)) (hkk : kk = Fl.mul K K) (hkq : kq = Fl.div K Q)
    (hd : d = Fl.add (Fl.add (Fl.lit Fmt.b64 1 1) kq) kk) :
    Ulp kk (k * k) (199 / 10) ∧ Ulp kq (k / q1) (162 / 10) ∧ Ulp d (den k q1) (421 / 10) ∧
    Ulp (Fl.div (Fl.mul (Fl.lit Fmt.b64 2 1) (Fl.sub kk (Fl.lit Fmt.b64 1 1))) d) (sec1 k q1) 131 ∧
    Ulp (Fl.div (Fl.add (Fl.sub (Fl.lit Fmt.b64 1 1) kq) kk) d) (sec2 k q1) 82 := by
  have one : Ulp (Fl.lit Fmt.b64 1 1) 1 0 := by simpa using Ulp.nat 1 (by norm_num)
  have two : Ulp (Fl.lit Fmt.b64 2 1) 2 0 := by simpa using Ulp.nat 2 (by norm_num)
  have hq : 0 < q1 := by linarith [q1_half]
  have kq1 : k / q1 ≤ 14142 / 10000 := by
    rw [div_le_iff₀ hq]; unfold q1; norm_num; linarith
  have kq0 : 0 < k / q1 := by positivity
  have kk0 : 0 < k * k := by positivity
  have kk1 : k * k ≤ k := by nlinarith
  have kqk : k ≤ k / q1 := by rw [le_div_iff₀ hq]; unfold q1; norm_num; linarith
  have ak : |k| ≤ 1 := by rw [abs_of_pos k0]; exact k1
  have u1 : Ulp kk (k * k) (199 / 10) := hkk ▸ hK.mul hK ak ak (by norm_num)
  have u2 : Ulp kq (k / q1) (162 / 10) := hkq ▸ hK.div hQ (A := 1) (L := 7071 / 10000) ak
    (by rw [abs_of_pos hq]; unfold q1; norm_num) (by norm_num)
  have u3 : Ulp d (den k q1) (421 / 10) := by
    rw [hd, den]
    exact (one.add u2 (A := 24142 / 10000) (r := 187 / 10) (by rw [abs_le]; constructor <;> linarith) (by norm_num)).add u1
      (A := 34142 / 10000) (by rw [abs_le]; constructor <;> linarith) (by norm_num)
  have hden : 1 ≤ |den k q1| := by unfold den; rw [abs_of_pos (by linarith)]; linarith
  refine ⟨u1, u2, u3, ?_, ?_⟩
  · rw [sec1]
    have n1 := u1.sub one (A := 1) (r := 21) (by rw [abs_le]; constructor <;> linarith) (by norm_num)
    have n2 := two.mul n1 (A := 2) (B := 1) (r := 441 / 10) (by norm_num) (by rw [abs_le]; constructor <;> linarith) (by norm_num)
    exact n2.div u3 (A := 2) (L := 1) (by rw [abs_le]; constructor <;> linarith) hden (by norm_num)
  · rw [sec2]
    have n1 := one.sub u2 (A := 1) (r := 173 / 10) (by rw [abs_le]; constructor <;> linarith) (by norm_num)
    have n2 := n1.add u1 (A := 1) (r := 383 / 10) (by rw [abs_le]; constructor <;> linarith) (by norm_num)
    exact n2.div u3 (A := 1) (L := 1) (by rw [abs_le]; constructor <;> linarith) hden (by norm_num)

theorem ulp_section2 {K Q kk kq d : F64} {k : ℝ} (hK : Ulp K k (2 / 10)) (k0 : 0 < k) (k1 : k ≤ 15 / 1000)
    (hQ : Ulp Q q2 (51 / 100)) (hkk : kk = Fl.mul K K) (hkq : kq = Fl.div K Q)
    (hd : d = Fl.add (Fl.add (Fl.lit Fmt.b64 1 1) kq) kk) :
    Ulp (Fl.div (Fl.mul (Fl.lit Fmt.b64 2 1) (Fl.sub kk (Fl.lit Fmt.b64 1 1))) d) (sec1 k q2) (113 / 10) ∧
    Ulp (Fl.div (Fl.add (Fl.sub (Fl.lit Fmt.b64 1 1) kq) kk) d) (sec2 k q2) (62 / 10) := by
  have one : Ulp (Fl.lit Fmt.b64 1 1) 1 0 := by simpa using Ulp.nat 1 (by norm_num)
  have two : Ulp (Fl.lit Fmt.b64 2 1) 2 0 := by simpa using Ulp.nat 2 (by norm_num)
  have hq : 0 < q2 := by linarith [q2_half]
  have kq1 : k / q2 ≤ 30 / 1000 := by
    rw [div_le_iff₀ hq]; unfold q2; norm_num; linarith
  have kq0 : 0 < k / q2 := by positivity
  have kk0 : 0 < k * k := by positivity
  have kk1 : k * k ≤ 1 / 1000 := by nlinarith
  have kk2 : k * k ≤ k := by nlinarith
  have kqk : k ≤ k / q2 := by rw [le_div_iff₀ hq]; unfold q2; norm_num; linarith
  have ak : |k| ≤ 15 / 1000 := by rw [abs_of_pos k0]; exact k1
  have u1 : Ulp kk (k * k) (1 / 100) := hkk ▸ hK.mul hK ak ak (by norm_num)
  have u2 : Ulp kq (k / q2) (47 / 100) := hkq ▸ hK.div hQ (A := 15 / 1000) (L := 5003 / 10000) ak
    (by rw [abs_of_pos hq]; unfold q2; norm_num) (by norm_num)
  have u3 : Ulp d (den k q2) (257 / 100) := by
    rw [hd, den]
    exact (one.add u2 (A := 103 / 100) (r := 1502 / 1000) (by rw [abs_le]; constructor <;> linarith) (by norm_num)).add u1
      (A := 1031 / 1000) (by rw [abs_le]; constructor <;> linarith) (by norm_num)
  have hden : 1 ≤ |den k q2| := by unfold den; rw [abs_of_pos (by linarith)]; linarith
  refine ⟨?_, ?_⟩
  · rw [sec1]
    have n1 := u1.sub one (A := 1) (r := 102 / 100) (by rw [abs_le]; constructor <;> linarith) (by norm_num)
    have n2 := two.mul n1 (A := 2) (B := 1) (r := 405 / 100) (by norm_num) (by rw [abs_le]; constructor <;> linarith) (by norm_num)
    exact n2.div u3 (A := 2) (L := 1) (by rw [abs_le]; constructor <;> linarith) hden (by norm_num)
  · rw [sec2]
    have n1 := one.sub u2 (A := 1) (r := 148 / 100) (by rw [abs_le]; constructor <;> linarith) (by norm_num)
    have n2 := n1.add u1 (A := 1) (r := 25 / 10) (by rw [abs_le]; constructor <;> linarith) (by norm_num)
    exact n2.div u3 (A := 1) (L := 1) (by rw [abs_le]; constructor <;> linarith) hden (by norm_num)

/-- The numerator of the first section in floating point. -/
theorem ulp_numerator {K Q H B kk vk d : F64} {k : ℝ} (hK : Ulp K k (94 / 10)) (k0 : 0 < k) (k1 : k ≤ 1)
    (hQ : Ulp Q q1 (71 / 100)) (hH : Ulp H gainH (93 / 10)) (hB : Ulp B gainB (105 / 10))
    (hkk : Ulp kk (k * k) (199 / 10)) (hd : Ulp d (den k q1) (421 / 10)) (hvk : vk = Fl.div (Fl.mul B K) Q) :
    Ulp (Fl.div (Fl.add (Fl.add H vk) kk) d) (num0 k) 263 ∧
    Ulp (Fl.div (Fl.mul (Fl.lit Fmt.b64 2 1) (Fl.sub kk H)) d) (num1 k) 202 ∧
    Ulp (Fl.div (Fl.add (Fl.sub H vk) kk) d) (num2 k) 139 := by
  have two : Ulp (Fl.lit Fmt.b64 2 1) 2 0 := by simpa using Ulp.nat 2 (by norm_num)
  obtain ⟨h1, h2⟩ := gainH_bounds
  obtain ⟨b1, b2⟩ := gainB_bounds
  have hq : 0 < q1 := by linarith [q1_half]
  have bk1 : gainB * k ≤ 12588 / 10000 := by nlinarith
  have bk0 : 0 < gainB * k := by positivity
  have v0 : 0 < gainB * k / q1 := by positivity
  have v1 : gainB * k / q1 ≤ 17802 / 10000 := by
    rw [div_le_iff₀ hq]; unfold q1; norm_num; linarith
  have kk0 : 0 < k * k := by positivity
  have kk1 : k * k ≤ 1 := by nlinarith
  have kkv : k * k ≤ gainB * k / q1 := by
    rw [le_div_iff₀ hq]
    have : k * q1 ≤ gainB := by unfold q1; norm_num at *; nlinarith
    nlinarith
  have kq0 : 0 < k / q1 := by positivity
  have hden : 1 ≤ |den k q1| := by unfold den; rw [abs_of_pos (by linarith)]; linarith
  have u1 := hB.mul hK (A := 12588 / 10000) (B := 1) (r := 237 / 10) (by rw [abs_le]; constructor <;> linarith)
    (by rw [abs_le]; constructor <;> linarith) (by norm_num)
  have u2 : Ulp vk (gainB * k / q1) (371 / 10) := hvk ▸ u1.div hQ (A := 12588 / 10000) (L := 7071 / 10000)
    (by rw [abs_le]; constructor <;> linarith) (by rw [abs_of_pos hq]; unfold q1; norm_num) (by norm_num)
  refine ⟨?_, ?_, ?_⟩
  · rw [num0]
    have n1 := hH.add u2 (A := 33652 / 10000) (r := 498 / 10) (by rw [abs_le]; constructor <;> linarith) (by norm_num)
    have n2 := n1.add hkk (A := 43652 / 10000) (r := 741 / 10) (by rw [abs_le]; constructor <;> linarith) (by norm_num)
    exact n2.div hd (A := 43652 / 10000) (L := 1) (by rw [abs_le]; constructor <;> linarith) hden (by norm_num)
  · rw [num1]
    have n1 := hkk.sub hH (A := 1585 / 1000) (r := 308 / 10) (by rw [abs_le]; constructor <;> linarith) (by norm_num)
    have n2 := two.mul n1 (A := 2) (B := 1585 / 1000) (r := 648 / 10) (by norm_num) (by rw [abs_le]; constructor <;> linarith)
      (by norm_num)
    exact n2.div hd (A := 317 / 100) (L := 1) (by rw [abs_le]; constructor <;> linarith) hden (by norm_num)
  · rw [num2]
    have n1 := hH.sub u2 (A := 1585 / 1000) (r := 480 / 10) (by rw [abs_le]; constructor <;> linarith) (by norm_num)
    have n2 := n1.add hkk (A := 16 / 10) (r := 696 / 10) (by rw [abs_le]; constructor <;> linarith) (by norm_num)
    exact n2.div hd (A := 16 / 10) (L := 1) (by rw [abs_le]; constructor <;> linarith) hden (by norm_num)

/-! ## The coefficients -/

/-- `filter_coefficients` in terms of the operations. -/
theorem filterCoefficients_ops {D S : Type} (E : Env D S) (A : Arith D) (add sub mul div : D → D → D) (neg : D → D)
    (lit : Int → Nat → D) (lm : Libm D) (h0 : E.f64 = A) (h1 : A.mul = mul) (h2 : A.sub = sub) (h3 : A.div = div)
    (h4 : A.lit = lit) (h5 : A.add = add) (h6 : A.neg = neg) (h7 : E.libm = lm) (rate : D)
    {K Q Vh Vb kk kq d vk p0 p1 p2 s1 s2 K' Q' kk' kq' d' t1 t2 : D}
    (eK : K = lm.tan (div (mul (piLit A) (lit 1681974450955533 (10 ^ 12))) rate))
    (eQ : Q = lit 7071752369554196 (10 ^ 16))
    (eVh : Vh = lm.powf (lit 10 1) (div (lit 3999843853973347 (10 ^ 15)) (lit 20 1)))
    (eVb : Vb = lm.powf Vh (lit 4996667741545416 (10 ^ 16)))
    (ekk : kk = mul K K) (ekq : kq = div K Q) (ed : d = add (add (lit 1 1) kq) kk) (evk : vk = div (mul Vb K) Q)
    (ep0 : p0 = div (add (add Vh vk) kk) d) (ep1 : p1 = div (mul (lit 2 1) (sub kk Vh)) d)
    (ep2 : p2 = div (add (sub Vh vk) kk) d) (es1 : s1 = div (mul (lit 2 1) (sub kk (lit 1 1))) d)
    (es2 : s2 = div (add (sub (lit 1 1) kq) kk) d)
    (eK' : K' = lm.tan (div (mul (piLit A) (lit 3813547087602444 (10 ^ 14))) rate))
    (eQ' : Q' = lit 5003270373238773 (10 ^ 16))
    (ekk' : kk' = mul K' K') (ekq' : kq' = div K' Q') (ed' : d' = add (add (lit 1 1) kq') kk')
    (et1 : t1 = div (mul (lit 2 1) (sub kk' (lit 1 1))) d') (et2 : t2 = div (add (sub (lit 1 1) kq') kk') d') :
    filterCoefficients E rate =
      (⟨mul p0 (lit 1 1), add (mul p0 (neg (lit 2 1))) (mul p1 (lit 1 1)),
        add (add (mul p0 (lit 1 1)) (mul p1 (neg (lit 2 1)))) (mul p2 (lit 1 1)),
        add (mul p1 (lit 1 1)) (mul p2 (neg (lit 2 1))), mul p2 (lit 1 1)⟩,
       ⟨mul (lit 1 1) (lit 1 1), add (mul (lit 1 1) t1) (mul s1 (lit 1 1)),
        add (add (mul (lit 1 1) t2) (mul s1 t1)) (mul s2 (lit 1 1)), add (mul s1 t2) (mul s2 t1), mul s2 t2⟩) := by
  subst h0
  subst h1 h2 h3 h4 h5 h6 h7
  subst eK eQ eVh eVb ekk ekq ed evk ep0 ep1 ep2 es1 es2 eK' eQ' ekk' ekq' ed' et1 et2
  rfl

/-- The computed coefficients `b, a` are near the exact ones `B, A`; errors in units of `2^-52`. -/
structure Spec.CoefNear (b a : V5 F64) (B A : V5 ℝ) : Prop where
  b0 : Ulp b.v0 B.v0 265
  b1 : Ulp b.v1 B.v1 742
  b2 : Ulp b.v2 B.v2 835
  b3 : Ulp b.v3 B.v3 494
  b4 : Ulp b.v4 B.v4 141
  a1 : Ulp a.v1 A.v1 151
  a2 : Ulp a.v2 A.v2 391
  a3 : Ulp a.v3 A.v3 328
  a4 : Ulp a.v4 A.v4 90

theorem sec_abs {K Q : ℝ} (hQ : 1 / 2 < Q) (hQ1 : Q ≤ 1) (hK : 0 < K) (hK1 : K ≤ 1) : |sec1 K Q| ≤ 2 ∧ |sec2 K Q| ≤ 1 := by
  have hd := den_pos (K := K) hQ
  have hQ0 : 0 < Q := by linarith
  have k0 : 0 < K / Q := by positivity
  have k2 : K ≤ K / Q := by rw [le_div_iff₀ hQ0]; nlinarith
  have kk : 0 < K * K := by positivity
  have kk1 : K * K ≤ 1 := by nlinarith
  constructor
  · rw [sec1, abs_div, abs_of_pos hd, div_le_iff₀ hd, abs_le, den]
    constructor <;> linarith
  · rw [sec2, abs_div, abs_of_pos hd, div_le_iff₀ hd, abs_le, den]
    have : K / Q ≤ 2 := by rw [div_le_iff₀ hQ0]; linarith
    constructor <;> linarith

theorem num_abs {K : ℝ} (hK : 0 < K) (hK1 : K ≤ 1) :
    |num0 K| ≤ 1585 / 1000 ∧ |num1 K| ≤ 317 / 100 ∧ |num2 K| ≤ 16 / 10 := by
  obtain ⟨h1, h2⟩ := gainH_bounds
  obtain ⟨b1, b2⟩ := gainB_bounds
  have hd := den_pos (K := K) q1_half
  have hq : 0 < q1 := by linarith [q1_half]
  have k0 : 0 < K / q1 := by positivity
  have v0 : 0 < gainB * K / q1 := by positivity
  have v1 : gainB * K / q1 ≤ 17802 / 10000 := by
    rw [div_le_iff₀ hq]; unfold q1; norm_num; nlinarith
  have kk : 0 < K * K := by positivity
  have kk1 : K * K ≤ 1 := by nlinarith
  have kkv : K * K ≤ gainB * K / q1 := by
    rw [le_div_iff₀ hq]
    have : K * q1 ≤ gainB := by unfold q1; norm_num at *; nlinarith
    nlinarith
  have m := num0_pos hK
  refine ⟨by rw [abs_of_pos m.1]; linarith [m.2], ?_, ?_⟩
  · rw [num1, abs_div, abs_of_pos hd, div_le_iff₀ hd, abs_le, den]
    constructor <;> linarith
  · rw [num2, abs_div, abs_of_pos hd, div_le_iff₀ hd, abs_le, den]
    constructor <;> linarith

theorem coef_near (hm : ElemWithin m (1 / 2 ^ 50)) (bs' : BSearch) (u : Nat) {rate : Nat} (hr : 8000 ≤ rate)
    (hr' : rate ≤ 2 ^ 20) :
    CoefNear (filterCoefficients (ieeeEnv m bs t) ((ieeeEnv m bs t).f64.ofInt rate)).1
      (filterCoefficients (ieeeEnv m bs t) ((ieeeEnv m bs t).f64.ofInt rate)).2
      (filterCoefficients (exactEnv bs' u) ((exactEnv bs' u).f64.ofInt rate)).1
      (filterCoefficients (exactEnv bs' u) ((exactEnv bs' u).f64.ofInt rate)).2 := by
  have hR0 : (0 : ℝ) < rate := by exact_mod_cast (by omega : 0 < rate)
  obtain ⟨l1, u1⟩ := tan1_bounds hr
  obtain ⟨l2, u2⟩ := tan2_bounds hr
  have k1 : 0 < tan1 rate := lt_of_lt_of_le (by positivity) l1
  have k2 : 0 < tan2 rate := lt_of_lt_of_le (by positivity) l2
  rw [coef_b, coef_a]
  have hK := ulp_tan1 hm hr hr'
  have hK' := ulp_tan2 hm hr hr'
  have hVh := ulp_gainH hm
  have hQ : Ulp (Fl.lit Fmt.b64 7071752369554196 (10 ^ 16)) q1 (71 / 100) := by
    have : Ulp (Fl.lit Fmt.b64 7071752369554196 (10 ^ 16)) _ (71 / 100) :=
      Ulp.lit (A := 708 / 1000) (by norm_num) (by norm_num) (by norm_num)
    rwa [show ((7071752369554196 : Int) : ℝ) / ((10 ^ 16 : Nat) : ℝ) = q1 by unfold q1; norm_num] at this
  have hQ' : Ulp (Fl.lit Fmt.b64 5003270373238773 (10 ^ 16)) q2 (51 / 100) := by
    have : Ulp (Fl.lit Fmt.b64 5003270373238773 (10 ^ 16)) _ (51 / 100) :=
      Ulp.lit (A := 501 / 1000) (by norm_num) (by norm_num) (by norm_num)
    rwa [show ((5003270373238773 : Int) : ℝ) / ((10 ^ 16 : Nat) : ℝ) = q2 by unfold q2; norm_num] at this
  obtain ⟨K, eK⟩ : ∃ x, x = m.tan (Fl.div (Fl.mul (piLit (Fl.arith Fmt.b64)) (Fl.lit Fmt.b64 1681974450955533 (10 ^ 12)))
      (Fl.ofInt Fmt.b64 (rate : Nat))) := ⟨_, rfl⟩
  obtain ⟨K', eK'⟩ : ∃ x, x = m.tan (Fl.div (Fl.mul (piLit (Fl.arith Fmt.b64)) (Fl.lit Fmt.b64 3813547087602444 (10 ^ 14)))
      (Fl.ofInt Fmt.b64 (rate : Nat))) := ⟨_, rfl⟩
  obtain ⟨Q, eQ⟩ : ∃ x, x = Fl.lit Fmt.b64 7071752369554196 (10 ^ 16) := ⟨_, rfl⟩
  obtain ⟨Q', eQ'⟩ : ∃ x, x = Fl.lit Fmt.b64 5003270373238773 (10 ^ 16) := ⟨_, rfl⟩
  obtain ⟨Vh, eVh⟩ : ∃ x, x = m.powf (Fl.lit Fmt.b64 10 1)
      (Fl.div (Fl.lit Fmt.b64 3999843853973347 (10 ^ 15)) (Fl.lit Fmt.b64 20 1)) := ⟨_, rfl⟩
  rw [← eK] at hK
  rw [← eK'] at hK'
  rw [← eQ] at hQ
  rw [← eQ'] at hQ'
  rw [← eVh] at hVh
  have hVb := ulp_gainB hm hVh
  obtain ⟨Vb, eVb⟩ : ∃ x, x = m.powf Vh (Fl.lit Fmt.b64 4996667741545416 (10 ^ 16)) := ⟨_, rfl⟩
  rw [← eVb] at hVb
  obtain ⟨kk, ekk⟩ : ∃ x, x = Fl.mul K K := ⟨_, rfl⟩
  obtain ⟨kq, ekq⟩ : ∃ x, x = Fl.div K Q := ⟨_, rfl⟩
  obtain ⟨d, ed⟩ : ∃ x, x = Fl.add (Fl.add (Fl.lit Fmt.b64 1 1) kq) kk := ⟨_, rfl⟩
  obtain ⟨vk, evk⟩ : ∃ x, x = Fl.div (Fl.mul Vb K) Q := ⟨_, rfl⟩
  obtain ⟨kk', ekk'⟩ : ∃ x, x = Fl.mul K' K' := ⟨_, rfl⟩
  obtain ⟨kq', ekq'⟩ : ∃ x, x = Fl.div K' Q' := ⟨_, rfl⟩
  obtain ⟨d', ed'⟩ : ∃ x, x = Fl.add (Fl.add (Fl.lit Fmt.b64 1 1) kq') kk' := ⟨_, rfl⟩
  obtain ⟨hkk, -, hd, hs1, hs2⟩ := ulp_section1 hK k1 u1 hQ ekk ekq ed
  obtain ⟨ht1, ht2⟩ := ulp_section2 hK' k2 u2 hQ' ekk' ekq' ed'
  obtain ⟨hp0, hp1, hp2⟩ := ulp_numerator hK k1 u1 hQ hVh hVb hkk hd evk
  obtain ⟨p0, ep0⟩ : ∃ x, x = Fl.div (Fl.add (Fl.add Vh vk) kk) d := ⟨_, rfl⟩
  obtain ⟨p1, ep1⟩ : ∃ x, x = Fl.div (Fl.mul (Fl.lit Fmt.b64 2 1) (Fl.sub kk Vh)) d := ⟨_, rfl⟩
  obtain ⟨p2, ep2⟩ : ∃ x, x = Fl.div (Fl.add (Fl.sub Vh vk) kk) d := ⟨_, rfl⟩
  obtain ⟨s1, es1⟩ : ∃ x, x = Fl.div (Fl.mul (Fl.lit Fmt.b64 2 1) (Fl.sub kk (Fl.lit Fmt.b64 1 1))) d := ⟨_, rfl⟩
  obtain ⟨s2, es2⟩ : ∃ x, x = Fl.div (Fl.add (Fl.sub (Fl.lit Fmt.b64 1 1) kq) kk) d := ⟨_, rfl⟩
  obtain ⟨t1, et1⟩ : ∃ x, x = Fl.div (Fl.mul (Fl.lit Fmt.b64 2 1) (Fl.sub kk' (Fl.lit Fmt.b64 1 1))) d' := ⟨_, rfl⟩
  obtain ⟨t2, et2⟩ : ∃ x, x = Fl.div (Fl.add (Fl.sub (Fl.lit Fmt.b64 1 1) kq') kk') d' := ⟨_, rfl⟩
  have hops := filterCoefficients_ops (ieeeEnv m bs t) (Fl.arith Fmt.b64) Fl.add Fl.sub Fl.mul Fl.div Fl.neg
    (Fl.lit Fmt.b64) m rfl rfl rfl rfl rfl rfl rfl rfl (Fl.ofInt Fmt.b64 (rate : Nat)) eK eQ eVh eVb ekk ekq ed evk ep0 ep1
    ep2 es1 es2 eK' eQ' ekk' ekq' ed' et1 et2
  have hops' : filterCoefficients (ieeeEnv m bs t) ((ieeeEnv m bs t).f64.ofInt rate) = _ := hops
  rw [hops']
  rw [← ep0] at hp0
  rw [← ep1] at hp1
  rw [← ep2] at hp2
  rw [← es1] at hs1
  rw [← es2] at hs2
  rw [← et1] at ht1
  rw [← et2] at ht2
  clear hops hops' ep0 ep1 ep2 es1 es2 et1 et2 eK eK' eQ eQ' eVh eVb ekk ekq ed evk ekk' ekq' ed'
  have one : Ulp (Fl.lit Fmt.b64 1 1) 1 0 := by simpa using Ulp.nat 1 (by norm_num)
  have two : Ulp (Fl.lit Fmt.b64 2 1) 2 0 := by simpa using Ulp.nat 2 (by norm_num)
  have mtwo := two.neg
  obtain ⟨m1, m2⟩ := sec_abs q1_half (by unfold q1; norm_num) k1 u1
  obtain ⟨m3, m4⟩ := sec_abs q2_half (by unfold q2; norm_num) k2 (by linarith)
  obtain ⟨n0, n1, n2⟩ := num_abs k1 u1
  have o1 : |(1 : ℝ)| ≤ 1 := by norm_num
  have o2 : |(-2 : ℝ)| ≤ 2 := by norm_num
  have x0 := hp0.mul one (r := 2646 / 10) n0 o1 (by norm_num)
  have x1 := hp1.mul one (r := 2052 / 10) n1 o1 (by norm_num)
  have x2 := hp2.mul one (r := 1407 / 10) n2 o1 (by norm_num)
  have y0 := hp0.mul mtwo (r := 5292 / 10) n0 o2 (by norm_num)
  have y1 := hp1.mul mtwo (r := 4104 / 10) n1 o2 (by norm_num)
  have y2 := hp2.mul mtwo (r := 2813 / 10) n2 o2 (by norm_num)
  have w1 := one.mul ht1 (r := 134 / 10) o1 m3 (by norm_num)
  have w2 := one.mul ht2 (r := 73 / 10) o1 m4 (by norm_num)
  have z1 := hs1.mul one (r := 1331 / 10) m1 o1 (by norm_num)
  have z2 := hs2.mul one (r := 831 / 10) m2 o1 (by norm_num)
  have v11 := hs1.mul ht1 (r := 2887 / 10) m1 m3 (by norm_num)
  have v12 := hs1.mul ht2 (r := 1455 / 10) m1 m4 (by norm_num)
  have v21 := hs2.mul ht1 (r := 1774 / 10) m2 m3 (by norm_num)
  have v22 := hs2.mul ht2 (r := 90) m2 m4 (by norm_num)
  have ab : ∀ {x y A B : ℝ}, |x| ≤ A → |y| ≤ B → |x * y| ≤ A * B := fun hx hy => by
    rw [abs_mul]; exact mul_le_mul hx hy (abs_nonneg _) ((abs_nonneg _).trans hx)
  have pl : ∀ {x y A B C : ℝ}, |x| ≤ A → |y| ≤ B → A + B ≤ C → |x + y| ≤ C := fun hx hy h =>
    (abs_add_le _ _).trans ((add_le_add hx hy).trans h)
  refine ⟨?_, ?_, ?_, ?_, ?_, ?_, ?_, ?_, ?_⟩
  · have := x0.weaken (c' := 265) (by norm_num)
    rwa [mul_one] at this
  · have := y0.add x1 (A := 634 / 100) (r := 742) (pl (ab n0 o2) (ab n1 o1) (by norm_num)) (by norm_num)
    rwa [show num0 (tan1 rate) * -2 + num1 (tan1 rate) * 1 = -2 * num0 (tan1 rate) + num1 (tan1 rate) by ring] at this
  · have := (x0.add y1 (A := 793 / 100) (r := 6831 / 10) (pl (ab n0 o1) (ab n1 o2) (by norm_num)) (by norm_num)).add x2
      (A := 953 / 100) (r := 835) (pl (pl (C := 793 / 100) (ab n0 o1) (ab n1 o2) (by norm_num)) (ab n2 o1) (by norm_num))
      (by norm_num)
    rwa [show num0 (tan1 rate) * 1 + num1 (tan1 rate) * -2 + num2 (tan1 rate) * 1 =
      num0 (tan1 rate) - 2 * num1 (tan1 rate) + num2 (tan1 rate) by ring] at this
  · have := x1.add y2 (A := 637 / 100) (r := 494) (pl (ab n1 o1) (ab n2 o2) (by norm_num)) (by norm_num)
    rwa [show num1 (tan1 rate) * 1 + num2 (tan1 rate) * -2 = num1 (tan1 rate) - 2 * num2 (tan1 rate) by ring] at this
  · have := x2.weaken (c' := 141) (by norm_num)
    rwa [mul_one] at this
  · have := w1.add z1 (A := 4) (r := 151) (pl (ab o1 m3) (ab m1 o1) (by norm_num)) (by norm_num)
    rwa [one_mul, mul_one] at this
  · have := (w2.add v11 (A := 5) (r := 3011 / 10) (pl (ab o1 m4) (ab m1 m3) (by norm_num)) (by norm_num)).add z2
      (A := 6) (r := 391) (pl (pl (C := 5) (ab o1 m4) (ab m1 m3) (by norm_num)) (ab m2 o1) (by norm_num)) (by norm_num)
    rwa [one_mul, mul_one] at this
  · exact v12.add v21 (A := 4) (r := 328) (pl (ab m1 m4) (ab m2 m3) (by norm_num)) (by norm_num)
  · exact v22

end Verif
