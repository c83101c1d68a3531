import Verif.Proofs.CoefErr
/-!
# Rounding in the K-weighting filter

The floating-point filter of the code against the filter with exact coefficients and exact arithmetic, for signals of
any length.
-/

set_option linter.unusedSimpArgs false

namespace Verif
open Spec Fl
variable {m : Libm F64} {bs : BSearch} {t : Target}

/-! ## Operations inside `with_ftz` -/

theorem f64p_mul (x y : F64) : (ieeeEnv m bs t).f64p.mul x y = Fl.flush t (Fl.mul x y) := by
  unfold ieeeEnv Fl.flush; dsimp only; split <;> rfl

theorem f64p_add (x y : F64) : (ieeeEnv m bs t).f64p.add x y = Fl.flush t (Fl.add x y) := by
  unfold ieeeEnv Fl.flush; dsimp only; split <;> rfl

theorem f64p_sub (x y : F64) : (ieeeEnv m bs t).f64p.sub x y = Fl.flush t (Fl.sub x y) := by
  unfold ieeeEnv Fl.flush; dsimp only; split <;> rfl

theorem zero64_finite : (Fl.zero false : F64).Finite := ⟨false, 0, Nat.zero_le _, rfl, by decide⟩

theorem tiny64 : (2 : ℝ) * 2 ^ Fmt.b64.mb / 2 ^ Fmt.b64.u ≤ 1 / 2 ^ 200 := by
  show (2 : ℝ) * 2 ^ 52 / 2 ^ 1074 ≤ 1 / 2 ^ 200
  rw [div_le_div_iff₀ (by positivity) (by positivity), one_mul, ← pow_succ', ← pow_add]
  exact big_le (by norm_num)

/-- A product of a coefficient and a state. -/
theorem prod_app {x y : F64} {X c A V r : ℝ} (hx : Ulp x X c) (hX : |X| ≤ A) (hy : y.Finite) (hV : |y.value| ≤ V)
    (hV1 : V ≤ 2 ^ 120) (hr : c + A + 1 / 100 ≤ r) (hc : c ≤ 2 ^ 14 := by norm_num) (hA : A ≤ 2 ^ 12 := by norm_num) :
    App ((ieeeEnv m bs t).f64p.mul x y) (X * y.value) (r * V * (1 / 2 ^ 52) + 1 / 2 ^ 198) := by
  have t1 := eta64
  have t2 := top64
  have t3 := tiny64
  have c0 := hx.nonneg
  have A0 := (abs_nonneg _).trans hX
  have V0 := (abs_nonneg _).trans hV
  have cu : c * (1 / 2 ^ 52) ≤ 1 / 2 ^ 38 := by norm_num at hc ⊢; linarith
  rw [f64p_mul]
  have h := App.flush t (App.mul Fmt.ok64 hx (App.of hy) hX hV (by
    have : (A + c * (1 / 2 ^ 52)) * (V + 0) ≤ (2 ^ 12 + 1) * (2 ^ 120) :=
      mul_le_mul (by norm_num at *; linarith) (by linarith) (by linarith) (by norm_num)
    exact this.trans (_root_.le_trans (by norm_num) t2)))
  refine h.mono ?_
  rw [eps64]
  have m1 := mul_le_mul_of_nonneg_right (mul_le_mul_of_nonneg_right hr V0) (by positivity : (0 : ℝ) ≤ 1 / 2 ^ 52)
  have m2 := mul_le_mul_of_nonneg_right cu V0
  have e1 : c * (1 / 2 ^ 52) * V = c * V * (1 / 2 ^ 52) := by ring
  have e2 : (A + c * (1 / 2 ^ 52)) * (V + 0) = A * V + c * (1 / 2 ^ 52) * V := by ring
  have e3 : (c + A + 1 / 100) * V * (1 / 2 ^ 52) = c * V * (1 / 2 ^ 52) + A * V * (1 / 2 ^ 52) + 1 / 100 * V * (1 / 2 ^ 52) := by
    ring
  rw [e3] at m1
  rw [e2, mul_zero, mul_zero, _root_.zero_add, add_zero, e1]
  rw [e1] at m2
  generalize c * V = cV at *
  generalize A * V = AV at *
  generalize r * V = rV at *
  generalize (2 : ℝ) * 2 ^ Fmt.b64.mb / 2 ^ Fmt.b64.u = T at *
  norm_num at *
  linarith

theorem sum_app {x y : F64} {X Y a b A V r τ σ : ℝ} (hx : App x X (a * V * (1 / 2 ^ 52) + τ))
    (hy : App y Y (b * V * (1 / 2 ^ 52) + σ)) (hX : |X + Y| ≤ A * V) (V0 : 0 ≤ V) (hV1 : V ≤ 2 ^ 120)
    (hr : a + b + A + 1 / 100 ≤ r) (a0 : 0 ≤ a := by norm_num) (b0 : 0 ≤ b := by norm_num)
    (ha : a ≤ 2 ^ 14 := by norm_num) (hb : b ≤ 2 ^ 14 := by norm_num) (hA : A ≤ 2 ^ 12 := by norm_num)
    (hτ : τ ≤ 1 / 2 ^ 190 := by norm_num) (hσ : σ ≤ 1 / 2 ^ 190 := by norm_num)
    (hτ0 : 0 ≤ τ := by norm_num) (hσ0 : 0 ≤ σ := by norm_num) :
    App ((ieeeEnv m bs t).f64p.add x y) (X + Y) (r * V * (1 / 2 ^ 52) + (2 * τ + 2 * σ + 1 / 2 ^ 198)) := by
  have t1 := eta64
  have t2 := top64
  have t3 := tiny64
  rw [f64p_add]
  have aV : a * V ≤ 2 ^ 14 * V := mul_le_mul_of_nonneg_right ha V0
  have bV : b * V ≤ 2 ^ 14 * V := mul_le_mul_of_nonneg_right hb V0
  have aV0 : 0 ≤ a * V := mul_nonneg a0 V0
  have bV0 : 0 ≤ b * V := mul_nonneg b0 V0
  have AV : A * V ≤ 2 ^ 12 * V := mul_le_mul_of_nonneg_right hA V0
  have h := App.flush t (App.add Fmt.ok64 hx hy hX (by
    refine _root_.le_trans ?_ t2
    norm_num at *
    linarith))
  refine h.mono ?_
  rw [eps64]
  have m1 := mul_le_mul_of_nonneg_right (mul_le_mul_of_nonneg_right hr V0) (by positivity : (0 : ℝ) ≤ 1 / 2 ^ 52)
  have e3 : (a + b + A + 1 / 100) * V * (1 / 2 ^ 52) = a * V * (1 / 2 ^ 52) + b * V * (1 / 2 ^ 52) +
    A * V * (1 / 2 ^ 52) + 1 / 100 * V * (1 / 2 ^ 52) := by ring
  rw [e3] at m1
  generalize a * V = aW at *
  generalize b * V = bW at *
  generalize A * V = AW at *
  generalize r * V = rW at *
  generalize (2 : ℝ) * 2 ^ Fmt.b64.mb / 2 ^ Fmt.b64.u = T at *
  norm_num at *
  linarith

theorem diff_app {x y : F64} {X Y a b A V r τ σ : ℝ} (hx : App x X (a * V * (1 / 2 ^ 52) + τ))
    (hy : App y Y (b * V * (1 / 2 ^ 52) + σ)) (hX : |X - Y| ≤ A * V) (V0 : 0 ≤ V) (hV1 : V ≤ 2 ^ 120)
    (hr : a + b + A + 1 / 100 ≤ r) (a0 : 0 ≤ a := by norm_num) (b0 : 0 ≤ b := by norm_num)
    (ha : a ≤ 2 ^ 14 := by norm_num) (hb : b ≤ 2 ^ 14 := by norm_num) (hA : A ≤ 2 ^ 12 := by norm_num)
    (hτ : τ ≤ 1 / 2 ^ 190 := by norm_num) (hσ : σ ≤ 1 / 2 ^ 190 := by norm_num)
    (hτ0 : 0 ≤ τ := by norm_num) (hσ0 : 0 ≤ σ := by norm_num) :
    App ((ieeeEnv m bs t).f64p.sub x y) (X - Y) (r * V * (1 / 2 ^ 52) + (2 * τ + 2 * σ + 1 / 2 ^ 198)) := by
  have := sum_app (m := m) (bs := bs) (t := t) hx hy.neg (by rwa [← sub_eq_add_neg]) V0 hV1 hr a0 b0 ha hb hA hτ hσ hτ0 hσ0
  rw [← sub_eq_add_neg] at this
  rwa [f64p_sub, show Fl.sub x y = Fl.add x (Fl.neg y) from rfl, ← f64p_add]

/-! ## One step -/

/-- Bounds for the exact coefficients. -/
structure CoefBound (B A : V5 ℝ) : Prop where
  b0 : |B.v0| ≤ 159 / 100
  b1 : |B.v1| ≤ 635 / 100
  b2 : |B.v2| ≤ 954 / 100
  b3 : |B.v3| ≤ 638 / 100
  b4 : |B.v4| ≤ 161 / 100
  a1 : |A.v1| ≤ 4
  a2 : |A.v2| ≤ 6
  a3 : |A.v3| ≤ 4
  a4 : |A.v4| ≤ 1

theorem abs_add_bound {x y A B V : ℝ} (hx : |x| ≤ A * V) (hy : |y| ≤ B * V) : |x + y| ≤ (A + B) * V := by
  rw [add_mul]; exact (abs_add_le _ _).trans (add_le_add hx hy)

theorem abs_sub_bound {x y A B V : ℝ} (hx : |x| ≤ A * V) (hy : |y| ≤ B * V) : |x - y| ≤ (A + B) * V := by
  rw [add_mul]; exact (abs_sub _ _).trans (add_le_add hx hy)

theorem abs_mul_bound {x y A V : ℝ} (hx : |x| ≤ A) (hy : |y| ≤ V) : |x * y| ≤ A * V := by
  rw [abs_mul]; exact mul_le_mul hx hy (abs_nonneg _) ((abs_nonneg _).trans hx)

theorem step_in {b a : V5 F64} {B A : V5 ℝ} (hn : CoefNear b a B A) (hb : CoefBound B A) {x v1 v2 v3 v4 : F64} {V : ℝ}
    (hx : x.Finite) (h1 : v1.Finite) (h2 : v2.Finite) (h3 : v3.Finite) (h4 : v4.Finite) (kx : |x.value| ≤ V)
    (k1 : |v1.value| ≤ V) (k2 : |v2.value| ≤ V) (k3 : |v3.value| ≤ V) (k4 : |v4.value| ≤ V) (hV : V ≤ 2 ^ 120) :
    let P := (ieeeEnv m bs t).f64p
    App (P.sub (P.sub (P.sub (P.sub x (P.mul a.v1 v1)) (P.mul a.v2 v2)) (P.mul a.v3 v3)) (P.mul a.v4 v4))
      (x.value - A.v1 * v1.value - A.v2 * v2.value - A.v3 * v3.value - A.v4 * v4.value)
      (1030 * V * (1 / 2 ^ 52) + 1 / 2 ^ 190) := by
  intro P
  have V0 := (abs_nonneg _).trans kx
  have q1 := prod_app (m := m) (bs := bs) (t := t) hn.a1 hb.a1 h1 k1 hV (r := 15502 / 100) (by norm_num)
  have q2 := prod_app (m := m) (bs := bs) (t := t) hn.a2 hb.a2 h2 k2 hV (r := 39702 / 100) (by norm_num)
  have q3 := prod_app (m := m) (bs := bs) (t := t) hn.a3 hb.a3 h3 k3 hV (r := 33202 / 100) (by norm_num)
  have q4 := prod_app (m := m) (bs := bs) (t := t) hn.a4 hb.a4 h4 k4 hV (r := 9102 / 100) (by norm_num)
  have hx0 : App x x.value (0 * V * (1 / 2 ^ 52) + 0) := by simpa using App.of hx
  have z0 : |x.value| ≤ 1 * V := by linarith
  have z1 := abs_sub_bound z0 (abs_mul_bound hb.a1 k1)
  have z2 := abs_sub_bound z1 (abs_mul_bound hb.a2 k2)
  have z3 := abs_sub_bound z2 (abs_mul_bound hb.a3 k3)
  have z4 := abs_sub_bound z3 (abs_mul_bound hb.a4 k4)
  have s1 := diff_app (m := m) (bs := bs) (t := t) hx0 q1 z1 V0 hV (r := 16004 / 100) (by norm_num)
  have s2 := diff_app (m := m) (bs := bs) (t := t) s1 q2 z2 V0 hV (r := 56808 / 100) (by norm_num)
  have s3 := diff_app (m := m) (bs := bs) (t := t) s2 q3 z3 V0 hV (r := 91512 / 100) (by norm_num)
  have s4 := diff_app (m := m) (bs := bs) (t := t) s3 q4 z4 V0 hV (r := 1030) (by norm_num)
  exact s4.mono (by norm_num)

theorem step_out {b a : V5 F64} {B A : V5 ℝ} (hn : CoefNear b a B A) (hb : CoefBound B A) {v0 v1 v2 v3 v4 : F64} {V : ℝ}
    (h0 : v0.Finite) (h1 : v1.Finite) (h2 : v2.Finite) (h3 : v3.Finite) (h4 : v4.Finite) (k0 : |v0.value| ≤ V)
    (k1 : |v1.value| ≤ V) (k2 : |v2.value| ≤ V) (k3 : |v3.value| ≤ V) (k4 : |v4.value| ≤ V) (hV : V ≤ 2 ^ 120) :
    let P := (ieeeEnv m bs t).f64p
    App (P.add (P.add (P.add (P.add (P.mul b.v0 v0) (P.mul b.v1 v1)) (P.mul b.v2 v2)) (P.mul b.v3 v3)) (P.mul b.v4 v4))
      (B.v0 * v0.value + B.v1 * v1.value + B.v2 * v2.value + B.v3 * v3.value + B.v4 * v4.value)
      (2600 * V * (1 / 2 ^ 52) + 1 / 2 ^ 190) := by
  intro P
  have V0 := (abs_nonneg _).trans k0
  have q0 := prod_app (m := m) (bs := bs) (t := t) hn.b0 hb.b0 h0 k0 hV (r := 26661 / 100) (by norm_num)
  have q1 := prod_app (m := m) (bs := bs) (t := t) hn.b1 hb.b1 h1 k1 hV (r := 74837 / 100) (by norm_num)
  have q2 := prod_app (m := m) (bs := bs) (t := t) hn.b2 hb.b2 h2 k2 hV (r := 84456 / 100) (by norm_num)
  have q3 := prod_app (m := m) (bs := bs) (t := t) hn.b3 hb.b3 h3 k3 hV (r := 50040 / 100) (by norm_num)
  have q4 := prod_app (m := m) (bs := bs) (t := t) hn.b4 hb.b4 h4 k4 hV (r := 14263 / 100) (by norm_num)
  have z1 := abs_add_bound (abs_mul_bound hb.b0 k0) (abs_mul_bound hb.b1 k1)
  have z2 := abs_add_bound z1 (abs_mul_bound hb.b2 k2)
  have z3 := abs_add_bound z2 (abs_mul_bound hb.b3 k3)
  have z4 := abs_add_bound z3 (abs_mul_bound hb.b4 k4)
  have s1 := sum_app (m := m) (bs := bs) (t := t) q0 q1 z1 V0 hV (r := 1023) (by norm_num)
  have s2 := sum_app (m := m) (bs := bs) (t := t) s1 q2 z2 V0 hV (r := 1886) (by norm_num)
  have s3 := sum_app (m := m) (bs := bs) (t := t) s2 q3 z3 V0 hV (r := 2411) (by norm_num)
  have s4 := sum_app (m := m) (bs := bs) (t := t) s3 q4 z4 V0 hV (r := 2600) (by norm_num)
  exact s4.mono (by norm_num)

theorem coef_bound (bs' : BSearch) (u : Nat) {rate : Nat} (hr : 8000 ≤ rate) :
    CoefBound (filterCoefficients (exactEnv bs' u) ((exactEnv bs' u).f64.ofInt rate)).1
      (filterCoefficients (exactEnv bs' u) ((exactEnv bs' u).f64.ofInt rate)).2 := by
  have hR0 : (0 : ℝ) < rate := by exact_mod_cast (by omega : 0 < rate)
  obtain ⟨l1, u1⟩ := tan1_bounds hr
  obtain ⟨l2, u2⟩ := tan2_bounds hr
  have k1 : 0 < tan1 rate := lt_of_lt_of_le (by positivity) l1
  have k2 : 0 < tan2 rate := lt_of_lt_of_le (by positivity) l2
  obtain ⟨m1, m2⟩ := sec_abs q1_half (by unfold q1; norm_num) k1 u1
  obtain ⟨m3, m4⟩ := sec_abs q2_half (by unfold q2; norm_num) k2 (by linarith)
  obtain ⟨n0, n1, n2⟩ := num_abs k1 u1
  rw [coef_a, coef_b]
  have ab : ∀ {x y A B : ℝ}, |x| ≤ A → |y| ≤ B → |x * y| ≤ A * B := fun hx hy => by
    rw [abs_mul]; exact mul_le_mul hx hy (abs_nonneg _) ((abs_nonneg _).trans hx)
  have p11 := abs_le.1 (ab m1 m3)
  have p12 := abs_le.1 (ab m1 m4)
  have p21 := abs_le.1 (ab m2 m3)
  have p22 := ab m2 m4
  rw [abs_le] at m1 m2 m3 m4 n0 n1 n2
  refine ⟨?_, ?_, ?_, ?_, ?_, ?_, ?_, ?_, ?_⟩
  · rw [abs_le]; constructor <;> linarith [n0.1, n0.2]
  · rw [abs_le]; constructor <;> linarith [n0.1, n0.2, n1.1, n1.2]
  · rw [abs_le]; constructor <;> linarith [n0.1, n0.2, n1.1, n1.2, n2.1, n2.2]
  · rw [abs_le]; constructor <;> linarith [n1.1, n1.2, n2.1, n2.2]
  · rw [abs_le]; constructor <;> linarith [n2.1, n2.2]
  · rw [abs_le]; constructor <;> linarith [m1.1, m1.2, m3.1, m3.2]
  · rw [abs_le]; constructor <;> linarith [m4.1, m4.2, m2.1, m2.2, p11.1, p11.2]
  · rw [abs_le]; constructor <;> linarith [p12.1, p12.2, p21.1, p21.2]
  · exact p22.trans (by norm_num)

/-! ## The state variable as a sequence, for any arithmetic -/

section
variable {D : Type} (A : Arith D) (a b : V5 D) (z : D) (X : ℕ → D)

/-- The state variable of the filter for an infinite signal; four values of silence come first. -/
def statesOf (n : ℕ) : D := if n < 4 then z else past z (internal A a z ((List.range (n - 3)).map X)) 0

theorem internal_of_succ (n : ℕ) :
    internal A a z ((List.range (n + 1)).map X) =
      A.sub (A.sub (A.sub (A.sub (X n) (A.mul a.v1 (past z (internal A a z ((List.range n).map X)) 0)))
        (A.mul a.v2 (past z (internal A a z ((List.range n).map X)) 1)))
        (A.mul a.v3 (past z (internal A a z ((List.range n).map X)) 2)))
        (A.mul a.v4 (past z (internal A a z ((List.range n).map X)) 3)) ::
      internal A a z ((List.range n).map X) := by
  rw [List.range_succ, List.map_append, internal, List.foldl_append]
  rfl

theorem past_statesOf : ∀ (n k : ℕ), k ≤ n + 3 →
    past z (internal A a z ((List.range n).map X)) k = statesOf A a z X (n + 3 - k) := by
  intro n
  induction n with
  | zero =>
    intro k hk
    rw [statesOf, if_pos (by omega)]
    simp [internal, past]
  | succ n ih =>
    intro k hk
    cases k with
    | zero => rw [statesOf, if_neg (by omega)]; rfl
    | succ k =>
      rw [internal_of_succ]
      have := ih k (by omega)
      rw [show n + 1 + 3 - (k + 1) = n + 3 - k by omega, ← this]
      simp [past]

theorem statesOf_rec (n : ℕ) :
    statesOf A a z X (n + 4) =
      A.sub (A.sub (A.sub (A.sub (X n) (A.mul a.v1 (statesOf A a z X (n + 3))))
        (A.mul a.v2 (statesOf A a z X (n + 2)))) (A.mul a.v3 (statesOf A a z X (n + 1))))
        (A.mul a.v4 (statesOf A a z X n)) := by
  have h := past_statesOf A a z X (n + 1) 0 (by omega)
  rw [internal_of_succ, past_statesOf A a z X n 0 (by omega), past_statesOf A a z X n 1 (by omega),
    past_statesOf A a z X n 2 (by omega), past_statesOf A a z X n 3 (by omega)] at h
  rw [show n + 1 + 3 - 0 = n + 4 by omega] at h
  rw [← h]
  rfl

theorem statesOf_zero {n : ℕ} (h : n < 4) : statesOf A a z X n = z := if_pos h

theorem response_statesOf (n : ℕ) :
    response A b z (internal A a z ((List.range (n + 1)).map X)) =
      A.add (A.add (A.add (A.add (A.mul b.v0 (statesOf A a z X (n + 4))) (A.mul b.v1 (statesOf A a z X (n + 3))))
        (A.mul b.v2 (statesOf A a z X (n + 2)))) (A.mul b.v3 (statesOf A a z X (n + 1))))
        (A.mul b.v4 (statesOf A a z X n)) := by
  rw [response, past_statesOf A a z X (n + 1) 0 (by omega), past_statesOf A a z X (n + 1) 1 (by omega),
    past_statesOf A a z X (n + 1) 2 (by omega), past_statesOf A a z X (n + 1) 3 (by omega),
    past_statesOf A a z X (n + 1) 4 (by omega)]
  rfl

theorem take_range {D : Type} (xs : List D) (d : D) {k : ℕ} (hk : k < xs.length) :
    xs.take (k + 1) = (List.range (k + 1)).map fun n => xs.getD n d := by
  apply List.ext_getElem
  · simp; omega
  · intro i h1 h2
    simp at h1 h2
    simp [List.getD, h1]

theorem filtered_of_getD {xs : List D} {k : ℕ} (hk : k < xs.length) :
    (filtered A b a z xs).getD k z =
      response A b z (internal A a z ((List.range (k + 1)).map fun n => xs.getD n z)) := by
  rw [← take_range xs z hk, filtered]
  simp [List.getD, hk]

end

/-! ## All steps -/

theorem stateGain_bounds {rate : Nat} (hr : 8000 ≤ rate) (hr' : rate ≤ 400000) :
    2 ^ 13 ≤ stateGain rate ∧ stateGain rate ≤ 2 ^ 34 := by
  have h1 : (8000 : ℝ) ≤ rate := by exact_mod_cast hr
  have h2 : (rate : ℝ) ≤ 400000 := by exact_mod_cast hr'
  have a1 : (3 : ℝ) ≤ rate / 7400 + 2 := by linarith
  have a2 : (rate : ℝ) / 7400 + 2 ≤ 561 / 10 := by linarith
  have b1 : (35 : ℝ) ≤ rate / 239 + 2 := by linarith
  have b2 : (rate : ℝ) / 239 + 2 ≤ 1676 := by linarith
  unfold stateGain
  constructor
  · have p1 := pow_le_pow_left₀ (by norm_num) a1 2
    have p2 := pow_le_pow_left₀ (by norm_num) b1 2
    calc (2 : ℝ) ^ 13 ≤ 3 ^ 2 * 35 ^ 2 := by norm_num
      _ ≤ _ := mul_le_mul p1 p2 (by positivity) (by positivity)
  have p1 := pow_le_pow_left₀ (by linarith) a2 2
  have p2 := pow_le_pow_left₀ (by linarith) b2 2
  calc _ ≤ (561 / 10 : ℝ) ^ 2 * 1676 ^ 2 := mul_le_mul p1 p2 (by positivity) (by norm_num)
    _ ≤ _ := by norm_num

/-- `p` is `v`, except that a small `v` may have been replaced by zero. -/
def Kept (τ : ℝ) (p v : F64) : Prop := (v.Finite → p.Finite) ∧ |p.value| ≤ |v.value| ∧ |p.value - v.value| ≤ τ

theorem Kept.refl (v : F64) : Kept 0 v v := ⟨id, _root_.le_refl _, by rw [sub_self, abs_zero]⟩

theorem kept_sum {c1 c2 c3 c4 p1 p2 p3 p4 v1 v2 v3 v4 M1 M2 M3 M4 τ M : ℝ} (h1 : |c1| ≤ M1) (h2 : |c2| ≤ M2)
    (h3 : |c3| ≤ M3) (h4 : |c4| ≤ M4) (k1 : |p1 - v1| ≤ τ) (k2 : |p2 - v2| ≤ τ) (k3 : |p3 - v3| ≤ τ) (k4 : |p4 - v4| ≤ τ)
    (hM : M1 + M2 + M3 + M4 ≤ M) : |c1 * (p1 - v1) + c2 * (p2 - v2) + c3 * (p3 - v3) + c4 * (p4 - v4)| ≤ M * τ := by
  have τ0 := (abs_nonneg _).trans k1
  have := abs_add_bound (abs_add_bound (abs_add_bound (abs_mul_bound h1 k1) (abs_mul_bound h2 k2)) (abs_mul_bound h3 k3))
    (abs_mul_bound h4 k4)
  exact this.trans (mul_le_mul_of_nonneg_right hM τ0)

section
variable {rate : Nat} {x v : ℕ → F64} {p : ℕ → ℕ → F64} {X τ : ℝ}

/-- The rounded filter state stays within one percent of the bound for the exact one, and every step makes a
small error, even if small states are dropped in between. -/
theorem float_state (hm : ElemWithin m (1 / 2 ^ 50)) (bs' : BSearch) (u : Nat) (hr : 8000 ≤ rate)
    (hr' : rate ≤ 400000) (hX : 1 / 2 ^ 100 ≤ X) (hX' : X ≤ 2 ^ 60) (hτ : τ ≤ X / 2 ^ 39)
    (hf : ∀ n, (x n).Finite) (hx : ∀ n, |(x n).value| ≤ X) (h0 : ∀ n < 4, v n = Fl.zero false)
    (hp : ∀ n, ∀ k < 4, Kept τ (p n k) (v (n + k)))
    (hv : let P := (ieeeEnv m bs t).f64p
      let a := (filterCoefficients (ieeeEnv m bs t) ((ieeeEnv m bs t).f64.ofInt rate)).2
      ∀ n, v (n + 4) = P.sub (P.sub (P.sub (P.sub (x n) (P.mul a.v1 (p n 3))) (P.mul a.v2 (p n 2))) (P.mul a.v3 (p n 1)))
        (P.mul a.v4 (p n 0))) :
    let A := (filterCoefficients (exactEnv bs' u) ((exactEnv bs' u).f64.ofInt rate)).2
    let V := 101 / 100 * (stateGain rate * X)
    (∀ n, (v n).Finite ∧ |(v n).value| ≤ V) ∧
    ∀ n, |(v (n + 4)).value - ((x n).value - A.v1 * (v (n + 3)).value - A.v2 * (v (n + 2)).value -
      A.v3 * (v (n + 1)).value - A.v4 * (v n).value)| ≤ 1030 * V * (1 / 2 ^ 52) + 1 / 2 ^ 190 + 15 * τ := by
  intro A V
  have hn := coef_near (bs := bs) (t := t) hm bs' u hr (by omega)
  have hb := coef_bound bs' u hr
  obtain ⟨g1', g2⟩ := stateGain_bounds hr hr'
  have g1 : 1 ≤ stateGain rate := _root_.le_trans (by norm_num) g1'
  have X0 : 0 < X := lt_of_lt_of_le (by positivity) hX
  have τ0 : 0 ≤ τ := (abs_nonneg _).trans (hp 0 0 (by omega)).2.2
  have GX1 : X ≤ stateGain rate * X := by nlinarith
  have GX2 : stateGain rate * X ≤ 2 ^ 34 * X := mul_le_mul_of_nonneg_right g2 X0.le
  have XV : X ≤ V := by show X ≤ 101 / 100 * _; linarith
  have V0 : 0 ≤ V := X0.le.trans XV
  have hV : V ≤ 2 ^ 120 := by
    show 101 / 100 * _ ≤ _
    norm_num at hX' GX2 ⊢
    linarith
  have hstep : ∀ n, (∀ k < 4, (v (n + k)).Finite ∧ |(v (n + k)).value| ≤ V) →
      App (v (n + 4)) ((x n).value - A.v1 * (v (n + 3)).value - A.v2 * (v (n + 2)).value -
        A.v3 * (v (n + 1)).value - A.v4 * (v n).value) (1030 * V * (1 / 2 ^ 52) + 1 / 2 ^ 190 + 15 * τ) := by
    intro n h
    obtain ⟨f0, l0⟩ := h 0 (by omega)
    obtain ⟨f1, l1⟩ := h 1 (by omega)
    obtain ⟨f2, l2⟩ := h 2 (by omega)
    obtain ⟨f3, l3⟩ := h 3 (by omega)
    obtain ⟨a0, b0, c0⟩ := hp n 0 (by omega)
    obtain ⟨a1, b1, c1⟩ := hp n 1 (by omega)
    obtain ⟨a2, b2, c2⟩ := hp n 2 (by omega)
    obtain ⟨a3, b3, c3⟩ := hp n 3 (by omega)
    have := step_in (m := m) (bs := bs) (t := t) hn hb (hf n) (a3 f3) (a2 f2) (a1 f1) (a0 f0) ((hx n).trans XV)
      (b3.trans l3) (b2.trans l2) (b1.trans l1) (b0.trans l0) hV
    rw [hv n]
    refine ⟨this.1, ?_⟩
    have ks := kept_sum hb.a1 hb.a2 hb.a3 hb.a4 c3 c2 c1 c0 (M := 15) (by norm_num)
    refine (abs_sub_le _ _ _).trans (add_le_add this.2 ?_)
    rw [← abs_neg] at ks
    refine _root_.le_trans (le_of_eq ?_) ks
    congr 1
    show _ = -(A.v1 * _ + A.v2 * _ + A.v3 * _ + A.v4 * ((p n 0).value - (v n).value))
    ring
  have hz : ∀ n < 4, (v n).value = 0 := fun n h => by rw [h0 n h]; exact value_zero _
  have key : ∀ N, ∀ n ≤ N + 3, (v n).Finite ∧ |(v n).value| ≤ V := by
    intro N
    induction N with
    | zero =>
      intro n h
      refine ⟨?_, by rw [hz n (by omega), abs_zero]; exact V0⟩
      rw [h0 n (by omega)]
      exact zero64_finite
    | succ N ih =>
      have st : ∀ n < N + 1, _ := fun n hn' => hstep n fun k hk => ih (n + k) (by omega)
      have fin : ∀ n ≤ N + 1 + 3, (v n).Finite := by
        intro n hn'
        rcases Nat.lt_or_ge n 4 with h4 | h4
        · exact (ih n (by omega)).1
        · have := (st (n - 4) (by omega)).1
          rwa [show n - 4 + 4 = n by omega] at this
      have := state_le bs' u hr (w := fun n => (v n).value)
        (x := fun n => (v (n + 4)).value + A.v1 * (v (n + 3)).value + A.v2 * (v (n + 2)).value +
          A.v3 * (v (n + 1)).value + A.v4 * (v n).value) (by intro a n; show _ = _; ring) hz
        (F := X + (1030 * V * (1 / 2 ^ 52) + 1 / 2 ^ 190 + 15 * τ)) (by positivity) (N := N + 1) (by
          intro n hn'
          have h1 := (st n hn').2
          have h2 := hx n
          have e : (v (n + 4)).value + A.v1 * (v (n + 3)).value + A.v2 * (v (n + 2)).value +
              A.v3 * (v (n + 1)).value + A.v4 * (v n).value = (x n).value + ((v (n + 4)).value -
              ((x n).value - A.v1 * (v (n + 3)).value - A.v2 * (v (n + 2)).value -
                A.v3 * (v (n + 1)).value - A.v4 * (v n).value)) := by ring
          rw [e]
          exact (abs_add_le _ _).trans (add_le_add h2 h1))
      intro n hn'
      refine ⟨fin n hn', (this n hn').trans ?_⟩
      have i1 : 1030 * V * (1 / 2 ^ 52) + 1 / 2 ^ 190 + 15 * τ ≤ 1 / 100 * X := by
        have : V ≤ 101 / 100 * (2 ^ 34 * X) := by show 101 / 100 * _ ≤ _; linarith
        norm_num at hX hτ this ⊢
        linarith
      have := mul_le_mul_of_nonneg_left (add_le_add (_root_.le_refl X) i1) (by linarith : 0 ≤ stateGain rate)
      show _ ≤ 101 / 100 * (stateGain rate * X)
      linarith
  exact ⟨fun n => key n n (by omega), fun n => (hstep n fun k _ => key (n + k) (n + k) (by omega)).2⟩

/-- The output of one step against the exact filter, small states dropped or not. -/
theorem float_out (hm : ElemWithin m (1 / 2 ^ 50)) (bs' : BSearch) (u : Nat) (hr : 8000 ≤ rate)
    (hr' : rate ≤ 400000) (hX : 1 / 2 ^ 100 ≤ X) (hX' : X ≤ 2 ^ 60) (hτ : τ ≤ X / 2 ^ 39)
    (hf : ∀ n, (x n).Finite) (hx : ∀ n, |(x n).value| ≤ X) (h0 : ∀ n < 4, v n = Fl.zero false)
    (hp : ∀ n, ∀ k < 4, Kept τ (p n k) (v (n + k)))
    (hv : let P := (ieeeEnv m bs t).f64p
      let a := (filterCoefficients (ieeeEnv m bs t) ((ieeeEnv m bs t).f64.ofInt rate)).2
      ∀ n, v (n + 4) = P.sub (P.sub (P.sub (P.sub (x n) (P.mul a.v1 (p n 3))) (P.mul a.v2 (p n 2))) (P.mul a.v3 (p n 1)))
        (P.mul a.v4 (p n 0))) (k : ℕ) :
    let P := (ieeeEnv m bs t).f64p
    let b := (filterCoefficients (ieeeEnv m bs t) ((ieeeEnv m bs t).f64.ofInt rate)).1
    let C := filterCoefficients (exactEnv bs' u) ((exactEnv bs' u).f64.ofInt rate)
    let w := stateSeq C.2 fun n => (x n).value
    App (P.add (P.add (P.add (P.add (P.mul b.v0 (v (k + 4))) (P.mul b.v1 (p k 3))) (P.mul b.v2 (p k 2)))
        (P.mul b.v3 (p k 1))) (P.mul b.v4 (p k 0)))
      (C.1.v0 * w (k + 4) + C.1.v1 * w (k + 3) + C.1.v2 * w (k + 2) + C.1.v3 * w (k + 1) + C.1.v4 * w k)
      (stateGain rate / 2 ^ 38 * X) := by
  intro P b C w
  obtain ⟨s1, s2⟩ := float_state (bs := bs) (t := t) hm bs' u hr hr' hX hX' hτ hf hx h0 hp hv
  have hn := coef_near (bs := bs) (t := t) hm bs' u hr (by omega)
  have hb := coef_bound bs' u hr
  obtain ⟨g1, g2⟩ := stateGain_bounds hr hr'
  have X0 : 0 < X := lt_of_lt_of_le (by positivity) hX
  have GX1 : 2 ^ 13 * X ≤ stateGain rate * X := mul_le_mul_of_nonneg_right g1 X0.le
  have GX2 : stateGain rate * X ≤ 2 ^ 34 * X := mul_le_mul_of_nonneg_right g2 X0.le
  have hV : 101 / 100 * (stateGain rate * X) ≤ 2 ^ 120 := by
    norm_num at hX' GX2 ⊢
    linarith
  obtain ⟨a0, b0, c0⟩ := hp k 0 (by omega)
  obtain ⟨a1, b1, c1⟩ := hp k 1 (by omega)
  obtain ⟨a2, b2, c2⟩ := hp k 2 (by omega)
  obtain ⟨a3, b3, c3⟩ := hp k 3 (by omega)
  have o := step_out (m := m) (bs := bs) (t := t) hn hb (s1 (k + 4)).1 (a3 (s1 (k + 3)).1) (a2 (s1 (k + 2)).1)
    (a1 (s1 (k + 1)).1) (a0 (s1 k).1) (s1 (k + 4)).2 (b3.trans (s1 (k + 3)).2) (b2.trans (s1 (k + 2)).2)
    (b1.trans (s1 (k + 1)).2) (b0.trans (s1 k).2) hV
  refine ⟨o.1, ?_⟩
  have o2 := o.2
  have ks := kept_sum hb.b1 hb.b2 hb.b3 hb.b4 c3 c2 c1 c0 (M := 24) (by norm_num)
  have hrec := stateSeq_rec C.2 (fun n => (x n).value)
  have hz' := fun n h => stateSeq_zero C.2 (fun n => (x n).value) (n := n) h
  have hzv : ∀ n < 4, (v n).value = 0 := fun n h => by rw [h0 n h]; exact value_zero _
  have e := out_le bs' u hr (w := fun n => (v n).value - w n)
    (x := fun n => (v (n + 4)).value - ((x n).value - C.2.v1 * (v (n + 3)).value - C.2.v2 * (v (n + 2)).value -
        C.2.v3 * (v (n + 1)).value - C.2.v4 * (v n).value))
    (by intro a n; show _ - w _ = _; rw [show w (n + 4) = _ from hrec n]; ring)
    (fun n h => by show _ - w n = 0; rw [show w n = 0 from hz' n h, hzv n h, sub_zero])
    (F := 1030 * (101 / 100 * (stateGain rate * X)) * (1 / 2 ^ 52) + 1 / 2 ^ 190 + 15 * τ) s2 k
  dsimp only at e
  have tri : ∀ {p q r E F : ℝ}, |p - q| ≤ E → |q - r| ≤ F → |p - r| ≤ E + F := fun h1 h2 =>
    (abs_sub_le _ _ _).trans (add_le_add h1 h2)
  refine (tri (tri o2 (r := C.1.v0 * (v (k + 4)).value + C.1.v1 * (v (k + 3)).value + C.1.v2 * (v (k + 2)).value +
    C.1.v3 * (v (k + 1)).value + C.1.v4 * (v k).value) (F := 24 * τ) ?_)
    (F := 13 * (1030 * (101 / 100 * (stateGain rate * X)) * (1 / 2 ^ 52) + 1 / 2 ^ 190 + 15 * τ)) ?_).trans ?_
  · refine _root_.le_trans (le_of_eq ?_) ks
    congr 1
    show _ = C.1.v1 * _ + C.1.v2 * _ + C.1.v3 * _ + C.1.v4 * ((p k 0).value - (v k).value)
    ring
  · refine _root_.le_trans (le_of_eq ?_) e
    congr 1
    show _ = C.1.v0 * _ + C.1.v1 * _ + C.1.v2 * _ + C.1.v3 * _ + C.1.v4 * _
    ring
  · rw [show stateGain rate / 2 ^ 38 * X = stateGain rate * X / 2 ^ 38 by ring]
    clear * - GX1 hX hτ
    generalize stateGain rate * X = Y at *
    norm_num at hX hτ GX1 ⊢
    linarith

end

/-- The filtered signal against the exactly filtered one. -/
theorem float_filtered (hm : ElemWithin m (1 / 2 ^ 50)) (bs' : BSearch) (u : Nat) {rate : Nat} (hr : 8000 ≤ rate)
    (hr' : rate ≤ 400000) {xs : List F64} {X : ℝ} (hX : 1 / 2 ^ 100 ≤ X) (hX' : X ≤ 2 ^ 60)
    (hx : ∀ x ∈ xs, x.Finite ∧ |x.value| ≤ X) {k : ℕ} (hk : k < xs.length) :
    let c := filterCoefficients (ieeeEnv m bs t) ((ieeeEnv m bs t).f64.ofInt rate)
    App ((filtered (ieeeEnv m bs t).f64p c.1 c.2 (Fl.zero false) xs).getD k (Fl.zero false))
      ((kWeighted bs' u rate (xs.map Fl.value)).getD k 0) (stateGain rate / 2 ^ 38 * X) := by
  intro c
  have hv0 : (Fl.zero false : F64).value = 0 := value_zero _
  have X0 : 0 < X := lt_of_lt_of_le (by positivity) hX
  have gx : ∀ n, (xs.getD n (Fl.zero false)).Finite ∧ |(xs.getD n (Fl.zero false)).value| ≤ X := by
    intro n
    rw [List.getD_eq_getElem?_getD]
    cases h : xs[n]? with
    | none => exact ⟨zero64_finite, by
        show |(Fl.zero false : F64).value| ≤ X
        rw [hv0, abs_zero]; exact X0.le⟩
    | some y => exact hx y (List.mem_of_getElem? h)
  rw [filtered_of_getD _ _ _ _ hk, response_statesOf]
  unfold kWeighted
  rw [filtered_getD _ _ (fun n => (xs.map Fl.value).getD n 0) (by simpa using hk)
    (take_eq_range _ 0 (by simpa using hk))]
  have hval : ∀ n, (xs.map Fl.value).getD n 0 = (xs.getD n (Fl.zero false)).value := by
    intro n
    rw [List.getD_eq_getElem?_getD, List.getD_eq_getElem?_getD, List.getElem?_map]
    cases xs[n]? with
    | none => exact hv0.symm
    | some y => rfl
  simp only [hval]
  exact float_out (bs := bs) (t := t) hm bs' u hr hr' hX hX' (τ := 0) (by positivity) (fun n => (gx n).1) (fun n => (gx n).2)
    (p := fun n k => statesOf (ieeeEnv m bs t).f64p c.2 (Fl.zero false) (fun n => xs.getD n (Fl.zero false)) (n + k))
    (fun n h => statesOf_zero _ _ _ _ h) (fun n k _ => Kept.refl _) (fun n => statesOf_rec _ _ _ _ n) k

end Verif
