import Verif.Proofs.Mixed
import Verif.Props.C37
import Verif.Props.C38
/-!
# Gates, means and percentiles of energies known up to a factor and an absolute error
-/

namespace Verif
open Spec Fl
variable {m : Libm F64} {bs : BSearch} {t : Target}

/-- The energy `y` agrees with the power `P` up to a factor `κ` and an absolute error `θ`. -/
def Spec.Rough (κ θ : ℝ) (y : F64) (P : ℝ) : Prop := y.Finite ∧ y.Nonneg ∧ 0 ≤ P ∧ Mixed κ θ y.value P

theorem rough_mem {κ θ : ℝ} {l : List F64} {A : List ℝ} (h : List.Forall₂ (Rough κ θ) l A) :
    (∀ x ∈ l, x.Finite ∧ x.Nonneg) ∧ ∀ P ∈ A, 0 ≤ P := by
  induction h with
  | nil => simp
  | cons h1 _ ih =>
    constructor
    · intro x hx
      rcases List.mem_cons.1 hx with rfl | hx
      · exact ⟨h1.1, h1.2.1⟩
      · exact ih.1 x hx
    · intro x hx
      rcases List.mem_cons.1 hx with rfl | hx
      · exact h1.2.2.1
      · exact ih.2 x hx

theorem rough_values {κ θ : ℝ} {l : List F64} {A : List ℝ} (h : List.Forall₂ (Rough κ θ) l A) :
    List.Forall₂ (Mixed κ θ) (l.map Fl.value) A := by
  rw [List.forall₂_map_left_iff]
  exact h.imp fun _ _ h => h.2.2.2

theorem values_nonneg {l : List F64} (h : ∀ x ∈ l, x.Finite ∧ x.Nonneg) : 0 ≤ (l.map Fl.value).sum :=
  List.sum_nonneg fun y hy => by
    obtain ⟨z, hz, rfl⟩ := List.mem_map.1 hy
    exact (h z hz).2.value_nonneg

/-- The same elements pass a gate and an approximation of it. -/
theorem rough_gate {κ κg θ : ℝ} (hκ : 1 ≤ κ) (hg : 1 ≤ κg) (hθ : 0 ≤ θ) {l : List F64} {A : List ℝ}
    (h : List.Forall₂ (Rough κ θ) l A) {g : F64} (gf : g.Finite) {Γ : ℝ} (hΓ : 0 ≤ Γ) (hgate : Mixed κg θ g.value Γ)
    (hap : ∀ P ∈ A, Apart (κ * κg) (2 * θ) P Γ) :
    List.Forall₂ (Rough κ θ) (l.filter fun x => Fl.le g x) (A.filter fun P => Γ ≤ P) ∧
    List.Forall₂ (Rough κ θ) (l.filter fun x => !Fl.lt x g) (A.filter fun P => Γ ≤ P) := by
  have key : ∀ x P, P ∈ A → Rough κ θ x P → Fl.le g x = decide (Γ ≤ P) ∧ (!Fl.lt x g) = decide (Γ ≤ P) := by
    intro x P hP hx
    obtain ⟨xf, -, P0, hm⟩ := hx
    obtain ⟨k1, k2⟩ := le_iff_value gf xf
    rcases gate_side hκ hg hθ P0 hΓ hm hgate (hap P hP) with ⟨a, b⟩ | ⟨a, b⟩
    · obtain ⟨c1, c2⟩ := k1 b
      rw [decide_eq_true a, c1, c2]
      exact ⟨rfl, rfl⟩
    · obtain ⟨c1, c2⟩ := k2 b
      rw [decide_eq_false (not_le.2 a), c1, c2]
      exact ⟨rfl, rfl⟩
  exact ⟨forall₂_filter h fun x P hP hx => (key x P hP hx).1, forall₂_filter h fun x P hP hx => (key x P hP hx).2⟩

/-- Rounding of a positive quantity, as a factor. -/
theorem near_mixed {k : Nat} (hk : k ≤ 2 ^ 42) {x X : ℝ} (hX : 1 / 10 ^ 10 ≤ X) (h : Near Fmt.b64 k (k * eta Fmt.b64) x X) :
    Mixed (1 + (k + 1) / 2 ^ 51) 0 x X := by
  have hmb := b64_ok.1
  have e0 := (eta_pos Fmt.b64).le
  have e1 := eta64
  have kR : (k : ℝ) ≤ 2 ^ 42 := by exact_mod_cast hk
  have k0 : (0 : ℝ) ≤ k := by positivity
  have g1 := grow_pow_le hmb (n := k) (by rw [eps64]; linarith)
  rw [eps64] at g1
  have g0 : 1 ≤ grow Fmt.b64 ^ k := one_le_pow₀ (one_le_grow hmb)
  obtain ⟨h1, h2⟩ := h
  generalize grow Fmt.b64 ^ k = G at *
  have hh : (k : ℝ) * eta Fmt.b64 ≤ 1 / 2 ^ 100 * X := by
    have : (k : ℝ) * eta Fmt.b64 ≤ 2 ^ 42 * (1 / 2 ^ 200) := mul_le_mul kR e1 e0 (by positivity)
    norm_num at this hX ⊢
    linarith
  have h0 : (0 : ℝ) ≤ k * eta Fmt.b64 := by positivity
  generalize (k : ℝ) * eta Fmt.b64 = h at *
  have X0 : 0 < X := lt_of_lt_of_le (by positivity) hX
  have c1 : 2 * (k : ℝ) * (1 / 2 ^ 53) = k / 2 ^ 52 := by ring
  rw [c1] at g1
  have κ0 : (0 : ℝ) ≤ k / 2 ^ 52 := by positivity
  have κ1 : (k : ℝ) / 2 ^ 52 ≤ 1 / 2 ^ 10 := by
    rw [div_le_iff₀ (by positivity)]; norm_num at kR ⊢; linarith
  have c2 : ((k : ℝ) + 1) / 2 ^ 51 = 2 * (k / 2 ^ 52) + 1 / 2 ^ 51 := by ring
  rw [Mixed, c2, add_zero, add_zero]
  generalize (k : ℝ) / 2 ^ 52 = κ at *
  constructor
  · have a1 : G * (X + h) ≤ (1 + κ) * (X + 1 / 2 ^ 100 * X) :=
      mul_le_mul g1 (by linarith) (by linarith) (by linarith)
    have a2 : κ * X ≤ 1 / 2 ^ 10 * X := mul_le_mul_of_nonneg_right κ1 X0.le
    have a3 : 0 ≤ κ * X := by positivity
    norm_num at *
    nlinarith
  · have b1 : X ≤ (1 + κ) * (x + h) := by
      have : 0 ≤ x + h := by
        by_contra hc
        rw [not_le] at hc
        nlinarith
      exact h2.trans (mul_le_mul_of_nonneg_right g1 this)
    have b3 : (1 + κ) * h ≤ 2 * (1 / 2 ^ 100 * X) := mul_le_mul (by linarith) hh h0 (by norm_num)
    have b4 : (1 - 2 * (1 / 2 ^ 100)) * X ≤ (1 + κ) * x := by nlinarith
    have x0 : 0 < x := by
      by_contra hc
      rw [_root_.not_lt] at hc
      have : (1 + κ) * x ≤ 0 := mul_nonpos_of_nonneg_of_nonpos (by linarith) hc
      norm_num at b4
      nlinarith
    have b5 : 0 ≤ κ * x := by positivity
    have b6 : κ * x ≤ 1 / 2 ^ 10 * x := mul_le_mul_of_nonneg_right κ1 x0.le
    norm_num at *
    nlinarith

/-- A computed sum divided by a number of elements. -/
theorem quotient_near {T : F64} {S : ℝ} {k n : Nat} (hT : T.Finite) (hn : T.Nonneg) (S0 : 0 ≤ S)
    (h : Near Fmt.b64 k (k * eta Fmt.b64) T.value S) (hk : k ≤ 2 ^ 41) (hS : S ≤ 2 ^ 240) (n0 : 0 < n)
    (n1 : n ≤ 2 ^ 41) :
    (Fl.div T (Fl.ofInt Fmt.b64 (n : Int))).Finite ∧ (Fl.div T (Fl.ofInt Fmt.b64 (n : Int))).Nonneg ∧
    Near Fmt.b64 (k + 1) ((k + 1 : Nat) * eta Fmt.b64) (Fl.div T (Fl.ofInt Fmt.b64 (n : Int))).value (S / n) := by
  have hmb := b64_ok.1
  have e0 := (eta_pos Fmt.b64).le
  have hN : (0 : ℝ) < n := by exact_mod_cast n0
  have n1R : (1 : ℝ) ≤ n := by exact_mod_cast n0
  obtain ⟨d1, d2⟩ := value_ofInt Fmt.ok64 (n := n) (by have : Fmt.b64.mb = 52 := rfl; rw [this]; omega)
  obtain ⟨j, hj, jN, j0, j1⟩ := Fl.ofInt_fin (n := n) n0.ne' (by omega)
  generalize Fl.ofInt Fmt.b64 (n : Int) = N at *
  have T0 := hn.value_nonneg
  have g := grow64 (n := k) (by omega)
  have kR : (k : ℝ) ≤ 2 ^ 41 := by exact_mod_cast hk
  have Tb : T.value ≤ 2 * (2 ^ 240 + 1) := by
    refine h.1.trans ?_
    have a1 : (k : ℝ) * eta Fmt.b64 ≤ 1 := by
      calc (k : ℝ) * eta Fmt.b64 ≤ 2 ^ 41 * (1 / 2 ^ 200) := mul_le_mul kR eta64 e0 (by positivity)
        _ ≤ 1 := by norm_num
    have : 0 ≤ S + k * eta Fmt.b64 := by positivity
    calc _ ≤ 2 * (S + k * eta Fmt.b64) := mul_le_mul_of_nonneg_right g this
      _ ≤ _ := by linarith
  have df : (Fl.div T N).Finite := by
    refine div_finite Fmt.ok64 hT d2 (by rw [d1]; exact hN.ne') ?_
    rw [d1, abs_of_nonneg (by positivity)]
    have : T.value / n ≤ T.value := div_le_self T0 n1R
    have ht := top64
    norm_num at ht Tb ⊢
    linarith
  have dn : (Fl.div T N).Nonneg := Fl.Nonneg.div_fin hn jN j0 j1
  refine ⟨df, dn, ?_⟩
  have m1 : Near Fmt.b64 1 (eta Fmt.b64) (Fl.div T N).value (T.value / n) := by
    have := div_err hmb hT d2 (by rw [d1]; exact hN.ne') df
    rw [d1] at this
    exact Near.round hmb dn.value_nonneg this
  have m2 : Near Fmt.b64 k (k * eta Fmt.b64) (T.value / n) (S / n) := by
    have := h.scale (c := 1 / (n : ℝ)) (by positivity)
    have h2 : Near Fmt.b64 k (1 / (n : ℝ) * (k * eta Fmt.b64)) (T.value / n) (S / n) := by
      convert this using 1 <;> field_simp
    refine h2.mono hmb le_rfl ?_ (by positivity) (by positivity) (by positivity)
    rw [one_div, inv_mul_le_iff₀ hN]
    nlinarith [mul_nonneg (by positivity : (0:ℝ) ≤ k) e0]
  have := m1.trans hmb e0 (by positivity) m2
  convert this using 1
  · omega
  · push_cast; ring

/-- A level a fixed number of decibels below a mean. -/
theorem gate_mixed {κ θ : ℝ} {M τ : F64} {X c : ℝ} (h : Mixed κ θ M.value X) (hκ : 0 ≤ κ) (hθ : 0 ≤ θ)
    (hM : M.Finite) (hMl : 1 / 10 ^ 8 ≤ M.value) (hMu : M.value ≤ 2 ^ 245) (hτ : τ.Finite)
    (c0 : 1 / 100 ≤ c) (c1 : c ≤ 1) (hc : |τ.value - c| ≤ 1 / 2 ^ 50) :
    (Fl.mul M τ).Finite ∧ Mixed (κ * (1 + 1 / 2 ^ 42)) θ (Fl.mul M τ).value (c * X) := by
  have hmb := b64_ok.1
  obtain ⟨t1, t2⟩ := abs_le.1 hc
  have M0 : 0 < M.value := lt_of_lt_of_le (by positivity) hMl
  have τ0 : 0 ≤ τ.value := by norm_num at t1 c0 ⊢; linarith
  have τ1 : τ.value ≤ 2 := by norm_num at t2 ⊢; linarith
  have p0 : 0 ≤ M.value * τ.value := by positivity
  have gf : (Fl.mul M τ).Finite := by
    refine mul_finite Fmt.ok64 hM hτ ?_
    rw [abs_of_nonneg p0]
    have : M.value * τ.value ≤ M.value * 2 := mul_le_mul_of_nonneg_left τ1 M0.le
    have tp := top64
    norm_num at tp hMu ⊢
    linarith
  refine ⟨gf, (h.scale hκ hθ (by linarith) c1).trans ?_ hκ (by norm_num) hθ⟩
  have ge := round_exact hmb (mul_err hmb hM hτ gf)
  rw [abs_of_nonneg p0, eps64] at ge
  have d1 : M.value * τ.value ≤ M.value * (c + 1 / 2 ^ 50) := mul_le_mul_of_nonneg_left (by linarith) M0.le
  have d2 : M.value * (c - 1 / 2 ^ 50) ≤ M.value * τ.value := mul_le_mul_of_nonneg_left (by linarith) M0.le
  have d3 : M.value * (1 / 100) ≤ M.value * c := mul_le_mul_of_nonneg_left c0 M0.le
  have e1 : 2 * eta Fmt.b64 ≤ 1 / 2 ^ 100 * M.value := by
    have := eta64
    norm_num at this hMl ⊢
    linarith
  obtain ⟨g1, g2⟩ := abs_le.1 ge
  generalize (Fl.mul M τ).value = g at *
  generalize M.value * τ.value = p at *
  rw [mul_add] at d1
  rw [mul_sub] at d2
  rw [Mixed, add_zero, add_zero, _root_.mul_comm c M.value]
  generalize M.value * c = q at *
  norm_num at *
  constructor <;> linarith

/-! ## Histograms -/

theorem expand_cons (v : Nat → F64) (c : Nat → Nat) (i : Nat) (bins : List Nat) :
    ((expand v c (i :: bins)).map Fl.value).sum = c i * (v i).value + ((expand v c bins).map Fl.value).sum := by
  rw [expand, List.flatMap_cons, List.map_append, List.sum_append, List.map_replicate, List.sum_replicate, nsmul_eq_mul]
  rfl

theorem binTotal_step (c : Nat → Nat) (bins : List Nat) : ∀ (n : Nat) (s : F64) (S : ℝ), 0 ≤ S → s.Finite → s.Nonneg →
    Near Fmt.b64 n (n * eta Fmt.b64) s.value S → (∀ i ∈ bins, i < 1000) → (∀ i ∈ bins, c i ≤ 2 ^ 41) →
    n + 2 * bins.length ≤ 2 ^ 40 → S + ((expand centre c bins).map Fl.value).sum ≤ 2 ^ 240 →
    let T := bins.foldl (fun s i => Fl.add s (Fl.mul (Fl.ofInt Fmt.b64 (c i : Int)) (centre i))) s
    T.Finite ∧ T.Nonneg ∧ Near Fmt.b64 (n + 2 * bins.length) ((n + 2 * bins.length : Nat) * eta Fmt.b64) T.value
      (S + ((expand centre c bins).map Fl.value).sum) := by
  have hmb := b64_ok.1
  have e0 := (eta_pos Fmt.b64).le
  have e1 := eta64
  induction bins with
  | nil =>
    intro n s S hS hs hn hN _ _ _ _
    have e : ((expand centre c []).map Fl.value).sum = 0 := rfl
    rw [e, add_zero, List.length_nil, Nat.mul_zero, Nat.add_zero]
    exact ⟨hs, hn, hN⟩
  | cons i bins ih =>
    intro n s S hS hs hn hN hb hc hlen hsum
    rw [expand_cons] at hsum
    rw [List.length_cons] at hlen
    have ci := hc i (List.mem_cons_self ..)
    obtain ⟨d1, d2⟩ := value_ofInt Fmt.ok64 (n := c i) (by have : Fmt.b64.mb = 52 := rfl; rw [this]; omega)
    obtain ⟨k, hk, ek, k0, k1⟩ := Fl.centre_pos (hb i (List.mem_cons_self ..))
    have cf : (centre i).Finite := by rw [ek]; exact finite_num.2 k1
    have cn : (centre i).Nonneg := by rw [ek]; rfl
    have c0 := cn.value_nonneg
    have rest : 0 ≤ ((expand centre c bins).map Fl.value).sum := List.sum_nonneg fun y hy => by
      obtain ⟨z, hz, rfl⟩ := List.mem_map.1 hy
      obtain ⟨j, hj, hz⟩ := List.mem_flatMap.1 hz
      obtain ⟨-, rfl⟩ := List.mem_replicate.1 hz
      obtain ⟨k, hk, ek, k0, k1⟩ := Fl.centre_pos (hb j (List.mem_cons_of_mem _ hj))
      have cn : (centre j).Nonneg := by rw [ek]; rfl
      exact cn.value_nonneg
    have y0 : 0 ≤ (c i : ℝ) * (centre i).value := mul_nonneg (Nat.cast_nonneg _) c0
    have mf : (Fl.mul (Fl.ofInt Fmt.b64 (c i : Int)) (centre i)).Finite := by
      refine mul_finite Fmt.ok64 d2 cf ?_
      rw [d1, abs_of_nonneg y0]
      have ht := top64
      norm_num at ht hsum ⊢
      linarith
    have mn : (Fl.mul (Fl.ofInt Fmt.b64 (c i : Int)) (centre i)).Nonneg :=
      Fl.Nonneg.mul_fin (Fl.ofInt_nonneg _) ek k0 k1
    have m1 : Near Fmt.b64 1 (eta Fmt.b64) (Fl.mul (Fl.ofInt Fmt.b64 (c i : Int)) (centre i)).value
        (c i * (centre i).value) := by
      have := mul_err hmb d2 cf mf
      rw [d1] at this
      exact Near.round hmb mn.value_nonneg this
    rw [List.foldl_cons, expand_cons, List.length_cons]
    generalize Fl.mul (Fl.ofInt Fmt.b64 (c i : Int)) (centre i) = x at *
    generalize (c i : ℝ) * (centre i).value = X at *
    have x0 := mn.value_nonneg
    have s0 := hn.value_nonneg
    have m2 : Near Fmt.b64 (n + 1) (n * eta Fmt.b64 + eta Fmt.b64) (s.value + x.value) (S + X) :=
      (hN.mono hmb (by omega) le_rfl (by positivity) s0 hS).add (m1.mono hmb (by omega) le_rfl e0 x0 y0)
    have sv : s.value + x.value ≤ 2 * (2 ^ 240 + 1) := by
      refine m2.1.trans ?_
      have g := grow64 (n := n + 1) (by omega)
      have hn50 : ((n : ℝ) + 1) ≤ 2 ^ 41 := by
        have : n + 1 ≤ 2 ^ 41 := by omega
        exact_mod_cast this
      have hne : n * eta Fmt.b64 + eta Fmt.b64 ≤ 1 := by
        calc n * eta Fmt.b64 + eta Fmt.b64 = ((n : ℝ) + 1) * eta Fmt.b64 := by ring
          _ ≤ 2 ^ 41 * (1 / 2 ^ 200) := mul_le_mul hn50 e1 e0 (by positivity)
          _ ≤ 1 := by norm_num
      have : 0 ≤ S + X + (n * eta Fmt.b64 + eta Fmt.b64) := by positivity
      calc _ ≤ 2 * (S + X + (n * eta Fmt.b64 + eta Fmt.b64)) := mul_le_mul_of_nonneg_right g this
        _ ≤ _ := by linarith
    have af : (Fl.add s x).Finite := by
      refine add_finite Fmt.ok64 hs mf ?_
      rw [abs_of_nonneg (by linarith)]
      have ht := top64
      norm_num at ht sv ⊢
      linarith
    have an : (Fl.add s x).Nonneg := hn.add hmb mn
    have m3 : Near Fmt.b64 1 (eta Fmt.b64) (Fl.add s x).value (s.value + x.value) :=
      Near.round hmb an.value_nonneg (add_err hmb hs mf af)
    have m4 := m3.trans hmb e0 (by positivity) m2
    have := ih (n + 2) (Fl.add s x) (S + X) (by linarith) af an
      (by convert m4 using 1 <;> first | omega | (push_cast; ring))
      (fun y hy => hb y (List.mem_cons_of_mem _ hy)) (fun y hy => hc y (List.mem_cons_of_mem _ hy)) (by omega)
      (by linarith)
    refine ⟨this.1, this.2.1, ?_⟩
    convert this.2.2 using 1
    · omega
    · congr 2; omega
    · ring

/-- Rounding of the sum over a histogram. -/
theorem binTotal_near {c : Nat → Nat} {bins : List Nat} (hb : ∀ i ∈ bins, i < 1000) (hc : ∀ i ∈ bins, c i ≤ 2 ^ 41)
    (hlen : bins.length ≤ 1000) (hsum : ((expand centre c bins).map Fl.value).sum ≤ 2 ^ 240) :
    (binTotal (Fl.arith Fmt.b64) centre c bins).Finite ∧ (binTotal (Fl.arith Fmt.b64) centre c bins).Nonneg ∧
    Near Fmt.b64 2000 ((2000 : Nat) * eta Fmt.b64) (binTotal (Fl.arith Fmt.b64) centre c bins).value
      ((expand centre c bins).map Fl.value).sum := by
  have h := binTotal_step c bins 0 (Fl.zero false) 0 le_rfl zero64_finite rfl
    (by rw [value_zero]; simpa using Near.refl (φ := Fmt.b64) 0) hb hc (by omega) (by simpa using hsum)
  obtain ⟨h1, h2, h3⟩ := h
  rw [_root_.zero_add (List.sum _)] at h3
  refine ⟨h1, h2, ?_⟩
  have e0 := (eta_pos Fmt.b64).le
  have s0 : 0 ≤ ((expand centre c bins).map Fl.value).sum := List.sum_nonneg fun y hy => by
    obtain ⟨z, hz, rfl⟩ := List.mem_map.1 hy
    obtain ⟨j, hj, hz⟩ := List.mem_flatMap.1 hz
    obtain ⟨-, rfl⟩ := List.mem_replicate.1 hz
    obtain ⟨k, hk, ek, k0, k1⟩ := Fl.centre_pos (hb j hj)
    have cn : (centre j).Nonneg := by rw [ek]; rfl
    exact cn.value_nonneg
  have hl : 0 + 2 * bins.length ≤ 2000 := by omega
  have hl' : ((0 + 2 * bins.length : Nat) : ℝ) ≤ ((2000 : Nat) : ℝ) := Nat.cast_le.2 hl
  generalize 0 + 2 * bins.length = n at *
  exact h3.mono b64_ok.1 hl (mul_le_mul_of_nonneg_right hl' e0) (by positivity) h2.value_nonneg s0

/-! ## Percentiles -/

theorem lufsD_near {δ : ℝ} (hδ : δ ≤ 1) (hm : LogWithin m δ) {x : F64} (hx : x.Finite) (h0 : 0 < x.value) :
    (lufsD (ieeeEnv m bs t) x).Finite ∧
      |(lufsD (ieeeEnv m bs t) x).value - lufs x.value| ≤ 10 * δ + 1 / 10 ^ 12 ∧ |lufs x.value| ≤ 4001 := by
  have e : lufsD (ieeeEnv m bs t) x = level (ieeeEnv m bs t) x := by
    unfold level
    rw [show (ieeeEnv m bs t).f64.le x (ieeeEnv m bs t).f64.zero = false from num_pos hx h0, if_neg (by simp)]
    rfl
  obtain ⟨h1, h2⟩ := level_near (bs := bs) (t := t) hδ hm hx h0
  rw [e]
  refine ⟨h1, h2, ?_⟩
  have l3 := abs_le.1 (logb_value hx h0)
  unfold lufs
  rw [abs_le]
  constructor <;> linarith [l3.1, l3.2]

/-- The difference of two levels. -/
theorem lufsD_sub {δ : ℝ} (hδ : δ ≤ 1) (hm : LogWithin m δ) {x y : F64} (hx : x.Finite) (h0 : 0 < x.value)
    (hy : y.Finite) (h1 : 0 < y.value) :
    (Fl.sub (lufsD (ieeeEnv m bs t) x) (lufsD (ieeeEnv m bs t) y)).Finite ∧
      |(Fl.sub (lufsD (ieeeEnv m bs t) x) (lufsD (ieeeEnv m bs t) y)).value - (lufs x.value - lufs y.value)| ≤
        20 * δ + 1 / 10 ^ 11 := by
  obtain ⟨a1, a2, a3⟩ := lufsD_near (bs := bs) (t := t) hδ hm hx h0
  obtain ⟨b1, b2, b3⟩ := lufsD_near (bs := bs) (t := t) hδ hm hy h1
  generalize lufsD (ieeeEnv m bs t) x = X at *
  generalize lufsD (ieeeEnv m bs t) y = Y at *
  generalize lufs x.value = a at *
  generalize lufs y.value = b at *
  have hmb := b64_ok.1
  have d : |X.value - Y.value - (a - b)| ≤ 20 * δ + 2 / 10 ^ 12 := by
    rw [sub_sub_sub_comm]
    refine (abs_sub _ _).trans ?_
    linarith
  have db : |X.value - Y.value| ≤ 8100 := by
    have k1 := abs_sub_abs_le_abs_sub (X.value - Y.value) (a - b)
    have k2 := abs_sub a b
    norm_num at d ⊢
    linarith
  have f : (Fl.sub X Y).Finite := sub_finite Fmt.ok64 a1 b1 (db.trans (_root_.le_trans (by norm_num) top64))
  refine ⟨f, ?_⟩
  have r := round_exact hmb (sub_err hmb a1 b1 f)
  rw [eps64] at r
  have e1 := eta64
  have tri := abs_sub_le (Fl.sub X Y).value (X.value - Y.value) (a - b)
  norm_num at r d e1 ⊢
  linarith

/-- Any element of the sorted list is an element. -/
theorem percentileR_mem {l : List ℝ} (hne : l ≠ []) {num den : Nat} (hd : 0 < den) (h : num < den) :
    percentileR l num den ∈ l := by
  have hl : nearestRank l.length num den < (sortR l).length := by
    rw [sortR, List.length_insertionSort]
    exact nearestRank_lt (List.length_pos_iff.2 hne) hd h
  unfold percentileR
  rw [List.getD_eq_getElem?_getD, List.getElem?_eq_getElem hl, Option.getD_some]
  exact (List.mem_insertionSort _).1 (List.getElem_mem hl)

theorem percentileR_mono {l : List ℝ} (hne : l ≠ []) {n1 n2 den : Nat} (hd : 0 < den) (h1 : n1 ≤ n2) (h : n2 < den) :
    percentileR l n1 den ≤ percentileR l n2 den := by
  have l1 : nearestRank l.length n2 den < (sortR l).length := by
    rw [sortR, List.length_insertionSort]
    exact nearestRank_lt (List.length_pos_iff.2 hne) hd h
  have l2 : nearestRank l.length n1 den ≤ nearestRank l.length n2 den := by
    unfold nearestRank
    exact Nat.div_le_div_right (Nat.add_le_add_right (Nat.mul_le_mul_right _ (Nat.mul_le_mul_left _ h1)) _)
  have hs : (sortR l).Pairwise (· ≤ ·) := List.pairwise_insertionSort (· ≤ ·) l
  unfold percentileR
  rw [List.getD_eq_getElem?_getD, List.getElem?_eq_getElem (by omega), Option.getD_some, List.getD_eq_getElem?_getD,
    List.getElem?_eq_getElem l1, Option.getD_some]
  rcases Nat.eq_or_lt_of_le l2 with e | e
  · exact le_of_eq (by congr 1)
  · exact List.pairwise_iff_getElem.1 hs _ _ (by omega) l1 e

/-- The spread between two percentiles of energies known up to a factor and an absolute error. -/
theorem spread_near {δ : ℝ} (hδ : δ ≤ 1) (hm : LogWithin m δ) {κ κg θ : ℝ} (hκ : 1 ≤ κ) (hg : 1 ≤ κg) (hθ : 0 ≤ θ)
    {ys : List F64} {A : List ℝ} (h : List.Forall₂ (Rough κ θ) ys A) {L : List F64} (hp : L.Perm ys) (hs : Ascending L)
    {g : F64} (gf : g.Finite) {Γ : ℝ} (hΓ : 0 < Γ) (hgate : Mixed κg θ g.value Γ)
    (hap : ∀ P ∈ A, Apart (κ * κg) (2 * θ) P Γ) (hne : A.filter (fun P => Γ ≤ P) ≠ []) :
    let v := spread (ieeeEnv m bs t) (notBelow (ieeeEnv m bs t).f64 g L)
    let B := A.filter fun P => Γ ≤ P
    v.Finite ∧ |v.value - (lufs (percentileR B 95 100) - lufs (percentileR B 10 100))| ≤
      20 * Real.logb 10 κ + 20 * (κ * θ / percentileR B 10 100) + 20 * δ + 1 / 10 ^ 11 := by
  intro v B
  have hB := (rough_gate hκ hg hθ h gf hΓ.le hgate hap).2
  have hG : (notBelow (ieeeEnv m bs t).f64 g L).Perm (ys.filter fun x => !Fl.lt x g) := hp.filter _
  have hGs : Ascending (notBelow (ieeeEnv m bs t).f64 g L) := List.Pairwise.sublist List.filter_sublist hs
  change List.Forall₂ (Rough κ θ) _ B at hB
  change B ≠ [] at hne
  have hmix := sorted_mixed (by linarith) (rough_values hB) (hG.map Fl.value)
    (by rw [List.pairwise_map]; exact hGs.imp fun h => value_fle h)
  have hBmem : ∀ P ∈ B, Γ ≤ P ∧ 2 * (κ * θ) ≤ P := by
    intro P hP
    obtain ⟨hPA, hPΓ⟩ := List.mem_filter.1 hP
    have hPΓ := of_decide_eq_true hPΓ
    refine ⟨hPΓ, ?_⟩
    have κ0 : 0 < κ := by linarith
    have kk : κ ≤ κ * κg := by nlinarith
    have kθ : κ * θ ≤ κ * κg * θ := mul_le_mul_of_nonneg_right kk hθ
    have kP : 0 ≤ (κ * κg - 1) * P := mul_nonneg (by linarith) (by linarith)
    have kΓ : 0 ≤ κ * κg * Γ := by positivity
    have kθ0 : 0 ≤ κ * κg * θ := by positivity
    rcases hap P hPA with k | k
    · nlinarith
    · nlinarith
  have hmem : ∀ x ∈ notBelow (ieeeEnv m bs t).f64 g L, x.Finite := fun x hx =>
    ((rough_mem hB).1 x (hG.mem_iff.1 hx)).1
  have hlen : (notBelow (ieeeEnv m bs t).f64 g L).length = B.length := by rw [hG.length_eq, hB.length_eq]
  have hv : v = spread (ieeeEnv m bs t) (notBelow (ieeeEnv m bs t).f64 g L) := rfl
  generalize notBelow (ieeeEnv m bs t).f64 g L = G at *
  have pos : 0 < B.length := List.length_pos_iff.2 hne
  have get : ∀ num, num < 100 → ∃ x, G[nearestRank G.length num 100]? = some x ∧ x.Finite ∧
      Mixed κ θ x.value (percentileR B num 100) ∧ percentileR B num 100 ∈ B := by
    intro num hnum
    have l1 : nearestRank B.length num 100 < B.length := nearestRank_lt pos (by norm_num) hnum
    have l2 : nearestRank G.length num 100 < G.length := by rw [hlen]; exact l1
    refine ⟨_, List.getElem?_eq_getElem l2, hmem _ (List.getElem_mem l2), ?_, percentileR_mem hne (by norm_num) hnum⟩
    have l3 : nearestRank B.length num 100 < (sortR B).length := by
      rw [sortR, List.length_insertionSort]; exact l1
    have := hmix.get (i := nearestRank B.length num 100) (by rw [List.length_map, hlen]; exact l1) l3
    unfold percentileR
    rw [List.getD_eq_getElem?_getD, List.getElem?_eq_getElem l3, Option.getD_some]
    simp only [List.get_eq_getElem, List.getElem_map] at this
    simp only [hlen]
    exact this
  obtain ⟨x, x1, x2, x3, x4⟩ := get 95 (by norm_num)
  obtain ⟨y, y1, y2, y3, y4⟩ := get 10 (by norm_num)
  have ev : v = Fl.sub (lufsD (ieeeEnv m bs t) x) (lufsD (ieeeEnv m bs t) y) := by
    rw [hv, spread, x1, y1]
    rfl
  obtain ⟨p1, p2⟩ := hBmem _ x4
  obtain ⟨q1, q2⟩ := hBmem _ y4
  obtain ⟨u1, u2⟩ := lufs_mixed hκ hθ (by linarith) p2 x3
  obtain ⟨w1, w2⟩ := lufs_mixed hκ hθ (by linarith) q2 y3
  obtain ⟨z1, z2⟩ := lufsD_sub (bs := bs) (t := t) hδ hm x2 u1 y2 w1
  rw [ev]
  refine ⟨z1, ?_⟩
  have hle : percentileR B 10 100 ≤ percentileR B 95 100 := percentileR_mono hne (by norm_num) (by norm_num) (by norm_num)
  have k0 : 0 ≤ κ * θ := mul_nonneg (by linarith) hθ
  have hdiv : κ * θ / percentileR B 95 100 ≤ κ * θ / percentileR B 10 100 :=
    div_le_div_of_nonneg_left k0 (by linarith) hle
  obtain ⟨u3, u4⟩ := abs_le.1 u2
  obtain ⟨w3, w4⟩ := abs_le.1 w2
  obtain ⟨z3, z4⟩ := abs_le.1 z2
  rw [abs_le]
  constructor <;> linarith

/-! ## Means and gates -/

/-- Away from the absolute gate the same blocks pass it. -/
theorem loud_close {η θ : ℝ} {q : List F64} {Ps : List ℝ} (h : List.Forall₂ (Close η θ) q Ps) (hη : 1 / 2 ^ 40 ≤ η)
    (hη' : η ≤ 1 / 100) (hθ : 0 ≤ θ) (h70 : ∀ P ∈ Ps, Apart (1 + 2 * η) (2 * θ) P (energyOf (-70))) :
    List.Forall₂ (Close η θ) (ungated (ieeeEnv m bs t) (bnd 0) q) (loud Ps) := by
  obtain ⟨bf, b1, b2⟩ := bnd0_finite
  have g0 := gate70.1
  have gp : 0 < energyOf (-70) := lt_of_lt_of_le (by norm_num) g0
  have η0 : 0 ≤ η := _root_.le_trans (by norm_num) hη
  refine forall₂_filter h fun x P hP hx => ?_
  have hmix := hx.mixed η0 hη' hθ
  obtain ⟨xf, -, P0, -⟩ := hx
  have hgate : Mixed (1 + 1 / 10 ^ 13) θ (bnd 0).value (energyOf (-70)) := by
    constructor <;> nlinarith
  have hap : Apart ((1 + 11 / 10 * η) * (1 + 1 / 10 ^ 13)) (2 * θ) P (energyOf (-70)) := by
    have k : (1 + 11 / 10 * η) * (1 + 1 / 10 ^ 13) ≤ 1 + 2 * η := by norm_num at hη ⊢; linarith
    rcases h70 P hP with c | c
    · exact .inl (lt_of_le_of_lt (mul_le_mul_of_nonneg_right k (by linarith)) c)
    · exact .inr (lt_of_le_of_lt (mul_le_mul_of_nonneg_right k (by linarith)) c)
  obtain ⟨k1, k2⟩ := le_iff_value bf xf
  show (!Fl.lt x (bnd 0)) = decide _
  rcases gate_side (by linarith) (by norm_num) hθ P0 gp.le hmix hgate hap with ⟨a, b⟩ | ⟨a, b⟩
  · rw [(k1 b).2, decide_eq_true a]; rfl
  · rw [(k2 b).2, decide_eq_false (not_le.2 a)]; rfl

/-- The mean of the blocks above the absolute gate is well above the uncertainty. -/
theorem loud_mean {η θ : ℝ} {Ps : List ℝ} (η0 : 0 ≤ η) (hθ : 0 ≤ θ)
    (h70 : ∀ P ∈ Ps, Apart (1 + 2 * η) (2 * θ) P (energyOf (-70))) {l : List ℝ} (hl : ∀ P ∈ l, P ∈ loud Ps)
    (hne : l ≠ []) : 1 / 10 ^ 7 ≤ meanR l ∧ 2 * θ ≤ meanR l := by
  have g0 := gate70.1
  have gp : 0 < energyOf (-70) := lt_of_lt_of_le (by norm_num) g0
  refine ⟨g0.trans (meanR_ge hne fun P hP => (loud_mem (hl P hP)).2), meanR_ge hne fun P hP => ?_⟩
  obtain ⟨p1, p2⟩ := loud_mem (hl P hP)
  rcases h70 P p1 with k | k
  · have : 0 ≤ 2 * η * (energyOf (-70) + 2 * θ) := by positivity
    nlinarith
  · have : 0 ≤ 2 * η * (P + 2 * θ) := mul_nonneg (by positivity) (by linarith)
    nlinarith

/-- The computed mean. -/
theorem mean_rough {κ θ : ℝ} (hκ : 1 ≤ κ) (hκ' : κ ≤ 11 / 10) (hθ : 0 ≤ θ) {ys : List F64} {A : List ℝ}
    (h : List.Forall₂ (Rough κ θ) ys A) (hne : A ≠ []) (hM : 1 / 10 ^ 7 ≤ meanR A) (hMθ : 2 * θ ≤ meanR A)
    (htop : ∀ P ∈ A, P + θ ≤ 2 ^ 150) {M : F64} (hn : M.Nonneg) {k : Nat} (hk : k ≤ 2 ^ 42)
    (hnear : Near Fmt.b64 k (k * eta Fmt.b64) M.value (meanR (ys.map Fl.value))) :
    Mixed (κ * (1 + (k + 1) / 2 ^ 51)) θ M.value (meanR A) ∧ 1 / 10 ^ 8 ≤ M.value ∧ M.value ≤ 2 ^ 245 := by
  have hm := mixed_mean (rough_values h) hne
  have hv : 1 / 10 ^ 7 / 4 ≤ meanR (ys.map Fl.value) := by
    have := hm.2
    have k1 : κ * (meanR (ys.map Fl.value) + θ) ≤ 11 / 10 * (meanR (ys.map Fl.value) + θ) :=
      mul_le_mul_of_nonneg_right hκ' (by
        have : 0 ≤ meanR (ys.map Fl.value) := by
          unfold meanR
          have := values_nonneg (rough_mem h).1
          positivity
        linarith)
    linarith
  have hx := near_mixed hk (by norm_num at hv ⊢; linarith) hnear
  have k0 : (0 : ℝ) ≤ (k + 1) / 2 ^ 51 := by positivity
  have k1 : ((k : ℝ) + 1) / 2 ^ 51 ≤ 1 / 100 := by
    rw [div_le_iff₀ (by positivity)]
    have : (k : ℝ) ≤ 2 ^ 42 := by exact_mod_cast hk
    linarith
  have hall := hm.trans hx (by linarith) (by linarith) hθ
  refine ⟨hall, ?_, ?_⟩
  · have := hx.2
    rw [add_zero] at this
    have x0 := hn.value_nonneg
    have : (1 + (↑k + 1) / 2 ^ 51) * M.value ≤ (1 + 1 / 100) * M.value := mul_le_mul_of_nonneg_right (by linarith) x0
    norm_num at hv ⊢
    linarith
  · have hsum : meanR A + θ ≤ 2 ^ 150 := by
      have n0 : (0 : ℝ) < A.length := by exact_mod_cast List.length_pos_iff.2 hne
      have := sum_le_mul (l := A) (b := 2 ^ 150 - θ) fun P hP => by linarith [htop P hP]
      have : meanR A ≤ 2 ^ 150 - θ := by
        unfold meanR
        rw [div_le_iff₀ n0, _root_.mul_comm]
        exact this
      linarith
    have a := hall.1
    have b : κ * (1 + (↑k + 1) / 2 ^ 51) ≤ 2 := by nlinarith
    have c : κ * (1 + (↑k + 1) / 2 ^ 51) * (meanR A + θ) ≤ 2 * 2 ^ 150 :=
      mul_le_mul b hsum (by linarith [show (0:ℝ) ≤ 1 / 10 ^ 7 by positivity]) (by norm_num)
    norm_num at a c ⊢
    linarith

/-- The computed mean of a list in any order. -/
theorem list_mean {ys L : List F64} {κ θ : ℝ} {A : List ℝ} (h : List.Forall₂ (Rough κ θ) ys A) (hne : A ≠ [])
    (hp : L.Perm ys) (hκ' : κ ≤ 11 / 10) (hlen : A.length ≤ 2 ^ 40) (hθ : 0 ≤ θ)
    (htop : ∀ P ∈ A, P + θ ≤ 2 ^ 150) :
    let M := mean (Fl.arith Fmt.b64) L
    M.Finite ∧ M.Nonneg ∧
      Near Fmt.b64 (A.length + 1) ((A.length + 1 : Nat) * eta Fmt.b64) M.value (meanR (ys.map Fl.value)) := by
  intro M
  have hmem : ∀ x ∈ L, x.Finite ∧ x.Nonneg := fun x hx => (rough_mem h).1 x (hp.mem_iff.1 hx)
  have hl : L.length = A.length := by rw [hp.length_eq, h.length_eq]
  have n0 : 0 < A.length := List.length_pos_iff.2 hne
  have es : (L.map Fl.value).sum = (ys.map Fl.value).sum := (hp.map _).sum_eq
  have hsum : (L.map Fl.value).sum ≤ 2 ^ 240 := by
    rw [es]
    have a := (mixed_sum (rough_values h)).1
    have b := sum_le_mul (l := A) (b := 2 ^ 150 - θ) fun P hP => by linarith [htop P hP]
    have c : (A.length : ℝ) ≤ 2 ^ 40 := by exact_mod_cast hlen
    have s0 : 0 ≤ A.sum + A.length * θ := by
      have := List.sum_nonneg (rough_mem h).2
      positivity
    have d : A.sum + A.length * θ ≤ 2 ^ 40 * 2 ^ 150 := by
      calc A.sum + A.length * θ ≤ A.length * 2 ^ 150 := by linarith
        _ ≤ _ := mul_le_mul_of_nonneg_right c (by positivity)
    have e : κ * (A.sum + A.length * θ) ≤ 11 / 10 * (2 ^ 40 * 2 ^ 150) := mul_le_mul hκ' d s0 (by norm_num)
    norm_num at a e ⊢
    linarith
  obtain ⟨t1, t2, t3⟩ := total_near hmem (by omega) hsum
  rw [hl] at t3
  have := quotient_near t1 t2 (values_nonneg hmem) t3 (by omega) hsum n0 (by omega)
  have e : M = Fl.div (total (Fl.arith Fmt.b64) L) (Fl.ofInt Fmt.b64 (A.length : Int)) := by
    show mean _ L = _
    unfold mean
    rw [arith_div, arith_ofInt, hl]
  rw [e]
  refine ⟨this.1, this.2.1, ?_⟩
  have e2 : meanR (ys.map Fl.value) = (L.map Fl.value).sum / (A.length : ℝ) := by
    unfold meanR
    rw [es, List.length_map, h.length_eq]
  rw [e2]
  exact this.2.2

theorem logb_small {z : ℝ} (h0 : 0 ≤ z) : 0 ≤ Real.logb 10 (1 + z) ∧ 2 * Real.logb 10 (1 + z) ≤ z := by
  have l10 := log_ten
  have h1 : 0 ≤ Real.log (1 + z) := Real.log_nonneg (by linarith)
  have h2 : Real.log (1 + z) ≤ z := by
    have := Real.log_le_sub_one_of_pos (x := 1 + z) (by linarith)
    linarith
  unfold Real.logb
  have p : 0 < Real.log 10 := Real.log_pos (by norm_num)
  refine ⟨by positivity, ?_⟩
  rw [mul_div_assoc', div_le_iff₀ p]
  nlinarith

end Verif
