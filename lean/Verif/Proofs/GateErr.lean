import Verif.Props.C51
import Verif.Props.C57
import Verif.Spec.RealGate
/-!
# Rounding of sums, means and gates over block energies
-/

namespace Verif
open Spec Fl
variable {m : Libm F64} {bs : BSearch} {t : Target}

theorem total_step (l : List F64) : ∀ (n : Nat) (s : F64) (S : ℝ), 0 ≤ S → s.Finite → s.Nonneg →
    Near Fmt.b64 n (n * eta Fmt.b64) s.value S → (∀ x ∈ l, x.Finite ∧ x.Nonneg) →
    n + l.length ≤ 2 ^ 50 → S + (l.map Fl.value).sum ≤ 2 ^ 240 →
    (l.foldl Fl.add s).Finite ∧ (l.foldl Fl.add s).Nonneg ∧
    Near Fmt.b64 (n + l.length) ((n + l.length) * eta Fmt.b64) (l.foldl Fl.add s).value (S + (l.map Fl.value).sum) := by
  have hmb := b64_ok.1
  have e0 := (eta_pos Fmt.b64).le
  have e1 := eta64
  induction l with
  | nil =>
    intro n s S hS hs hn hN _ _ _
    simpa using ⟨hs, hn, hN⟩
  | cons x l ih =>
    intro n s S hS hs hn hN hx hlen hsum
    obtain ⟨hxf, hxn⟩ := hx x (List.mem_cons_self ..)
    have x0 := hxn.value_nonneg
    have rest : 0 ≤ (l.map Fl.value).sum := List.sum_nonneg fun y hy => by
      obtain ⟨z, hz, rfl⟩ := List.mem_map.1 hy
      exact (hx z (List.mem_cons_of_mem _ hz)).2.value_nonneg
    rw [List.map_cons, List.sum_cons] at hsum
    rw [List.length_cons] at hlen
    have hn50 : (n : ℝ) ≤ 2 ^ 50 := by
      have : n ≤ 2 ^ 50 := by omega
      exact_mod_cast this
    have hne : (n : ℝ) * eta Fmt.b64 ≤ 1 := by
      calc (n : ℝ) * eta Fmt.b64 ≤ 2 ^ 50 * (1 / 2 ^ 200) := mul_le_mul hn50 e1 e0 (by positivity)
        _ ≤ 1 := by norm_num
    have sv : s.value ≤ 2 * (2 ^ 240 + 1) := by
      refine hN.1.trans ?_
      have g := grow64 (n := n) (by omega)
      have : 0 ≤ S + n * eta Fmt.b64 := by positivity
      calc grow Fmt.b64 ^ n * (S + n * eta Fmt.b64) ≤ 2 * (S + n * eta Fmt.b64) := mul_le_mul_of_nonneg_right g this
        _ ≤ _ := by linarith
    have s0 := hn.value_nonneg
    have af : (Fl.add s x).Finite := by
      refine add_finite Fmt.ok64 hs hxf ?_
      rw [abs_of_nonneg (by linarith)]
      have ht := top64
      norm_num at ht sv hsum ⊢
      linarith
    have an : (Fl.add s x).Nonneg := hn.add hmb hxn
    have n2 : Near Fmt.b64 n (n * eta Fmt.b64 + 0) (s.value + x.value) (S + x.value) :=
      hN.add ((Near.refl x.value).mono hmb (by omega) le_rfl le_rfl x0 x0)
    have n3 : Near Fmt.b64 1 (eta Fmt.b64) (Fl.add s x).value (s.value + x.value) :=
      Near.round hmb an.value_nonneg (add_err hmb hs hxf af)
    have n4 := n3.trans hmb e0 (by positivity) n2
    have := ih (n + 1) (Fl.add s x) (S + x.value) (by linarith) af an
      (by convert n4 using 1 <;> first | omega | (push_cast; ring))
      (fun y hy => hx y (List.mem_cons_of_mem _ hy)) (by omega) (by linarith)
    refine ⟨this.1, this.2.1, ?_⟩
    rw [List.foldl_cons, List.length_cons, List.map_cons, List.sum_cons]
    convert this.2.2 using 1
    · omega
    · push_cast; ring
    · ring

/-- A left-to-right sum of non-negative numbers. -/
theorem total_near {l : List F64} (hx : ∀ x ∈ l, x.Finite ∧ x.Nonneg) (hlen : l.length ≤ 2 ^ 49)
    (hsum : (l.map Fl.value).sum ≤ 2 ^ 240) :
    (total (Fl.arith Fmt.b64) l).Finite ∧ (total (Fl.arith Fmt.b64) l).Nonneg ∧
    Near Fmt.b64 l.length (l.length * eta Fmt.b64) (total (Fl.arith Fmt.b64) l).value (l.map Fl.value).sum := by
  have h := total_step l 0 (Fl.zero false) 0 le_rfl zero64_finite rfl
    (by rw [value_zero]; simpa using Near.refl (φ := Fmt.b64) 0) hx (by omega) (by simpa using hsum)
  simpa [total] using h

/-- The energy `x` is known up to a fraction `η` of the power `P` and an absolute error `θ`. -/
def Spec.Close (η θ : ℝ) (x : F64) (P : ℝ) : Prop := x.Finite ∧ x.Nonneg ∧ 0 ≤ P ∧ |x.value - P| ≤ η * P + θ

theorem close_sum {η θ : ℝ} {l : List F64} {A : List ℝ} (h : List.Forall₂ (Close η θ) l A) :
    0 ≤ A.sum ∧ |(l.map Fl.value).sum - A.sum| ≤ η * A.sum + A.length * θ := by
  induction h with
  | nil => simp
  | cons h1 _ ih =>
    obtain ⟨-, -, p0, p1⟩ := h1
    simp only [List.map_cons, List.sum_cons, List.length_cons]
    push_cast
    refine ⟨by linarith [ih.1], ?_⟩
    rw [add_sub_add_comm]
    refine (abs_add_le _ _).trans ?_
    linarith [ih.2]

theorem close_mem {η θ : ℝ} {l : List F64} {A : List ℝ} (h : List.Forall₂ (Close η θ) l A) :
    ∀ x ∈ l, x.Finite ∧ x.Nonneg := by
  induction h with
  | nil => simp
  | cons h1 _ ih =>
    intro x hx
    rcases List.mem_cons.1 hx with rfl | hx
    · exact ⟨h1.1, h1.2.1⟩
    · exact ih x hx

theorem eta_small : 4 * eta Fmt.b64 ≤ 1 / 2 ^ 400 := by
  rw [eta64_eq, show (4 : ℝ) * (1 / 2 ^ 1075) = 1 / 2 ^ 1073 by
    rw [show (1075 : Nat) = 1073 + 2 by norm_num, pow_add]; generalize (2 : ℝ) ^ 1073 = z; field_simp; norm_num]
  exact one_div_le_one_div_of_le (by positivity) (big_le (by norm_num))

/-- The mean of energies that are close to powers is close to the mean of the powers. -/
theorem mean_close {η θ : ℝ} {l : List F64} {A : List ℝ} (h : List.Forall₂ (Close η θ) l A) (hne : A ≠ [])
    (hη : ((A.length : ℝ) + 5) / 2 ^ 50 ≤ η) (hη' : η ≤ 1 / 100) (hθ : 0 ≤ θ) (hlen : A.length ≤ 2 ^ 40)
    (htop : A.sum + A.length * θ ≤ 2 ^ 200) (hM : 1 / 2 ^ 300 ≤ meanR A) :
    (mean (Fl.arith Fmt.b64) l).Finite ∧ (mean (Fl.arith Fmt.b64) l).Nonneg ∧
      |(mean (Fl.arith Fmt.b64) l).value - meanR A| ≤ 13 / 10 * η * meanR A + 101 / 100 * θ := by
  have hmb := b64_ok.1
  have e0 := (eta_pos Fmt.b64).le
  have e1 := eta_small
  obtain ⟨S0, hS⟩ := close_sum h
  have hl : l.length = A.length := h.length_eq
  have n0 : 0 < A.length := List.length_pos_iff.2 hne
  have hN : (0 : ℝ) < A.length := by exact_mod_cast n0
  have v0 : 0 ≤ (l.map Fl.value).sum := List.sum_nonneg fun y hy => by
    obtain ⟨z, hz, rfl⟩ := List.mem_map.1 hy
    exact (close_mem h z hz).2.value_nonneg
  have hsum : (l.map Fl.value).sum ≤ 2 ^ 240 := by
    have := (abs_le.1 hS).2
    have k : η * A.sum ≤ 1 / 100 * A.sum := mul_le_mul_of_nonneg_right hη' S0
    have : (2 : ℝ) * 2 ^ 200 ≤ 2 ^ 240 := by norm_num
    have p : 0 ≤ (A.length : ℝ) * θ := by positivity
    linarith
  obtain ⟨t1, t2, t3⟩ := total_near (close_mem h) (by omega) hsum
  obtain ⟨d1, d2⟩ := value_ofInt Fmt.ok64 (n := A.length)
    (by have : Fmt.b64.mb = 52 := rfl; rw [this]; omega)
  obtain ⟨k, hk, kN, k0, k1⟩ := Fl.ofInt_fin (n := A.length) n0.ne' (by omega)
  unfold mean
  rw [hl] at t3
  rw [arith_div, arith_ofInt, hl]
  generalize total (Fl.arith Fmt.b64) l = T at *
  generalize Fl.ofInt Fmt.b64 (A.length : Int) = N at *
  have T0 := t2.value_nonneg
  have g := grow64 (n := A.length) (by omega)
  have Tb : T.value ≤ 2 * (2 ^ 240 + 1) := by
    refine t3.1.trans ?_
    have a1 : (A.length : ℝ) * eta Fmt.b64 ≤ 1 := by
      have b : (A.length : ℝ) ≤ 2 ^ 40 := by exact_mod_cast hlen
      calc (A.length : ℝ) * eta Fmt.b64 ≤ 2 ^ 40 * (1 / 2 ^ 200) := mul_le_mul b eta64 e0 (by positivity)
        _ ≤ 1 := by norm_num
    have : 0 ≤ (l.map Fl.value).sum + A.length * eta Fmt.b64 := by positivity
    calc _ ≤ 2 * ((l.map Fl.value).sum + A.length * eta Fmt.b64) := mul_le_mul_of_nonneg_right g this
      _ ≤ _ := by linarith
  have df : (Fl.div T N).Finite := by
    refine div_finite Fmt.ok64 t1 d2 (by rw [d1]; exact hN.ne') ?_
    rw [d1, abs_of_nonneg (by positivity)]
    have : T.value / A.length ≤ T.value := div_le_self T0 (by exact_mod_cast n0)
    have ht := top64
    norm_num at ht Tb ⊢
    linarith
  have dn : (Fl.div T N).Nonneg := Fl.Nonneg.div_fin t2 kN k0 k1
  have n1 : Near Fmt.b64 1 (eta Fmt.b64) (Fl.div T N).value (T.value / A.length) := by
    have := div_err hmb t1 d2 (by rw [d1]; exact hN.ne') df
    rw [d1] at this
    exact Near.round hmb dn.value_nonneg this
  have n2 : Near Fmt.b64 A.length (eta Fmt.b64) (T.value / A.length) ((l.map Fl.value).sum / A.length) := by
    have := t3.scale (c := 1 / (A.length : ℝ)) (by positivity)
    convert this using 1 <;> field_simp
  have n3 := (n1.trans hmb e0 e0 n2).abs_le hmb (by
    rw [eps64]
    have : ((1 + A.length : Nat) : ℝ) ≤ 2 ^ 41 := by exact_mod_cast (by omega : 1 + A.length ≤ 2 ^ 41)
    linarith) (by positivity) (by positivity)
  refine ⟨df, dn, ?_⟩
  generalize (Fl.div T N).value = d at *
  have hq : |(l.map Fl.value).sum / A.length - meanR A| ≤ η * meanR A + θ := by
    unfold meanR
    rw [← sub_div, abs_div, abs_of_pos hN, div_le_iff₀ hN]
    refine hS.trans (le_of_eq ?_)
    field_simp
  have M0 : 0 < meanR A := lt_of_lt_of_le (by positivity) hM
  generalize meanR A = M at *
  have q0 : 0 ≤ (l.map Fl.value).sum / (A.length : ℝ) := by positivity
  generalize (l.map Fl.value).sum / (A.length : ℝ) = q at *
  rw [eps64] at n3
  push_cast at n3
  have c1 : 2 * (1 + (A.length : ℝ)) * (1 / 2 ^ 53) ≤ η / 4 := by
    rw [div_le_iff₀ (by positivity)] at hη
    norm_num at hη ⊢
    linarith
  have η0 : 5 / 2 ^ 50 ≤ η := by
    refine _root_.le_trans ?_ hη
    exact div_le_div_of_nonneg_right (by linarith) (by positivity)
  have c2 : 2 * (eta Fmt.b64 + eta Fmt.b64) ≤ η * M / 100 := by
    have : (5 / 2 ^ 50) * (1 / 2 ^ 300) ≤ η * M := mul_le_mul η0 hM (by positivity) (by linarith [show (0:ℝ) ≤ 5 / 2 ^ 50 by positivity])
    have k : (1 : ℝ) / 2 ^ 400 ≤ (5 / 2 ^ 50) * (1 / 2 ^ 300) / 100 := by
      have e : (2 : ℝ) ^ 400 = 2 ^ 300 * 2 ^ 100 := by rw [← pow_add]
      have z0 : (0 : ℝ) < 1 / 2 ^ 300 := by positivity
      rw [e, ← one_div_mul_one_div]
      generalize (1 : ℝ) / 2 ^ 300 = z at *
      have : (1 : ℝ) / 2 ^ 100 ≤ 5 / 2 ^ 50 / 100 := by norm_num
      calc z * (1 / 2 ^ 100) ≤ z * (5 / 2 ^ 50 / 100) := mul_le_mul_of_nonneg_left this z0.le
        _ = _ := by ring
    calc 2 * (eta Fmt.b64 + eta Fmt.b64) = 4 * eta Fmt.b64 := by ring
      _ ≤ _ := e1
      _ ≤ _ := k
      _ ≤ _ := div_le_div_of_nonneg_right this (by norm_num)
  have qM := (abs_le.1 hq).2
  have c3 : 2 * (1 + (A.length : ℝ)) * (1 / 2 ^ 53) * q ≤ η / 4 * q := mul_le_mul_of_nonneg_right c1 q0
  have tri := abs_sub_le d q M
  have ηp : 0 ≤ η := by linarith [show (0:ℝ) ≤ 5 / 2 ^ 50 by positivity]
  have c4 : η / 4 * q ≤ η / 4 * (M + (η * M + θ)) := mul_le_mul_of_nonneg_left (by linarith) (by linarith)
  have c5 : η * (η * M) ≤ 1 / 100 * (η * M) := mul_le_mul_of_nonneg_right hη' (by positivity)
  have c6 : η * θ ≤ 1 / 100 * θ := mul_le_mul_of_nonneg_right hη' hθ
  nlinarith

end Verif
