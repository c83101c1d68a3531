import Verif.Spec.RealRange
import Verif.Props.C58
import Mathlib.Data.List.Sort
/-!
# Powers known up to a factor and an absolute error
-/

namespace Verif
open Spec Fl
variable {m : Libm F64} {bs : BSearch} {t : Target}

/-- `x` and `P` agree up to a factor `κ` and an absolute error `θ`. -/
def Spec.Mixed (κ θ x P : ℝ) : Prop := x ≤ κ * (P + θ) ∧ P ≤ κ * (x + θ)

/-- `P` and `g` differ by more than a factor `κ` and an absolute error `θ`. -/
def Spec.Apart (κ θ P g : ℝ) : Prop := κ * (g + θ) < P ∨ κ * (P + θ) < g

theorem Spec.Close.mixed {η θ : ℝ} {x : F64} {P : ℝ} (h : Close η θ x P) (h0 : 0 ≤ η) (h1 : η ≤ 1 / 100) (hθ : 0 ≤ θ) :
    Mixed (1 + 11 / 10 * η) θ x.value P := by
  obtain ⟨-, n, p, hx⟩ := h
  obtain ⟨c1, c2⟩ := abs_le.1 hx
  have x0 := n.value_nonneg
  have a1 : 0 ≤ η * P := mul_nonneg h0 p
  have a2 : 0 ≤ η * θ := mul_nonneg h0 hθ
  have a3 : 0 ≤ η * x.value := mul_nonneg h0 x0
  refine ⟨by linarith, ?_⟩
  -- `(1 - η) P ≤ x + θ` and `1 ≤ (1 + 1.1 η) (1 - η)`
  have b1 : (1 - η) * P ≤ x.value + θ := by linarith
  have b2 : P ≤ (1 + 11 / 10 * η) * ((1 - η) * P) := by
    have : η * (η * P) ≤ 1 / 100 * (η * P) := mul_le_mul_of_nonneg_right h1 a1
    nlinarith
  exact b2.trans (mul_le_mul_of_nonneg_left b1 (by linarith))

theorem Spec.Mixed.mono {κ θ κ' θ' x P : ℝ} (h : Mixed κ θ x P) (hκ : κ ≤ κ') (hθ : θ ≤ θ') (h0 : 0 ≤ κ) (hθ0 : 0 ≤ θ)
    (hx : 0 ≤ x) (hP : 0 ≤ P) : Mixed κ' θ' x P :=
  ⟨h.1.trans (mul_le_mul hκ (by linarith) (by linarith) (by linarith)),
    h.2.trans (mul_le_mul hκ (by linarith) (by linarith) (by linarith))⟩

/-- A further change by a factor. -/
theorem Spec.Mixed.trans {κ κ' θ x y P : ℝ} (h : Mixed κ θ x P) (h' : Mixed κ' 0 y x) (hκ : 0 ≤ κ) (hκ' : 1 ≤ κ')
    (hθ : 0 ≤ θ) : Mixed (κ * κ') θ y P := by
  obtain ⟨a1, a2⟩ := h
  obtain ⟨b1, b2⟩ := h'
  rw [add_zero] at b1 b2
  have k : 0 ≤ (κ' - 1) * θ := mul_nonneg (by linarith) hθ
  constructor
  · calc y ≤ κ' * (κ * (P + θ)) := b1.trans (mul_le_mul_of_nonneg_left a1 (by linarith))
      _ = _ := by ring
  · calc P ≤ κ * (κ' * y + θ) := a2.trans (mul_le_mul_of_nonneg_left (by linarith) hκ)
      _ ≤ κ * (κ' * (y + θ)) := mul_le_mul_of_nonneg_left (by nlinarith) hκ
      _ = _ := by ring

theorem Spec.Mixed.scale {κ θ x P c : ℝ} (h : Mixed κ θ x P) (hκ : 0 ≤ κ) (hθ : 0 ≤ θ) (h0 : 0 ≤ c) (h1 : c ≤ 1) :
    Mixed κ θ (c * x) (c * P) := by
  have k : κ * (c * θ) ≤ κ * θ := mul_le_mul_of_nonneg_left (by nlinarith) hκ
  have a1 := mul_le_mul_of_nonneg_left h.1 h0
  have a2 := mul_le_mul_of_nonneg_left h.2 h0
  exact ⟨by nlinarith, by nlinarith⟩

theorem mixed_sum {κ θ : ℝ} {l A : List ℝ} (h : List.Forall₂ (Mixed κ θ) l A) :
    l.sum ≤ κ * (A.sum + A.length * θ) ∧ A.sum ≤ κ * (l.sum + A.length * θ) := by
  induction h with
  | nil => simp
  | cons h1 _ ih =>
    obtain ⟨p0, p1⟩ := h1
    simp only [List.sum_cons, List.length_cons]
    push_cast
    constructor <;> nlinarith [ih.1, ih.2]

/-- The means agree as the elements do. -/
theorem mixed_mean {κ θ : ℝ} {l A : List ℝ} (h : List.Forall₂ (Mixed κ θ) l A) (hne : A ≠ []) :
    Mixed κ θ (meanR l) (meanR A) := by
  obtain ⟨a1, a2⟩ := mixed_sum h
  have n0 : (0 : ℝ) < A.length := by exact_mod_cast List.length_pos_iff.2 hne
  unfold meanR
  rw [h.length_eq]
  constructor
  · rw [div_le_iff₀ n0]
    refine a1.trans (le_of_eq ?_)
    field_simp
  · rw [div_le_iff₀ n0]
    refine a2.trans (le_of_eq ?_)
    field_simp

/-! ## Order statistics -/

theorem orderedInsert_mixed {κ θ : ℝ} (hκ : 0 ≤ κ) {x : ℝ} {l : List ℝ} : ∀ {P : ℝ} {A : List ℝ}, Mixed κ θ x P →
    List.Forall₂ (Mixed κ θ) l A → (P :: A).Pairwise (· ≤ ·) →
    List.Forall₂ (Mixed κ θ) (l.orderedInsert (· ≤ ·) x) (P :: A) := by
  induction l with
  | nil =>
    intro P A h h2 _
    cases h2
    exact .cons h .nil
  | cons y l ih =>
    intro P A h h2 hs
    rw [List.orderedInsert]
    split
    · exact .cons h h2
    · rename_i hxy
      rw [not_le] at hxy
      cases h2 with
      | @cons _ Q _ A' h3 h4 =>
        have hPQ : P ≤ Q := (List.pairwise_cons.1 hs).1 Q (List.mem_cons_self ..)
        refine .cons ⟨hxy.le.trans h.1, hPQ.trans h3.2⟩ (ih ⟨?_, ?_⟩ h4 (List.pairwise_cons.1 hs).2)
        · exact h.1.trans (mul_le_mul_of_nonneg_left (by linarith) hκ)
        · exact h3.2.trans (mul_le_mul_of_nonneg_left (by linarith) hκ)

theorem insertionSort_mixed {κ θ : ℝ} (hκ : 0 ≤ κ) {l A : List ℝ} (h : List.Forall₂ (Mixed κ θ) l A)
    (hs : A.Pairwise (· ≤ ·)) : List.Forall₂ (Mixed κ θ) (l.insertionSort (· ≤ ·)) A := by
  induction h with
  | nil => exact .nil
  | cons h1 _ ih =>
    rw [List.insertionSort_cons]
    exact orderedInsert_mixed hκ h1 (ih (List.pairwise_cons.1 hs).2) hs

/-- In ascending order the lists still agree element by element. -/
theorem sorted_mixed {κ θ : ℝ} (hκ : 0 ≤ κ) {l A s : List ℝ} (h : List.Forall₂ (Mixed κ θ) l A) (hp : s.Perm l)
    (hs : s.Pairwise (· ≤ ·)) : List.Forall₂ (Mixed κ θ) s (sortR A) := by
  have hf : List.Forall₂ (flip (Mixed κ θ)) A l := h.flip
  obtain ⟨l', h1, h2⟩ := List.perm_comp_forall₂ (List.perm_insertionSort (· ≤ ·) A) hf
  have h3 := insertionSort_mixed hκ h1.flip (List.pairwise_insertionSort (· ≤ ·) A)
  have e : s = l'.insertionSort (· ≤ ·) :=
    (hp.trans (h2.symm.trans (List.perm_insertionSort (· ≤ ·) l').symm)).eq_of_pairwise
      (fun _ _ _ _ => le_antisymm) hs (List.pairwise_insertionSort (· ≤ ·) l')
  rw [e]
  exact h3

/-! ## Gates and loudness -/

/-- A power well away from a gate is on the same side of it as its approximation is of the approximate gate. -/
theorem gate_side {κ κg θ : ℝ} (hκ : 1 ≤ κ) (hg : 1 ≤ κg) (hθ : 0 ≤ θ) {x g P Γ : ℝ} (hP : 0 ≤ P) (hΓ : 0 ≤ Γ)
    (hx : Mixed κ θ x P) (hgate : Mixed κg θ g Γ) (h : Apart (κ * κg) (2 * θ) P Γ) :
    (Γ ≤ P ∧ g < x) ∨ (P < Γ ∧ x < g) := by
  have k0 : 0 < κ := by linarith
  have g0 : 0 < κg := by linarith
  have k1 : 0 ≤ (κ - 1) * θ := mul_nonneg (by linarith) hθ
  have k2 : 0 ≤ (κg - 1) * θ := mul_nonneg (by linarith) hθ
  have kk : 1 ≤ κ * κg := by nlinarith
  rcases h with h | h
  · left
    constructor
    · nlinarith [mul_nonneg (by linarith : 0 ≤ κ * κg - 1) (by linarith : 0 ≤ Γ + 2 * θ)]
    · have a : κ * (κg * (Γ + 2 * θ)) < κ * (x + θ) := by
        rw [← _root_.mul_assoc]; exact lt_of_lt_of_le h hx.2
      have b := lt_of_mul_lt_mul_left a k0.le
      nlinarith [hgate.1]
  · right
    constructor
    · nlinarith [mul_nonneg (by linarith : 0 ≤ κ * κg - 1) (by linarith : 0 ≤ P + 2 * θ)]
    · have a : κg * (κ * (P + 2 * θ)) < κg * (g + θ) := by
        rw [← _root_.mul_assoc, _root_.mul_comm κg κ]; exact lt_of_lt_of_le h hgate.2
      have b := lt_of_mul_lt_mul_left a g0.le
      nlinarith [hx.1]

theorem le_iff_value {g x : F64} (hg : g.Finite) (hx : x.Finite) :
    (g.value < x.value → Fl.le g x = true ∧ Fl.lt x g = false) ∧
    (x.value < g.value → Fl.le g x = false ∧ Fl.lt x g = true) := by
  have ng : g.isNan = false := by obtain ⟨s, k, hk, rfl, -⟩ := hg; rfl
  have nx : x.isNan = false := by obtain ⟨s, k, hk, rfl, -⟩ := hx; rfl
  constructor
  · intro h
    have := le_of_value hg hx h
    refine ⟨this, ?_⟩
    rw [Bool.eq_false_iff]
    intro hc
    rw [Fl.lt_rank nx ng] at hc
    rw [Fl.le_rank ng nx] at this
    omega
  · intro h
    have := lt_of_value hx hg h
    refine ⟨?_, this⟩
    rw [Bool.eq_false_iff]
    intro hc
    rw [Fl.lt_rank nx ng] at this
    rw [Fl.le_rank ng nx] at hc
    omega

/-- Loudness of powers that agree up to a factor and an absolute error. -/
theorem lufs_mixed {κ θ x P : ℝ} (hκ : 1 ≤ κ) (hθ : 0 ≤ θ) (hP : 0 < P) (h2 : 2 * (κ * θ) ≤ P) (h : Mixed κ θ x P) :
    0 < x ∧ |lufs x - lufs P| ≤ 10 * Real.logb 10 κ + 10 * (κ * θ / P) := by
  have k0 : 0 < κ := by linarith
  have s0 : 0 ≤ κ * θ / P := by positivity
  have s1 : κ * θ / P ≤ 1 / 2 := by rw [div_le_iff₀ hP]; linarith
  have sP : κ * θ = κ * θ / P * P := by field_simp
  generalize κ * θ / P = σ at *
  have x1 : P - κ * θ ≤ κ * x := by have := h.2; linarith
  have x0 : 0 < x := by
    have : 0 < κ * x := by nlinarith
    exact (mul_pos_iff_of_pos_left k0).1 this
  refine ⟨x0, ?_⟩
  obtain ⟨n1, n2⟩ := lufs_near (x := P - κ * θ) (X := P) (r := σ) hP s1 (by
    rw [abs_le]; constructor <;> nlinarith)
  obtain ⟨n3, n4⟩ := lufs_near (x := P + κ * θ) (X := P) (r := σ) hP s1 (by
    rw [abs_le]; constructor <;> nlinarith)
  have hlog : ∀ {a b : ℝ}, 0 < a → 0 < b → a ≤ κ * b → lufs a ≤ lufs b + 10 * Real.logb 10 κ := by
    intro a b ha hb hab
    have := Real.logb_le_logb_of_le (b := 10) (by norm_num) ha hab
    rw [Real.logb_mul k0.ne' hb.ne'] at this
    unfold lufs
    linarith
  have hθκ : 0 ≤ (κ - 1) * θ := mul_nonneg (by linarith) hθ
  have u1 := hlog x0 n3 (h.1.trans (mul_le_mul_of_nonneg_left (by linarith) k0.le))
  have u2 := hlog n1 x0 x1
  have v1 := (abs_le.1 n2).1
  have v2 := (abs_le.1 n4).2
  rw [abs_le]
  constructor <;> linarith

end Verif
