import Verif.Spec.Programme
import Mathlib.Algebra.BigOperators.Group.List.Lemmas
import Mathlib.Algebra.Order.BigOperators.Group.List
import Mathlib.Tactic.Linarith
import Mathlib.Tactic.Positivity
import Mathlib.Tactic.Ring
import Mathlib.Tactic.FieldSimp
/-!
# How the gated mean of a list of real numbers depends on its elements
-/

namespace Verif
open Spec

/-- How much the elements from `t` on exceed `c` together. -/
noncomputable def surplus (t c : ℝ) (B : List ℝ) : ℝ := (B.filter fun x => t ≤ x).sum - (B.filter fun x => t ≤ x).length * c

theorem surplus_nil (t c : ℝ) : surplus t c [] = 0 := by simp [surplus]

theorem surplus_cons (t c x : ℝ) (B : List ℝ) :
    surplus t c (x :: B) = (if t ≤ x then x - c else 0) + surplus t c B := by
  unfold surplus
  by_cases h : t ≤ x
  · rw [List.filter_cons_of_pos (by simpa using h), if_pos h, List.sum_cons, List.length_cons]
    push_cast
    ring
  · rw [List.filter_cons_of_neg (by simpa using h), if_neg h, zero_add]

theorem surplus_nonneg {t c : ℝ} (h : c ≤ t) (B : List ℝ) : 0 ≤ surplus t c B := by
  induction B with
  | nil => rw [surplus_nil]
  | cons x B ih =>
    rw [surplus_cons]
    split
    · linarith
    · linarith

/-- A higher gate that is still below `c` drops elements below `c`. -/
theorem surplus_mono {t t' c : ℝ} (h : t ≤ t') (h' : t' ≤ c) (B : List ℝ) : surplus t c B ≤ surplus t' c B := by
  induction B with
  | nil => rw [surplus_nil, surplus_nil]
  | cons x B ih =>
    rw [surplus_cons, surplus_cons]
    by_cases h1 : t' ≤ x
    · rw [if_pos h1, if_pos (le_trans h h1)]; linarith
    · rw [if_neg h1]
      by_cases h2 : t ≤ x
      · rw [if_pos h2]; linarith
      · rw [if_neg h2]; linarith

theorem meanR_le_iff {l : List ℝ} (hne : l ≠ []) (c : ℝ) : meanR l ≤ c ↔ l.sum - l.length * c ≤ 0 := by
  have h : (0 : ℝ) < l.length := by exact_mod_cast List.length_pos_iff.2 hne
  unfold meanR
  rw [div_le_iff₀ h]
  constructor <;> intro h <;> linarith

theorem le_meanR_iff {l : List ℝ} (hne : l ≠ []) (c : ℝ) : c ≤ meanR l ↔ 0 ≤ l.sum - l.length * c := by
  have h : (0 : ℝ) < l.length := by exact_mod_cast List.length_pos_iff.2 hne
  unfold meanR
  rw [le_div_iff₀ h]
  constructor <;> intro h <;> linarith

theorem meanR_mem_le {l : List ℝ} (hne : l ≠ []) : ∃ x ∈ l, meanR l ≤ x := by
  by_contra hc
  push Not at hc
  have : l.sum - l.length * meanR l < 0 := by
    generalize meanR l = c at hc
    induction l with
    | nil => exact absurd rfl hne
    | cons x l ih =>
      rw [List.sum_cons, List.length_cons]
      push_cast
      have h1 := hc x (List.mem_cons_self ..)
      rcases l with _ | ⟨y, l⟩
      · simp; linarith
      · have := ih (by simp) fun z hz => hc z (List.mem_cons_of_mem _ hz)
        linarith
  have h2 := (le_meanR_iff hne (meanR l)).1 le_rfl
  linarith

theorem meanR_mem_ge {l : List ℝ} (hne : l ≠ []) : ∃ x ∈ l, x ≤ meanR l := by
  by_contra hc
  push Not at hc
  have : 0 < l.sum - l.length * meanR l := by
    generalize meanR l = c at hc
    induction l with
    | nil => exact absurd rfl hne
    | cons x l ih =>
      rw [List.sum_cons, List.length_cons]
      push_cast
      have h1 := hc x (List.mem_cons_self ..)
      rcases l with _ | ⟨y, l⟩
      · simp; linarith
      · have := ih (by simp) fun z hz => hc z (List.mem_cons_of_mem _ hz)
        linarith
  have h2 := (meanR_le_iff hne (meanR l)).1 le_rfl
  linarith

namespace Spec.Powers
variable {B : List ℝ}

theorem ne (h : Powers B) : B ≠ [] := by
  obtain ⟨x, hx, _⟩ := h.2
  intro e; rw [e] at hx; cases hx

theorem sum_pos (h : Powers B) : 0 < B.sum := by
  obtain ⟨h0, x, hx, hp⟩ := h
  induction B with
  | nil => cases hx
  | cons y B ih =>
    rw [List.sum_cons]
    have hy := h0 y (List.mem_cons_self ..)
    have hB : 0 ≤ B.sum := List.sum_nonneg fun z hz => h0 z (List.mem_cons_of_mem _ hz)
    rcases List.mem_cons.1 hx with rfl | hx
    · linarith
    · have := ih (fun z hz => h0 z (List.mem_cons_of_mem _ hz)) hx
      linarith

theorem mean_pos (h : Powers B) : 0 < meanR B := by
  unfold meanR
  have : (0 : ℝ) < B.length := by exact_mod_cast List.length_pos_iff.2 h.ne
  exact div_pos h.sum_pos this

theorem kept_ne (h : Powers B) : keptR B ≠ [] := by
  obtain ⟨x, hx, hm⟩ := meanR_mem_le h.ne
  have hp := h.mean_pos
  intro e
  have : x ∈ keptR B := List.mem_filter.2 ⟨hx, by simpa using (by linarith : meanR B / 10 ≤ x)⟩
  rw [e] at this; cases this

theorem le_iff (h : Powers B) (c : ℝ) : programmeR B ≤ c ↔ surplus (meanR B / 10) c B ≤ 0 :=
  meanR_le_iff h.kept_ne c

theorem ge_iff (h : Powers B) (c : ℝ) : c ≤ programmeR B ↔ 0 ≤ surplus (meanR B / 10) c B :=
  le_meanR_iff h.kept_ne c

theorem surplus_zero (h : Powers B) : surplus (meanR B / 10) (programmeR B) B = 0 :=
  le_antisymm ((h.le_iff _).1 le_rfl) ((h.ge_iff _).1 le_rfl)

/-- Gating does not lower the mean. -/
theorem mean_le (h : Powers B) : meanR B ≤ programmeR B := by
  rw [h.ge_iff]
  have h1 := surplus_mono (t := 0) (t' := meanR B / 10) (c := meanR B) (by have := h.mean_pos; linarith)
    (by have := h.mean_pos; linarith) B
  refine le_trans ?_ h1
  unfold surplus
  rw [List.filter_eq_self.2 (by intro x hx; simpa using h.1 x hx)]
  exact (le_meanR_iff h.ne _).1 le_rfl

theorem pos (h : Powers B) : 0 < programmeR B := lt_of_lt_of_le h.mean_pos h.mean_le

theorem cons (h : Powers B) {b : ℝ} (hb : 0 ≤ b) : Powers (b :: B) := by
  obtain ⟨h0, x, hx, hp⟩ := h
  refine ⟨?_, x, List.mem_cons_of_mem _ hx, hp⟩
  intro y hy
  rcases List.mem_cons.1 hy with rfl | hy
  · exact hb
  · exact h0 y hy

theorem perm {B' : List ℝ} (h : Powers B) (hp : B'.Perm B) : Powers B' := by
  obtain ⟨h0, x, hx, h1⟩ := h
  exact ⟨fun y hy => h0 y (hp.mem_iff.1 hy), x, hp.mem_iff.2 hx, h1⟩

theorem append {B' : List ℝ} (h : Powers B) (h' : Powers B') : Powers (B ++ B') := by
  obtain ⟨x, hx, hp⟩ := h.2
  refine ⟨?_, x, List.mem_append_left _ hx, hp⟩
  intro y hy
  rcases List.mem_append.1 hy with hy | hy
  · exact h.1 y hy
  · exact h'.1 y hy

/-- A block as loud as the programme does not lower its loudness. -/
theorem cons_louder (h : Powers B) {b : ℝ} (hb : programmeR B ≤ b) : programmeR B ≤ programmeR (b :: B) := by
  have hp := h.pos
  have h' := h.cons (b := b) (by linarith)
  rw [h'.ge_iff]
  by_cases hc : meanR (b :: B) / 10 ≤ programmeR B
  · rw [surplus_cons, if_pos (le_trans hc hb)]
    have hm : meanR B / 10 ≤ meanR (b :: B) / 10 := by
      have := (le_meanR_iff (l := b :: B) (by simp) (meanR B)).2 (by
        rw [List.sum_cons, List.length_cons]
        push_cast
        have h1 := (le_meanR_iff h.ne (meanR B)).1 le_rfl
        have h2 := h.mean_le
        linarith)
      linarith
    have h1 := surplus_mono hm hc B
    have h2 := h.surplus_zero
    linarith
  · exact surplus_nonneg (by linarith) _

/-- A block no louder than the mean of all blocks does not raise its loudness. -/
theorem cons_softer (h : Powers B) {b : ℝ} (h0 : 0 ≤ b) (hb : b ≤ meanR B) : programmeR (b :: B) ≤ programmeR B := by
  have hp := h.pos
  have h' := h.cons h0
  have hle := h.mean_le
  rw [h'.le_iff, surplus_cons]
  have hm : meanR (b :: B) / 10 ≤ meanR B / 10 := by
    have := (meanR_le_iff (l := b :: B) (by simp) (meanR B)).2 (by
      rw [List.sum_cons, List.length_cons]
      push_cast
      have h1 := (meanR_le_iff h.ne (meanR B)).1 le_rfl
      linarith)
    linarith
  have h1 := surplus_mono (c := programmeR B) hm (by have := h.mean_pos; linarith) B
  have h2 := h.surplus_zero
  split
  · linarith
  · linarith

end Spec.Powers

theorem meanR_perm {l l' : List ℝ} (h : l'.Perm l) : meanR l' = meanR l := by
  unfold meanR; rw [h.sum_eq, h.length_eq]

/-- The order of the blocks does not matter. -/
theorem programmeR_perm {B B' : List ℝ} (h : B'.Perm B) : programmeR B' = programmeR B := by
  unfold programmeR keptR
  rw [meanR_perm h]
  exact meanR_perm (h.filter _)

theorem sum_repeat (l : List ℝ) (k : Nat) : ((List.replicate k l).flatten).sum = k * l.sum := by
  induction k with
  | zero => simp
  | succ k ih => rw [List.replicate_succ, List.flatten_cons, List.sum_append, ih]; push_cast; ring

theorem length_repeat (l : List ℝ) (k : Nat) : ((List.replicate k l).flatten).length = k * l.length := by
  induction k with
  | zero => simp
  | succ k ih => rw [List.replicate_succ, List.flatten_cons, List.length_append, ih, Nat.succ_mul, Nat.add_comm]

theorem filter_repeat (p : ℝ → Bool) (l : List ℝ) (k : Nat) :
    ((List.replicate k l).flatten).filter p = (List.replicate k (l.filter p)).flatten := by
  induction k with
  | zero => rfl
  | succ k ih => rw [List.replicate_succ, List.flatten_cons, List.filter_append, ih, List.replicate_succ, List.flatten_cons]

theorem meanR_repeat (l : List ℝ) {k : Nat} (hk : 0 < k) : meanR (List.replicate k l).flatten = meanR l := by
  unfold meanR
  rw [sum_repeat, length_repeat]
  push_cast
  exact mul_div_mul_left _ _ (by exact_mod_cast hk.ne')

/-- Playing the programme several times does not change its loudness. -/
theorem programmeR_repeat (B : List ℝ) {k : Nat} (hk : 0 < k) :
    programmeR (List.replicate k B).flatten = programmeR B := by
  unfold programmeR keptR
  rw [meanR_repeat B hk, filter_repeat, meanR_repeat _ hk]

end Verif
