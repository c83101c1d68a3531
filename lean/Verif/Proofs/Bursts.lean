import Verif.Proofs.AtMost
/-!
# Bursts of a tone

The amplitude of tones that follow one another with silence between them: how large it is, how much it changes within a window
and how much of a window a tone fills.
-/

namespace Verif
open Spec

theorem sum_jump (f : ℕ → ℕ → ℝ) (n i : ℕ) :
    jump (fun i => ∑ j ∈ Finset.range n, f j i) i = ∑ j ∈ Finset.range n, jump (f j) i := by
  unfold jump
  split_ifs <;> simp

theorem burst_jump {a : ℝ} (a0 : 0 ≤ a) {s d : ℕ} (i : ℕ) :
    |jump (burst a s d) i| ≤ a * ((if i = s then 1 else 0) + if i = s + d then 1 else 0) := by
  unfold jump burst
  by_cases h0 : i = 0
  · subst h0
    rw [if_pos rfl, sub_zero]
    split_ifs <;> first | omega | (simp [abs_of_nonneg a0] <;> linarith)
  · rw [if_neg h0]
    split_ifs <;> first | omega | (simp [abs_of_nonneg a0] <;> linarith)

/-- Of numbers so far apart that a window meets at most one of them. -/
theorem sum_one {n : ℕ} {a : ℕ → ℝ} {b : ℝ} (b0 : 0 ≤ b) (hb : ∀ j < n, a j ≤ b) (p : ℕ → Prop) [DecidablePred p]
    (hp : ∀ i j, i < j → j < n → p i → p j → False) : ∑ j ∈ Finset.range n, (if p j then a j else 0) ≤ b := by
  rw [← Finset.sum_filter]
  have hc : ((Finset.range n).filter p).card ≤ 1 := by
    refine Finset.card_le_one.2 fun i hi j hj => ?_
    simp only [Finset.mem_filter, Finset.mem_range] at hi hj
    rcases Nat.lt_trichotomy i j with h | h | h
    · exact (hp i j h hj.1 hi.2 hj.2).elim
    · exact h
    · exact (hp j i h hi.1 hj.2 hi.2).elim
  refine (Finset.sum_le_card_nsmul _ _ b fun j hj => hb j ?_).trans ?_
  · simp only [Finset.mem_filter, Finset.mem_range] at hj
    exact hj.1
  · rw [nsmul_eq_mul]
    exact mul_le_of_le_one_left b0 (by exact_mod_cast hc)

theorem count_one (s k W : ℕ) : ∑ i ∈ Finset.range W, (if k + i = s then (1 : ℝ) else 0) = if k ≤ s ∧ s < k + W then 1 else 0 := by
  split_ifs with h
  · rw [Finset.sum_eq_single (s - k)]
    · rw [if_pos (by omega)]
    · intro i _ hi
      rw [if_neg (by omega)]
    · intro hi
      exact absurd (Finset.mem_range.2 (by omega)) hi
  · refine Finset.sum_eq_zero fun i hi => ?_
    have := Finset.mem_range.1 hi
    rw [if_neg (by omega)]

section
variable {a : ℕ → ℝ} {s : ℕ → ℕ} {d n : ℕ}

theorem burst_nonneg {a : ℝ} (a0 : 0 ≤ a) {s d : ℕ} (i : ℕ) : 0 ≤ burst a s d i := by
  unfold burst
  split_ifs <;> simp [a0]

theorem bursts_nonneg (a0 : ∀ j < n, 0 ≤ a j) (i : ℕ) : 0 ≤ bursts a s d n i :=
  Finset.sum_nonneg fun j hj => burst_nonneg (a0 j (Finset.mem_range.1 hj)) i

theorem bursts_le {b : ℝ} (b0 : 0 ≤ b) (hb : ∀ j < n, a j ≤ b) {D : ℕ} (hs : ∀ i j, i < j → j < n → s i + D ≤ s j) (hd : d ≤ D)
    (i : ℕ) : bursts a s d n i ≤ b :=
  sum_one b0 hb (fun j => s j ≤ i ∧ i < s j + d) fun x y hxy hy h1 h2 => by
    have := hs x y hxy hy
    omega

/-- The changes of the amplitude, as sums over the tones. -/
theorem bursts_jumps (a0 : ∀ j < n, 0 ≤ a j) (k W : ℕ) :
    ∑ i ∈ Finset.range W, |jump (bursts a s d n) (k + i)| ≤
      (∑ j ∈ Finset.range n, if k ≤ s j ∧ s j < k + W then a j else 0) +
        ∑ j ∈ Finset.range n, if k ≤ s j + d ∧ s j + d < k + W then a j else 0 := by
  have h1 : ∀ i, |jump (bursts a s d n) i| ≤
      ∑ j ∈ Finset.range n, a j * ((if i = s j then 1 else 0) + if i = s j + d then 1 else 0) := by
    intro i
    have : jump (bursts a s d n) i = ∑ j ∈ Finset.range n, jump (burst (a j) (s j) d) i := sum_jump _ n i
    rw [this]
    exact (Finset.abs_sum_le_sum_abs _ _).trans
      (Finset.sum_le_sum fun j hj => burst_jump (a0 j (Finset.mem_range.1 hj)) i)
  refine (Finset.sum_le_sum fun i _ => h1 (k + i)).trans ?_
  rw [Finset.sum_comm, ← Finset.sum_add_distrib]
  refine le_of_eq (Finset.sum_congr rfl fun j _ => ?_)
  rw [← Finset.mul_sum, Finset.sum_add_distrib, count_one, count_one]
  split_ifs <;> ring

theorem bursts_recent {b : ℝ} (a0 : ∀ j < n, 0 ≤ a j) (b0 : 0 ≤ b) (hb : ∀ j < n, a j ≤ b) {D : ℕ}
    (hs : ∀ i j, i < j → j < n → s i + D ≤ s j) {k W : ℕ} (hW : W ≤ D) :
    ∑ i ∈ Finset.range W, |jump (bursts a s d n) (k + i)| ≤ 2 * b := by
  have h1 := sum_one b0 hb (fun j => k ≤ s j ∧ s j < k + W) fun x y hxy hy h1 h2 => by
    have := hs x y hxy hy
    omega
  have h2 := sum_one b0 hb (fun j => k ≤ s j + d ∧ s j + d < k + W) fun x y hxy hy h1 h2 => by
    have := hs x y hxy hy
    omega
  linarith [bursts_jumps (s := s) (d := d) a0 k W]

theorem bursts_older (a0 : ∀ j < n, 0 ≤ a j) (W : ℕ) :
    ∑ i ∈ Finset.range W, |jump (bursts a s d n) i| ≤ 2 * ∑ j ∈ Finset.range n, a j := by
  have h := bursts_jumps (s := s) (d := d) a0 0 W
  simp only [Nat.zero_add] at h
  have key : ∀ p : ℕ → Prop, ∀ [DecidablePred p], ∑ j ∈ Finset.range n, (if p j then a j else 0) ≤ ∑ j ∈ Finset.range n, a j := by
    intro p _
    refine Finset.sum_le_sum fun j hj => ?_
    have := a0 j (Finset.mem_range.1 hj)
    split_ifs <;> linarith
  linarith [key (fun j => 0 ≤ s j ∧ s j < W), key (fun j => 0 ≤ s j + d ∧ s j + d < W)]

/-- The share of a tone in a window that is as long and begins within `x` of it. -/
theorem bursts_share (a0 : ∀ j < n, 0 ≤ a j) {j : ℕ} (hj : j < n) {k x : ℕ} (h1 : k ≤ s j + x) (h2 : s j ≤ k + x) (hx : x ≤ d) :
    ((d - x : ℕ) : ℝ) * a j ^ 2 ≤ ∑ i ∈ Finset.range d, bursts a s d n (k + i) ^ 2 := by
  have hsub : Finset.Ico (s j - k) (s j - k + (d - x)) ⊆ Finset.range d := by
    intro i hi
    simp only [Finset.mem_Ico, Finset.mem_range] at hi ⊢
    omega
  refine le_trans ?_ (Finset.sum_le_sum_of_subset_of_nonneg hsub fun i _ _ => sq_nonneg _)
  have hc : (Finset.Ico (s j - k) (s j - k + (d - x))).card = d - x := by simp
  have key := Finset.card_nsmul_le_sum (Finset.Ico (s j - k) (s j - k + (d - x))) (fun i => bursts a s d n (k + i) ^ 2) (a j ^ 2)
  rw [hc, nsmul_eq_mul] at key
  refine key fun i hi => ?_
  simp only [Finset.mem_Ico] at hi
  refine pow_le_pow_left₀ (a0 j hj) ?_ 2
  have : burst (a j) (s j) d (k + i) = a j := by
    unfold burst
    rw [if_pos (by omega)]
  rw [← this]
  exact Finset.single_le_sum (f := fun j => burst (a j) (s j) d (k + i))
    (fun y hy => burst_nonneg (a0 y (Finset.mem_range.1 hy)) _) (Finset.mem_range.2 hj)

/-- Tones that have not begun make no difference. -/
theorem bursts_prefix {j i : ℕ} (hj : j ≤ n) (h : ∀ y, j ≤ y → y < n → i < s y) : bursts a s d n i = bursts a s d j i := by
  unfold bursts
  refine (Finset.sum_subset (Finset.range_subset_range.2 hj) fun y hy hy' => ?_).symm
  simp only [Finset.mem_range] at hy hy'
  have := h y (by omega) hy
  unfold burst
  rw [if_neg (by omega)]

end

end Verif
