import Verif.Proofs.Tones
/-!
# Gating blocks that are known up to integer bounds
-/

namespace Verif
open Spec

/-- Surely 5 % above the gate, which is the mean divided by `d`. -/
def passes (d n sh lo : ℕ) : Bool := 21 * sh ≤ 20 * (d * n * lo)

/-- Surely 5 % below the gate. -/
def misses (d n sl hi : ℕ) : Bool := 21 * (d * n * hi) ≤ 20 * sl

/-- Each of the blocks, given as pairs of bounds, is clearly above or below the gate. -/
structure Split (d : ℕ) (l : List (ℕ × ℕ)) (n sl sh : ℕ) : Prop where
  length : l.length = n
  low : (l.map Prod.fst).sum = sl
  high : (l.map Prod.snd).sum = sh
  clear : ∀ x ∈ l, (passes d n sh x.1 || misses d n sl x.2) = true

section
variable {ι : Type} {ks : List ι} {f : ι → ℕ × ℕ} {P : ι → ℝ} {c : ℝ} {d n sl sh : ℕ}

theorem sum_between (h : ∀ j ∈ ks, c * (f j).1 ≤ P j ∧ P j ≤ c * (f j).2) :
    c * (((ks.map f).map Prod.fst).sum : ℕ) ≤ (ks.map P).sum ∧ (ks.map P).sum ≤ c * (((ks.map f).map Prod.snd).sum : ℕ) := by
  induction ks with
  | nil => simp
  | cons j l ih =>
    obtain ⟨i1, i2⟩ := ih fun k hk => h k (by simp [hk])
    obtain ⟨o1, o2⟩ := h j (by simp)
    simp only [List.map_cons, List.sum_cons, Nat.cast_add, mul_add]
    exact ⟨add_le_add o1 i1, add_le_add o2 i2⟩

theorem split_gate (c0 : 0 < c) (d0 : 0 < d) (hne : ks ≠ []) (hs : Split d (ks.map f) n sl sh)
    (h : ∀ j ∈ ks, c * (f j).1 ≤ P j ∧ P j ≤ c * (f j).2) {j : ι} (hj : j ∈ ks) :
    (passes d n sh (f j).1 = true → 21 / 20 * (meanR (ks.map P) / d) ≤ P j) ∧
      (passes d n sh (f j).1 = false → 21 / 20 * P j ≤ meanR (ks.map P) / d) := by
  obtain ⟨s1, s2⟩ := sum_between h
  rw [hs.low] at s1
  rw [hs.high] at s2
  have hn : (ks.map P).length = n := by rw [List.length_map, ← hs.length, List.length_map]
  have n0 : 0 < n := by
    rw [← hn, List.length_map]
    exact List.length_pos_iff.2 hne
  obtain ⟨p1, p2⟩ := h j hj
  have hc := hs.clear (f j) (List.mem_map.2 ⟨j, hj, rfl⟩)
  have nR : (0 : ℝ) < n := by exact_mod_cast n0
  have dR : (0 : ℝ) < d := by exact_mod_cast d0
  have e : meanR (ks.map P) / d = (ks.map P).sum / (d * n) := by
    rw [meanR, hn, div_div, mul_comm]
  rw [e]
  generalize (ks.map P).sum = T at *
  constructor
  · intro hp
    have hp : 21 * sh ≤ 20 * (d * n * (f j).1) := by simpa [passes] using hp
    have hp : (21 * sh : ℝ) ≤ 20 * (d * n * (f j).1) := by exact_mod_cast hp
    have h1 := mul_le_mul_of_nonneg_left hp c0.le
    rw [← mul_div_assoc, div_le_iff₀ (by positivity)]
    have h2 := mul_le_mul_of_nonneg_right p1 (mul_pos dR nR).le
    nlinarith
  · intro hp
    rw [hp, Bool.false_or] at hc
    have hc : 21 * (d * n * (f j).2) ≤ 20 * sl := by simpa [misses] using hc
    have hc : (21 * (d * n * (f j).2) : ℝ) ≤ 20 * sl := by exact_mod_cast hc
    have h1 := mul_le_mul_of_nonneg_left hc c0.le
    rw [le_div_iff₀ (by positivity)]
    have h2 := mul_le_mul_of_nonneg_right p2 (mul_pos dR nR).le
    nlinarith

/-- The blocks at or above the gate. -/
theorem split_filter (c0 : 0 < c) (d0 : 0 < d) (hne : ks ≠ []) (hs : Split d (ks.map f) n sl sh)
    (h : ∀ j ∈ ks, c * (f j).1 ≤ P j ∧ P j ≤ c * (f j).2) (hP : ∀ j ∈ ks, 0 < P j) :
    (ks.map P).filter (fun p => meanR (ks.map P) / d ≤ p) = (ks.filter fun j => passes d n sh (f j).1).map P := by
  rw [List.filter_map]
  congr 1
  refine List.filter_congr fun j hj => ?_
  obtain ⟨h1, h2⟩ := split_gate c0 d0 hne hs h hj
  have p0 := hP j hj
  simp only [Function.comp]
  have m0 : 0 < meanR (ks.map P) / d := by
    refine div_pos (div_pos ?_ ?_) (by exact_mod_cast d0)
    · exact List.sum_pos _ (by simpa using hP) (by simpa using hne)
    · rw [List.length_map]
      exact_mod_cast List.length_pos_iff.2 hne
  cases hp : passes d n sh (f j).1 with
  | true =>
    have := h1 hp
    exact decide_eq_true (by linarith)
  | false =>
    have := h2 hp
    exact decide_eq_false (by push Not; linarith)

end

/-! ## Percentiles -/

theorem le_percentileR {l : List ℝ} {num den : ℕ} {x : ℝ} (hn : nearestRank l.length num den < l.length)
    (h : l.length ≤ nearestRank l.length num den + (l.filter fun p => x ≤ p).length) : x ≤ percentileR l num den := by
  unfold percentileR
  have hs : (sortR l).Pairwise (· ≤ ·) := List.pairwise_insertionSort _ _
  have hperm : (sortR l).Perm l := List.perm_insertionSort _ _
  have hlen : (sortR l).length = l.length := hperm.length_eq
  have hf : ((sortR l).filter fun p => x ≤ p).length = (l.filter fun p => x ≤ p).length := (hperm.filter _).length_eq
  generalize nearestRank l.length num den = i at *
  rw [List.getD, List.getElem?_eq_getElem (by omega), Option.getD_some]
  by_contra hc
  push Not at hc
  have h0 : ((sortR l).take (i + 1)).filter (fun p => x ≤ p) = [] := by
    rw [List.filter_eq_nil_iff]
    intro p hp
    obtain ⟨k, hk, rfl⟩ := List.getElem_of_mem hp
    rw [List.length_take] at hk
    rw [List.getElem_take]
    have : (sortR l)[k] ≤ (sortR l)[i] := by
      rcases Nat.lt_or_ge k i with h1 | h1
      · exact List.pairwise_iff_getElem.1 hs k i (by omega) (by omega) h1
      · have : k = i := by omega
        subst this
        exact le_rfl
    simp
    linarith
  have h1 := congrArg (fun l => (List.filter (fun p => decide (x ≤ p)) l).length) (List.take_append_drop (i + 1) (sortR l))
  simp only [List.filter_append, List.length_append, h0, List.length_nil] at h1
  have h2 := List.length_filter_le (fun p => decide (x ≤ p)) ((sortR l).drop (i + 1))
  rw [List.length_drop] at h2
  omega

theorem percentileR_le_of {l : List ℝ} {num den : ℕ} {x : ℝ} (hn : nearestRank l.length num den < l.length)
    (h : nearestRank l.length num den < (l.filter fun p => p ≤ x).length) : percentileR l num den ≤ x := by
  unfold percentileR
  have hs : (sortR l).Pairwise (· ≤ ·) := List.pairwise_insertionSort _ _
  have hperm : (sortR l).Perm l := List.perm_insertionSort _ _
  have hlen : (sortR l).length = l.length := hperm.length_eq
  have hf : ((sortR l).filter fun p => p ≤ x).length = (l.filter fun p => p ≤ x).length := (hperm.filter _).length_eq
  generalize nearestRank l.length num den = i at *
  rw [List.getD, List.getElem?_eq_getElem (by omega), Option.getD_some]
  by_contra hc
  push Not at hc
  have h0 : ((sortR l).drop i).filter (fun p => p ≤ x) = [] := by
    rw [List.filter_eq_nil_iff]
    intro p hp
    obtain ⟨k, hk, rfl⟩ := List.getElem_of_mem hp
    rw [List.length_drop] at hk
    rw [List.getElem_drop]
    have : (sortR l)[i] ≤ (sortR l)[i + k] := by
      rcases Nat.eq_zero_or_pos k with h1 | h1
      · subst h1
        exact le_rfl
      · exact List.pairwise_iff_getElem.1 hs i (i + k) (by omega) (by omega) (by omega)
    simp
    linarith
  have h1 := congrArg (fun l => (List.filter (fun p => decide (p ≤ x)) l).length) (List.take_append_drop i (sortR l))
  simp only [List.filter_append, List.length_append, h0, List.length_nil] at h1
  have h2 := List.length_filter_le (fun p => decide (p ≤ x)) ((sortR l).take i)
  rw [List.length_take] at h2
  omega

end Verif
