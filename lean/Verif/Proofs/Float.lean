import Verif.Model.Env
import Mathlib.Tactic.Linarith
import Mathlib.Tactic.Ring
/-!
# Rounding: the one lemma everything about IEEE arithmetic follows from

`Fmt.rnd_gt_iff`: the rounded pattern of `a / b` exceeds `k` iff `a / b` lies beyond the midpoint of
the magnitudes `k` and `k + 1` (ties to even).  Monotonicity, exactness and error bounds follow.
-/

namespace Verif

/-! ## Magnitudes -/

theorem Fmt.mag_lt_succ (φ : Fmt) (k : Nat) : φ.mag k < φ.mag (k + 1) := by
  have hB : 0 < 2 ^ φ.mb := Nat.two_pow_pos _
  unfold Fmt.mag
  generalize 2 ^ φ.mb = B at hB
  have hk := Nat.div_add_mod k B
  have hr := Nat.mod_lt k hB
  by_cases hc : k % B + 1 < B
  · have h1 : (k + 1) / B = k / B := by
      rw [Nat.div_eq_iff hB]; constructor <;> (have := Nat.mul_comm B (k / B); omega)
    have h2 : (k + 1) % B = k % B + 1 := by
      have := Nat.div_add_mod (k + 1) B; rw [h1] at this; omega
    rw [h1, h2]
    split
    · omega
    · exact Nat.mul_lt_mul_of_pos_right (by omega) (Nat.two_pow_pos _)
  · have h0 : k % B = B - 1 := by omega
    have e1 : k + 1 = B * (k / B + 1) := by rw [Nat.mul_add]; omega
    have h1 : (k + 1) / B = k / B + 1 := by rw [e1]; exact Nat.mul_div_cancel_left _ hB
    have h2 : (k + 1) % B = 0 := by rw [e1]; exact Nat.mul_mod_right _ _
    rw [h1, h2, h0, if_neg (Nat.succ_ne_zero _)]
    generalize k / B = q at *
    split
    · next h3 => rw [h3]; simp; omega
    · next h3 =>
      obtain ⟨q, rfl⟩ : ∃ p, q = p + 1 := ⟨q - 1, by omega⟩
      simp only [Nat.add_sub_cancel, Nat.add_zero, Nat.pow_succ]
      have hp := Nat.two_pow_pos q
      calc (B + (B - 1)) * 2 ^ q < (2 * B) * 2 ^ q := Nat.mul_lt_mul_of_pos_right (by omega) hp
        _ = B * (2 ^ q * 2) := by ring

theorem Fmt.mag_lt (φ : Fmt) {k l : Nat} (h : k < l) : φ.mag k < φ.mag l := by
  induction l with
  | zero => omega
  | succ l ih =>
    have := φ.mag_lt_succ l
    rcases Nat.lt_or_eq_of_le (Nat.le_of_lt_succ h) with h | h
    · have := ih h; omega
    · rw [h]; exact this

theorem Fmt.mag_le (φ : Fmt) {k l : Nat} (h : k ≤ l) : φ.mag k ≤ φ.mag l := by
  rcases Nat.lt_or_eq_of_le h with h | h
  · exact Nat.le_of_lt (φ.mag_lt h)
  · rw [h]

theorem Fmt.mag_lt_iff (φ : Fmt) {k l : Nat} : φ.mag k < φ.mag l ↔ k < l := by
  constructor
  · intro h
    by_contra hc
    have := φ.mag_le (Nat.le_of_not_lt hc); omega
  · exact φ.mag_lt

theorem Fmt.mag_le_iff (φ : Fmt) {k l : Nat} : φ.mag k ≤ φ.mag l ↔ k ≤ l := by
  rw [← Nat.not_lt, φ.mag_lt_iff, Nat.not_lt]

theorem Fmt.mag_inj (φ : Fmt) {k l : Nat} (h : φ.mag k = φ.mag l) : k = l :=
  Nat.le_antisymm (φ.mag_le_iff.1 h.le) (φ.mag_le_iff.1 h.ge)

@[simp] theorem Fmt.mag_zero (φ : Fmt) : φ.mag 0 = 0 := by simp [Fmt.mag]

theorem Fmt.mag_small (φ : Fmt) {k : Nat} (h : k ≤ 2 * 2 ^ φ.mb) : φ.mag k = k := by
  have hB : 0 < 2 ^ φ.mb := Nat.two_pow_pos _
  unfold Fmt.mag
  generalize 2 ^ φ.mb = B at *
  have hk := Nat.div_add_mod k B
  have hr := Nat.mod_lt k hB
  have hq : k / B ≤ 2 := by
    rw [Nat.div_le_iff_le_mul_add_pred hB]; omega
  generalize k / B = q at *
  rcases (by omega : q = 0 ∨ q = 1 ∨ q = 2) with h1 | h1 | h1
  · rw [h1, if_pos rfl]; rw [h1] at hk; omega
  · rw [h1, if_neg (by omega)]; rw [h1] at hk; simp; omega
  · rw [h1, if_neg (by omega)]; rw [h1] at hk; simp; omega

/-- Magnitudes in the binade with shift `sh`. -/
theorem Fmt.mag_binade (φ : Fmt) (sh r : Nat) (hr : r ≤ 2 ^ φ.mb) :
    φ.mag ((sh + 1) * 2 ^ φ.mb + r) = (2 ^ φ.mb + r) * 2 ^ sh := by
  have hB : 0 < 2 ^ φ.mb := Nat.two_pow_pos _
  unfold Fmt.mag
  generalize 2 ^ φ.mb = B at *
  rcases Nat.lt_or_eq_of_le hr with h | h
  · have h1 : ((sh + 1) * B + r) / B = sh + 1 := by
      rw [Nat.add_comm, Nat.add_mul_div_right _ _ hB, Nat.div_eq_of_lt h, Nat.zero_add]
    have h2 : ((sh + 1) * B + r) % B = r := by
      rw [Nat.add_comm, Nat.add_mul_mod_self_right, Nat.mod_eq_of_lt h]
    rw [h1, h2, if_neg (by omega), Nat.add_sub_cancel]
  · have e : (sh + 1) * B + r = (sh + 2) * B := by rw [h]; ring
    have h1 : ((sh + 1) * B + r) / B = sh + 2 := by rw [e]; exact Nat.mul_div_cancel _ hB
    have h2 : ((sh + 1) * B + r) % B = 0 := by rw [e]; exact Nat.mul_mod_left _ _
    rw [h1, h2, if_neg (by omega), h]
    simp only [Nat.add_zero, show sh + 2 - 1 = sh + 1 by omega, Nat.pow_succ]
    ring

/-! ## Rounding to integers -/

theorem rne_gt_iff {a b : Nat} (hb : 0 < b) (m : Nat) :
    m < rne a b ↔ if m % 2 = 0 then (2 * m + 1) * b < 2 * a else (2 * m + 1) * b ≤ 2 * a := by
  have hk := Nat.div_add_mod a b
  have hr := Nat.mod_lt a hb
  unfold rne
  generalize a / b = q at *
  generalize a % b = r at *
  subst hk
  have key : ∀ x y : Nat, x + 1 ≤ y → x * b + b ≤ y * b := by
    intro x y h
    have := Nat.mul_le_mul_right b h
    rw [Nat.add_mul] at this; omega
  have hm : (2 * m + 1) * b = 2 * (m * b) + b := by ring
  have hq : 2 * (b * q + r) = 2 * (q * b) + 2 * r := by ring
  rw [hm, hq]
  rcases Nat.lt_trichotomy m q with h | h | h
  · have := key m q h
    split <;> rename_i h1 <;> (try split) <;> (try split) <;> omega
  · subst h
    split <;> rename_i h1 <;> (try split) <;> (try split) <;> omega
  · have := key q m h
    split <;> rename_i h1 <;> (try split) <;> (try split) <;> omega

/-! ## Rounding to a format -/

theorem Fmt.rnd_le_infK (φ : Fmt) (a b : Nat) : φ.rnd a b ≤ φ.infK := Nat.min_le_left _ _

/-- Rounding is to the nearest magnitude, ties to the even pattern. -/
theorem Fmt.rnd_gt_iff (φ : Fmt) (hmb : 1 ≤ φ.mb) {a b : Nat} (hb : 0 < b) {k : Nat} (hk : k < φ.infK) :
    k < φ.rnd a b ↔ if k % 2 = 0 then (φ.mag k + φ.mag (k + 1)) * b < 2 * a
      else (φ.mag k + φ.mag (k + 1)) * b ≤ 2 * a := by
  have hB : 0 < 2 ^ φ.mb := Nat.two_pow_pos _
  have hBe : 2 ^ φ.mb % 2 = 0 := by
    obtain ⟨m, hm⟩ : ∃ m, φ.mb = m + 1 := ⟨φ.mb - 1, by omega⟩
    rw [hm, Nat.pow_succ]; exact Nat.mul_mod_left _ _
  have hdm := Nat.div_add_mod a b
  have hdr := Nat.mod_lt a hb
  unfold Fmt.rnd
  simp only
  rw [Nat.lt_min]
  simp only [hk, true_and]
  -- false once the midpoint is beyond `a / b`
  have hfalse : ∀ x, 2 * a < x * b →
      ¬ (if k % 2 = 0 then x * b < 2 * a else x * b ≤ 2 * a) := by
    intro x hx; split <;> omega
  have htrue : ∀ x, x * b < 2 * a → (if k % 2 = 0 then x * b < 2 * a else x * b ≤ 2 * a) := by
    intro x hx; split <;> omega
  by_cases hsh : Nat.log2 (a / b) ≤ φ.mb
  · -- no shift
    rw [show Nat.log2 (a / b) - φ.mb = 0 by omega]
    simp only [Nat.pow_zero, Nat.mul_one, Nat.zero_mul, Nat.add_zero]
    have hq : a / b < 2 * 2 ^ φ.mb := by
      rw [← Nat.pow_succ']
      exact Nat.lt_of_lt_of_le (Nat.lt_log2_self) (Nat.pow_le_pow_right (by omega) (by omega))
    have ha : a < 2 * 2 ^ φ.mb * b := by
      have h1 : (a / b + 1) * b ≤ 2 * 2 ^ φ.mb * b := Nat.mul_le_mul_right b hq
      rw [Nat.add_mul, Nat.mul_comm (a / b)] at h1
      omega
    rw [rne_gt_iff hb]
    by_cases hkB : k < 2 * 2 ^ φ.mb
    · rw [φ.mag_small (by omega : k ≤ 2 * 2 ^ φ.mb), φ.mag_small (by omega : k + 1 ≤ 2 * 2 ^ φ.mb),
        show k + (k + 1) = 2 * k + 1 by omega]
    · have h1 := φ.mag_le (by omega : 2 * 2 ^ φ.mb ≤ k)
      rw [φ.mag_small (Nat.le_refl _)] at h1
      have h2 := φ.mag_lt_succ k
      have h3 : (4 * 2 ^ φ.mb) * b ≤ (φ.mag k + φ.mag (k + 1)) * b := Nat.mul_le_mul_right b (by omega)
      have h4 : (4 * 2 ^ φ.mb) * b ≤ (2 * k + 1) * b := Nat.mul_le_mul_right b (by omega)
      have h5 : (4 * 2 ^ φ.mb) * b = 2 * (2 * 2 ^ φ.mb * b) := by ring
      exact iff_of_false (hfalse _ (by omega)) (hfalse _ (by omega))
  · -- shift by `sh`
    obtain ⟨sh, hs⟩ : ∃ sh, Nat.log2 (a / b) = φ.mb + sh + 1 := ⟨Nat.log2 (a / b) - φ.mb - 1, by omega⟩
    have hq0 : a / b ≠ 0 := by
      intro h; rw [h] at hsh; exact hsh (by simp)
    rw [show Nat.log2 (a / b) - φ.mb = sh + 1 by omega]
    have hlo : 2 ^ φ.mb * 2 ^ (sh + 1) ≤ a / b := by
      have := Nat.log2_self_le hq0
      rw [hs, Nat.add_assoc, Nat.pow_add] at this; exact this
    have hhi : a / b < 2 * 2 ^ φ.mb * 2 ^ (sh + 1) := by
      have := Nat.lt_log2_self (n := a / b)
      rw [hs, show φ.mb + sh + 1 + 1 = (φ.mb + 1) + (sh + 1) by omega, Nat.pow_add, Nat.pow_succ'] at this
      exact this
    have ha1 : 2 ^ φ.mb * 2 ^ (sh + 1) * b ≤ a := by
      have h1 := Nat.mul_le_mul_right b hlo
      rw [Nat.mul_comm (a / b)] at h1; omega
    have ha2 : a < 2 * 2 ^ φ.mb * 2 ^ (sh + 1) * b := by
      have h1 : (a / b + 1) * b ≤ _ * b := Nat.mul_le_mul_right b hhi
      rw [Nat.add_mul, Nat.mul_comm (a / b)] at h1
      omega
    have hp : 0 < 2 ^ (sh + 1) := Nat.two_pow_pos _
    have hbp : 0 < b * 2 ^ (sh + 1) := Nat.mul_pos hb hp
    have mlo := φ.mag_binade (sh + 1) 0 (by omega)
    have mhi := φ.mag_binade (sh + 1) (2 ^ φ.mb) (Nat.le_refl _)
    simp only [Nat.add_zero] at mlo
    rw [show (sh + 1 + 1) * 2 ^ φ.mb = 2 ^ φ.mb + (sh + 1) * 2 ^ φ.mb by ring] at mlo mhi
    rcases Nat.lt_or_ge k (2 ^ φ.mb + (sh + 1) * 2 ^ φ.mb) with h1 | h1
    · -- below the binade
      have hv : 2 ^ φ.mb - 1 < rne a (b * 2 ^ (sh + 1)) := by
        rw [rne_gt_iff hbp]
        have : (2 * (2 ^ φ.mb - 1) + 1) * (b * 2 ^ (sh + 1)) < 2 * a := by
          calc (2 * (2 ^ φ.mb - 1) + 1) * (b * 2 ^ (sh + 1))
              < (2 * 2 ^ φ.mb) * (b * 2 ^ (sh + 1)) := Nat.mul_lt_mul_of_pos_right (by omega) hbp
            _ = 2 * (2 ^ φ.mb * 2 ^ (sh + 1) * b) := by ring
            _ ≤ 2 * a := by omega
        split <;> omega
      have hm1 := φ.mag_lt h1
      have hm2 := φ.mag_le (by omega : k + 1 ≤ 2 ^ φ.mb + (sh + 1) * 2 ^ φ.mb)
      rw [mlo] at hm1 hm2
      refine iff_of_true (by omega) (htrue _ ?_)
      calc (φ.mag k + φ.mag (k + 1)) * b < (2 * (2 ^ φ.mb * 2 ^ (sh + 1))) * b :=
            Nat.mul_lt_mul_of_pos_right (by omega) hb
        _ = 2 * (2 ^ φ.mb * 2 ^ (sh + 1) * b) := by ring
        _ ≤ 2 * a := by omega
    · rcases Nat.lt_or_ge k (2 ^ φ.mb + (sh + 1) * 2 ^ φ.mb + 2 ^ φ.mb) with h2 | h2
      · -- inside the binade
        obtain ⟨r, hr⟩ : ∃ r, k = 2 ^ φ.mb + (sh + 1) * 2 ^ φ.mb + r := ⟨k - (2 ^ φ.mb + (sh + 1) * 2 ^ φ.mb), by omega⟩
        have e1 : φ.mag k = (2 ^ φ.mb + r) * 2 ^ (sh + 1) := by
          rw [← φ.mag_binade (sh + 1) r (by omega), hr]
          congr 1; ring
        have e2 : φ.mag (k + 1) = (2 ^ φ.mb + (r + 1)) * 2 ^ (sh + 1) := by
          rw [← φ.mag_binade (sh + 1) (r + 1) (by omega), hr]
          congr 1; ring
        have e3 : (φ.mag k + φ.mag (k + 1)) * b = (2 * (2 ^ φ.mb + r) + 1) * (b * 2 ^ (sh + 1)) := by
          rw [e1, e2]; ring
        have e4 : k % 2 = (2 ^ φ.mb + r) % 2 := by
          have : (sh + 1) * 2 ^ φ.mb % 2 = 0 := by rw [Nat.mul_mod, hBe]; simp
          omega
        rw [e3, e4, ← rne_gt_iff hbp]
        constructor <;> intro h <;> omega
      · -- above the binade
        have hv : ¬ 2 * 2 ^ φ.mb < rne a (b * 2 ^ (sh + 1)) := by
          rw [rne_gt_iff hbp]
          have : 2 * a < (2 * (2 * 2 ^ φ.mb) + 1) * (b * 2 ^ (sh + 1)) := by
            calc 2 * a < 2 * (2 * 2 ^ φ.mb * 2 ^ (sh + 1) * b) := by omega
              _ = (2 * (2 * 2 ^ φ.mb)) * (b * 2 ^ (sh + 1)) := by ring
              _ ≤ _ := Nat.mul_le_mul_right _ (by omega)
          split <;> omega
        have hm1 := φ.mag_le h2
        have hm2 := φ.mag_lt_succ k
        rw [mhi] at hm1
        refine iff_of_false (by omega) (hfalse _ ?_)
        calc 2 * a < 2 * (2 * 2 ^ φ.mb * 2 ^ (sh + 1) * b) := by omega
          _ = (2 * ((2 ^ φ.mb + 2 ^ φ.mb) * 2 ^ (sh + 1))) * b := by ring
          _ ≤ _ := Nat.mul_le_mul_right _ (by omega)

/-- Rounding depends only on the ratio and is monotone in it. -/
theorem Fmt.rnd_mono (φ : Fmt) (hmb : 1 ≤ φ.mb) {a b c d : Nat} (hb : 0 < b) (hd : 0 < d)
    (h : a * d ≤ c * b) : φ.rnd a b ≤ φ.rnd c d := by
  by_contra hc
  have hlt := Nat.lt_of_not_le hc
  have hk : φ.rnd c d < φ.infK := Nat.lt_of_lt_of_le hlt (φ.rnd_le_infK a b)
  have h1 := (φ.rnd_gt_iff hmb hb hk).1 hlt
  have h2 := (φ.rnd_gt_iff hmb hd hk (a := c)).not.1 (Nat.lt_irrefl _)
  generalize φ.mag (φ.rnd c d) + φ.mag (φ.rnd c d + 1) = x at h1 h2
  split at h1
  · next he =>
    rw [if_pos he] at h2
    apply h2
    have : x * b * d < 2 * a * d := Nat.mul_lt_mul_of_pos_right h1 hd
    have h3 : x * d * b < 2 * c * b := by
      calc x * d * b = x * b * d := by ring
        _ < 2 * a * d := this
        _ = 2 * (a * d) := by ring
        _ ≤ 2 * (c * b) := by omega
        _ = 2 * c * b := by ring
    exact Nat.lt_of_mul_lt_mul_right h3
  · next he =>
    rw [if_neg he] at h2
    apply h2
    have : x * b * d ≤ 2 * a * d := Nat.mul_le_mul_right d h1
    have h3 : x * d * b ≤ 2 * c * b := by
      calc x * d * b = x * b * d := by ring
        _ ≤ 2 * a * d := this
        _ = 2 * (a * d) := by ring
        _ ≤ 2 * (c * b) := by omega
        _ = 2 * c * b := by ring
    exact Nat.le_of_mul_le_mul_right h3 hb

theorem Fmt.rnd_congr (φ : Fmt) (hmb : 1 ≤ φ.mb) {a b c d : Nat} (hb : 0 < b) (hd : 0 < d)
    (h : a * d = c * b) : φ.rnd a b = φ.rnd c d :=
  Nat.le_antisymm (φ.rnd_mono hmb hb hd h.le) (φ.rnd_mono hmb hd hb h.ge)

/-- A representable magnitude rounds to itself. -/
theorem Fmt.rnd_mag (φ : Fmt) (hmb : 1 ≤ φ.mb) {k : Nat} (hk : k ≤ φ.infK) {d : Nat} (hd : 0 < d) :
    φ.rnd (φ.mag k * d) d = k := by
  apply Nat.le_antisymm
  · by_contra hc
    have hlt := Nat.lt_of_not_le hc
    have hk' : k < φ.infK := Nat.lt_of_lt_of_le hlt (φ.rnd_le_infK _ _)
    have h1 := (φ.rnd_gt_iff hmb hd hk').1 hlt
    have h2 := φ.mag_lt_succ k
    have h3 : (2 * φ.mag k) * d < (φ.mag k + φ.mag (k + 1)) * d := Nat.mul_lt_mul_of_pos_right (by omega) hd
    have h4 : (2 * φ.mag k) * d = 2 * (φ.mag k * d) := by ring
    split at h1 <;> omega
  · rcases Nat.eq_zero_or_pos k with h0 | h0
    · omega
    · have h1 : k - 1 < φ.rnd (φ.mag k * d) d := by
        rw [φ.rnd_gt_iff hmb hd (by omega)]
        have h2 := φ.mag_lt (by omega : k - 1 < k)
        rw [show k - 1 + 1 = k by omega]
        have h3 : (φ.mag (k - 1) + φ.mag k) * d < (2 * φ.mag k) * d := Nat.mul_lt_mul_of_pos_right (by omega) hd
        have h4 : (2 * φ.mag k) * d = 2 * (φ.mag k * d) := by ring
        split <;> omega
      omega

/-- Rounding does not cross a representable magnitude. -/
theorem Fmt.rnd_le (φ : Fmt) (hmb : 1 ≤ φ.mb) {a b k : Nat} (hb : 0 < b) (hk : k ≤ φ.infK)
    (h : a ≤ φ.mag k * b) : φ.rnd a b ≤ k := by
  have := φ.rnd_mono hmb hb hb (a := a) (c := φ.mag k * b) (Nat.mul_le_mul_right b h)
  rwa [φ.rnd_mag hmb hk hb] at this

theorem Fmt.le_rnd (φ : Fmt) (hmb : 1 ≤ φ.mb) {a b k : Nat} (hb : 0 < b) (hk : k ≤ φ.infK)
    (h : φ.mag k * b ≤ a) : k ≤ φ.rnd a b := by
  have := φ.rnd_mono hmb hb hb (c := a) (a := φ.mag k * b) (Nat.mul_le_mul_right b h)
  rwa [φ.rnd_mag hmb hk hb] at this

theorem Fmt.rnd_zero (φ : Fmt) (hmb : 1 ≤ φ.mb) {b : Nat} (hb : 0 < b) : φ.rnd 0 b = 0 := by
  have := φ.rnd_le hmb hb (k := 0) (Nat.zero_le _) (a := 0) (Nat.zero_le _)
  omega

/-- The rounded value is within half a gap from above. -/
theorem Fmt.rnd_upper (φ : Fmt) (hmb : 1 ≤ φ.mb) {a b : Nat} (hb : 0 < b) (h : φ.rnd a b < φ.infK) :
    2 * a ≤ (φ.mag (φ.rnd a b) + φ.mag (φ.rnd a b + 1)) * b := by
  have h1 := (φ.rnd_gt_iff hmb hb h (a := a)).not.1 (Nat.lt_irrefl _)
  split at h1 <;> omega

/-- The rounded value is within half a gap from below. -/
theorem Fmt.rnd_lower (φ : Fmt) (hmb : 1 ≤ φ.mb) {a b : Nat} (hb : 0 < b) (h : 0 < φ.rnd a b) :
    (φ.mag (φ.rnd a b - 1) + φ.mag (φ.rnd a b)) * b ≤ 2 * a := by
  have hle := φ.rnd_le_infK a b
  have h1 := (φ.rnd_gt_iff hmb hb (k := φ.rnd a b - 1) (by omega) (a := a)).1 (by omega)
  rw [show φ.rnd a b - 1 + 1 = φ.rnd a b by omega] at h1
  split at h1 <;> omega

/-- The gap above a magnitude, relative to it. -/
theorem Fmt.gap_le (φ : Fmt) (k : Nat) :
    (φ.mag (k + 1) - φ.mag k) * 2 ^ φ.mb ≤ max (2 ^ φ.mb) (φ.mag k) := by
  have hB : 0 < 2 ^ φ.mb := Nat.two_pow_pos _
  rcases Nat.lt_or_ge k (2 * 2 ^ φ.mb) with h | h
  · rw [φ.mag_small (by omega : k ≤ _), φ.mag_small (by omega : k + 1 ≤ _)]
    simp
  · have hd := Nat.div_add_mod k (2 ^ φ.mb)
    have hr := Nat.mod_lt k hB
    have hq : 2 ≤ k / 2 ^ φ.mb := by rw [Nat.le_div_iff_mul_le hB]; omega
    obtain ⟨sh, hs⟩ : ∃ sh, k / 2 ^ φ.mb = sh + 1 := ⟨k / 2 ^ φ.mb - 1, by omega⟩
    have e : k = (sh + 1) * 2 ^ φ.mb + k % 2 ^ φ.mb := by rw [← hs, Nat.mul_comm]; omega
    have e1 := φ.mag_binade sh (k % 2 ^ φ.mb) (by omega)
    have e2 := φ.mag_binade sh (k % 2 ^ φ.mb + 1) (by omega)
    rw [← Nat.add_assoc, ← e] at e2
    rw [← e] at e1
    rw [e1, e2]
    have : (2 ^ φ.mb + (k % 2 ^ φ.mb + 1)) * 2 ^ sh - (2 ^ φ.mb + k % 2 ^ φ.mb) * 2 ^ sh = 2 ^ sh := by
      rw [← Nat.sub_mul]
      rw [show 2 ^ φ.mb + (k % 2 ^ φ.mb + 1) - (2 ^ φ.mb + k % 2 ^ φ.mb) = 1 by omega, Nat.one_mul]
    rw [this]
    refine Nat.le_trans ?_ (Nat.le_max_right _ _)
    rw [Nat.mul_comm]
    exact Nat.mul_le_mul_right _ (by omega)

/-- Error bound from above, valid for every result including infinity. -/
theorem Fmt.rnd_abs_upper (φ : Fmt) (hmb : 1 ≤ φ.mb) {a b : Nat} (hb : 0 < b) :
    φ.mag (φ.rnd a b) * (2 * 2 ^ φ.mb - 1) * b ≤ (2 * a + b) * 2 ^ φ.mb := by
  have hB : 0 < 2 ^ φ.mb := Nat.two_pow_pos _
  rcases Nat.eq_zero_or_pos (φ.rnd a b) with h | h
  · rw [h]; simp
  · have h1 := φ.rnd_lower hmb hb h
    have h2 := φ.gap_le (φ.rnd a b - 1)
    rw [show φ.rnd a b - 1 + 1 = φ.rnd a b by omega] at h2
    have h3 := φ.mag_lt (by omega : φ.rnd a b - 1 < φ.rnd a b)
    generalize φ.mag (φ.rnd a b) = x at *
    generalize φ.mag (φ.rnd a b - 1) = y at *
    generalize 2 ^ φ.mb = B at *
    have h4 : (x - y) * B ≤ B + x := Nat.le_trans h2 (by omega)
    obtain ⟨g, rfl⟩ : ∃ g, x = y + g := ⟨x - y, by omega⟩
    obtain ⟨C, rfl⟩ : ∃ C, B = C + 1 := ⟨B - 1, by omega⟩
    rw [show y + g - y = g by omega] at h4
    rw [show 2 * (C + 1) - 1 = 2 * C + 1 by omega]
    have h5 : (y + (y + g)) * b * (C + 1) ≤ 2 * a * (C + 1) := Nat.mul_le_mul_right _ h1
    have h6 : g * (C + 1) * b ≤ (C + 1 + (y + g)) * b := Nat.mul_le_mul_right _ h4
    nlinarith

/-- Error bound from below for finite results. -/
theorem Fmt.rnd_abs_lower (φ : Fmt) (hmb : 1 ≤ φ.mb) {a b : Nat} (hb : 0 < b) (h : φ.rnd a b < φ.infK) :
    2 * a * 2 ^ φ.mb ≤ (φ.mag (φ.rnd a b) * (2 * 2 ^ φ.mb + 1) + 2 ^ φ.mb) * b := by
  have h1 := φ.rnd_upper hmb hb h
  have h2 := φ.gap_le (φ.rnd a b)
  have h3 := φ.mag_lt_succ (φ.rnd a b)
  generalize φ.mag (φ.rnd a b) = x at *
  generalize φ.mag (φ.rnd a b + 1) = y at *
  generalize 2 ^ φ.mb = B at *
  have h4 : (y - x) * B ≤ B + x := Nat.le_trans h2 (by omega)
  obtain ⟨g, rfl⟩ : ∃ g, y = x + g := ⟨y - x, by omega⟩
  rw [show x + g - x = g by omega] at h4
  have h5 : 2 * a * B ≤ (x + (x + g)) * b * B := Nat.mul_le_mul_right _ h1
  have h6 : g * B * b ≤ (B + x) * b := Nat.mul_le_mul_right _ h4
  nlinarith

end Verif
