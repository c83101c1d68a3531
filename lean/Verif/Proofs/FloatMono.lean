import Verif.Proofs.FloatSum
import Verif.Proofs.Orders
/-!
# Rounded operations are monotone
-/

namespace Verif
namespace Fl
variable {φ : Fmt}

theorem rank_ofSMag (hmb : 1 ≤ φ.mb) (z : Bool) (i : Int) :
    (ofSMag φ z i).rank = if i < 0 then -(φ.rnd i.natAbs 1 : Int) else (φ.rnd i.natAbs 1 : Int) := by
  unfold ofSMag
  split
  · next h =>
    subst h
    have := φ.rnd_zero hmb Nat.one_pos
    cases z <;> simp [zero, rank, skey, this]
  · next h =>
    unfold ofMag rank skey
    by_cases hi : i < 0 <;> simp [hi]

theorem rank_ofSMag_mono (hmb : 1 ≤ φ.mb) {i j : Int} (h : i ≤ j) (z z' : Bool) :
    (ofSMag φ z i).rank ≤ (ofSMag φ z' j).rank := by
  rw [rank_ofSMag hmb, rank_ofSMag hmb]
  have mono : ∀ a b : Nat, a ≤ b → φ.rnd a 1 ≤ φ.rnd b 1 := fun a b hab =>
    φ.rnd_mono hmb Nat.one_pos Nat.one_pos (by omega)
  split <;> split
  · have := mono j.natAbs i.natAbs (by omega)
    omega
  · omega
  · omega
  · have := mono i.natAbs j.natAbs (by omega)
    omega

theorem smag_mono {s t : Bool} {k l : Nat} (h : skey s k ≤ skey t l) : smag φ s k ≤ smag φ t l := by
  unfold skey at h
  unfold smag
  have h1 := φ.mag_le (k := k) (l := l)
  have h2 := φ.mag_le (k := l) (l := k)
  cases s <;> cases t <;> simp only [Bool.false_eq_true, if_false, if_true] at * <;> try omega
  have hk : k = 0 := by omega
  have hl : l = 0 := by omega
  subst hk hl
  simp [Fmt.mag_zero]

theorem rank_ofSMag_bounds (hmb : 1 ≤ φ.mb) (z : Bool) (i : Int) :
    -(φ.infK : Int) ≤ (ofSMag φ z i).rank ∧ (ofSMag φ z i).rank ≤ φ.infK := by
  rw [rank_ofSMag hmb]
  have := φ.rnd_le_infK i.natAbs 1
  split <;> omega

theorem ofSMag_not_nan (z : Bool) (i : Int) : (ofSMag φ z i).isNan = false := by
  unfold ofSMag
  split <;> rfl

/-- Adding the same number keeps the order, unless NaN appears. -/
theorem add_mono (hmb : 1 ≤ φ.mb) {x y z : Fl φ} (h : le x y = true) (h1 : (add x z).isNan = false)
    (h2 : (add y z).isNan = false) : le (add x z) (add y z) = true := by
  rw [le_rank h1 h2]
  cases x with
  | nan => cases h
  | num s k hk =>
    cases y with
    | nan => cases h
    | num t l hl =>
      cases z with
      | nan => cases h1
      | num r j hj =>
        rw [le_num, decide_eq_true_eq] at h
        have hs := smag_mono (φ := φ) h
        have hinf := infK_pos φ
        unfold add at *
        by_cases ck : k = φ.infK <;> by_cases cl : l = φ.infK <;> by_cases cj : j = φ.infK
        · simp only [if_pos ck, if_pos cl, if_pos cj] at *
          subst ck cl cj
          cases s <;> cases t <;> cases r <;> simp_all [inf, rank, skey, isNan]
        · simp only [if_pos ck, if_pos cl, if_neg cj] at *
          subst ck cl
          cases s <;> cases t <;> simp_all [inf, rank, skey]
        · simp only [if_pos ck, if_neg cl, if_pos cj] at *
          subst ck cj
          cases s <;> cases t <;> cases r <;> simp_all [inf, rank, skey, isNan]
        · simp only [if_pos ck, if_neg cl, if_neg cj] at *
          subst ck
          have hb := rank_ofSMag_bounds hmb (t && r) (smag φ t l + smag φ r j)
          cases s
          · exfalso; cases t <;> simp [skey] at h <;> omega
          · simp only [inf, rank, skey, if_true]; exact hb.1
        · simp only [if_neg ck, if_pos cl, if_pos cj] at *
          subst cl cj
          cases s <;> cases t <;> cases r <;> simp_all [inf, rank, skey, isNan]
        · simp only [if_neg ck, if_pos cl, if_neg cj] at *
          subst cl
          have hb := rank_ofSMag_bounds hmb (s && r) (smag φ s k + smag φ r j)
          cases t
          · simp only [inf, rank, skey, Bool.false_eq_true, if_false]; exact hb.2
          · exfalso; cases s <;> simp [skey] at h <;> omega
        · simp only [if_neg ck, if_neg cl, if_pos cj]
          exact Int.le_refl _
        · simp only [if_neg ck, if_neg cl, if_neg cj]
          exact rank_ofSMag_mono hmb (by omega) _ _

/-- Multiplying with the same positive finite number keeps the order. -/
theorem mul_mono (hmb : 1 ≤ φ.mb) {c : Nat} {hc : c ≤ φ.infK} (c0 : c ≠ 0) (c1 : c ≠ φ.infK) {x y : Fl φ}
    (h : le x y = true) : le (mul (.num false c hc) x) (mul (.num false c hc) y) = true := by
  cases x with
  | nan => cases h
  | num s k hk =>
    cases y with
    | nan => cases h
    | num t l hl =>
      rw [le_num, decide_eq_true_eq] at h
      have hinf := infK_pos φ
      have key : ∀ (s : Bool) (k : Nat) (hk : k ≤ φ.infK), ∃ k' h', mul (.num false c hc) (.num s k hk : Fl φ) = .num s k' h' ∧
          ((k = φ.infK ∧ k' = φ.infK) ∨ (k ≠ φ.infK ∧ k' = φ.rnd (φ.mag c * φ.mag k) (2 ^ φ.u))) := by
        intro s k hk
        unfold mul
        by_cases ck : k = φ.infK
        · simp only [if_neg c1, if_pos ck, if_neg c0, Bool.false_bne]
          exact ⟨φ.infK, Nat.le_refl _, rfl, Or.inl ⟨ck, rfl⟩⟩
        · simp only [if_neg c1, if_neg ck, Bool.false_bne]
          exact ⟨φ.rnd (φ.mag c * φ.mag k) (2 ^ φ.u), φ.rnd_le_infK .., rfl, Or.inr ⟨ck, rfl⟩⟩
      obtain ⟨k', hk', e1, d1⟩ := key s k hk
      obtain ⟨l', hl', e2, d2⟩ := key t l hl
      rw [e1, e2, le_num, decide_eq_true_eq]
      have mono : ∀ {k l k' l' : Nat}, k ≤ φ.infK → l ≤ φ.infK → k' ≤ φ.infK → l' ≤ φ.infK →
          ((k = φ.infK ∧ k' = φ.infK) ∨ (k ≠ φ.infK ∧ k' = φ.rnd (φ.mag c * φ.mag k) (2 ^ φ.u))) →
          ((l = φ.infK ∧ l' = φ.infK) ∨ (l ≠ φ.infK ∧ l' = φ.rnd (φ.mag c * φ.mag l) (2 ^ φ.u))) →
          k ≤ l → k' ≤ l' := by
        intro k l k' l' a1 a2 a3 a4 d1 d2 hkl
        rcases d2 with ⟨_, h2⟩ | ⟨hl, h2⟩
        · omega
        · rcases d1 with ⟨h1, _⟩ | ⟨_, h1⟩
          · omega
          · rw [h1, h2]
            apply φ.rnd_mono hmb (Nat.two_pow_pos _) (Nat.two_pow_pos _)
            exact Nat.mul_le_mul_right _ (Nat.mul_le_mul_left _ (φ.mag_le hkl))
      have zero : ∀ {k k' : Nat}, ((k = φ.infK ∧ k' = φ.infK) ∨
          (k ≠ φ.infK ∧ k' = φ.rnd (φ.mag c * φ.mag k) (2 ^ φ.u))) → k = 0 → k' = 0 := by
        intro k k' d hk
        subst hk
        rcases d with ⟨h1, _⟩ | ⟨_, h1⟩
        · omega
        · rw [h1, Fmt.mag_zero, Nat.mul_zero, φ.rnd_zero hmb (Nat.two_pow_pos _)]
      unfold skey at *
      cases s <;> cases t <;> simp only [Bool.false_eq_true, if_false, if_true] at *
      · have := mono hk hl hk' hl' d1 d2 (by omega); omega
      · have := zero d1 (by omega); have := zero d2 (by omega); omega
      · omega
      · have := mono hl hk hl' hk' d2 d1 (by omega); omega

/-- A difference of ordered numbers is not negative. -/
theorem sub_not_neg (hmb : 1 ≤ φ.mb) {x y : Fl φ} (h : le y x = true) : lt (sub x y) (zero false) = false := by
  cases x with
  | nan => cases y <;> cases h
  | num s k hk =>
    cases y with
    | nan => cases h
    | num t l hl =>
      rw [le_num, decide_eq_true_eq] at h
      have hs := smag_mono (φ := φ) h
      have hinf := infK_pos φ
      unfold sub neg add
      by_cases ck : k = φ.infK <;> by_cases cl : l = φ.infK
      · simp only [if_pos ck, if_pos cl]
        subst ck cl
        cases s <;> cases t <;> simp_all [inf, skey, lt, zero]
      · simp only [if_pos ck, if_neg cl]
        subst ck
        cases s
        · simp [inf, lt, zero, skey]
        · exfalso; cases t <;> simp [skey] at h <;> omega
      · simp only [if_neg ck, if_pos cl]
        subst cl
        cases t
        · exfalso; cases s <;> simp [skey] at h <;> omega
        · simp [inf, lt, zero, skey]
      · simp only [if_neg ck, if_neg cl]
        have hn : smag φ (!t) l = -smag φ t l := by cases t <;> simp [smag]
        have h1 := rank_ofSMag hmb (s && !t) (smag φ s k + smag φ (!t) l)
        rw [if_neg (by omega)] at h1
        have h2 := lt_rank (ofSMag_not_nan (φ := φ) (s && !t) (smag φ s k + smag φ (!t) l))
          (show (zero false : Fl φ).isNan = false from rfl)
        have h3 : (zero false : Fl φ).rank = 0 := rfl
        rw [h3, h1] at h2
        rw [Bool.eq_false_iff, Ne, h2]
        omega

end Fl
end Verif
