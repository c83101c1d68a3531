import Verif.Proofs.CouplePeak
import Verif.Proofs.FloatSum
/-!
# Opposite numbers

Rounding to nearest is symmetric, so all operations of the filter and the interpolator take opposite inputs
to opposite outputs, except that an exact zero result is positive either way.
-/

set_option linter.unusedSimpArgs false

namespace Verif.Fl
variable {φ : Fmt}

/-- Opposite numbers; zeros of any sign are opposite to each other, and so are NaNs. -/
def Opp : Fl φ → Fl φ → Prop
  | .nan, .nan => True
  | .num s k _, .num s' k' _ => k' = k ∧ (k = 0 ∨ s' = !s)
  | _, _ => False

theorem opp_neg (x : Fl φ) : Opp x (neg x) := by
  cases x with
  | nan => trivial
  | num s k h => exact ⟨rfl, Or.inr rfl⟩

theorem opp_zero (s s' : Bool) : Opp (zero s : Fl φ) (zero s') := ⟨rfl, Or.inl rfl⟩

theorem Opp.nan_or {x y : Fl φ} (h : Opp x y) : (x = .nan ∧ y = .nan) ∨
    ∃ s s' k hk, x = .num s k hk ∧ y = .num s' k hk ∧ (k = 0 ∨ s' = !s) := by
  cases x with
  | nan => cases y with
    | nan => exact Or.inl ⟨rfl, rfl⟩
    | num s k h => exact absurd h id
  | num s k hk => cases y with
    | nan => exact absurd h id
    | num s' k' hk' =>
      obtain ⟨rfl, h2⟩ := h
      exact Or.inr ⟨s, s', k', hk, rfl, rfl, h2⟩

theorem Opp.neg {x y : Fl φ} (h : Opp x y) : Opp (Fl.neg x) (Fl.neg y) := by
  rcases h.nan_or with ⟨rfl, rfl⟩ | ⟨s, s', k, hk, rfl, rfl, h0⟩
  · trivial
  · exact ⟨rfl, h0.imp id fun h => by rw [h]⟩

theorem Opp.ftz {x y : Fl φ} (h : Opp x y) : Opp (Fl.ftz x) (Fl.ftz y) := by
  rcases h.nan_or with ⟨rfl, rfl⟩ | ⟨s, s', k, hk, rfl, rfl, h0⟩
  · trivial
  · unfold Fl.ftz
    dsimp only
    split
    · exact opp_zero _ _
    · exact ⟨rfl, h0⟩

theorem Opp.flush {x y : Fl φ} (h : Opp x y) (t : Target) : Opp (Fl.flush t x) (Fl.flush t y) := by
  unfold Fl.flush
  split
  · exact h.ftz
  · exact h

theorem Opp.abs {x y : Fl φ} (h : Opp x y) : Fl.abs y = Fl.abs x := by
  rcases h.nan_or with ⟨rfl, rfl⟩ | ⟨s, s', k, hk, rfl, rfl, h0⟩ <;> rfl

theorem Opp.key {x y : Fl φ} (h : Opp x y) : mkey x = mkey y := by
  rcases h.nan_or with ⟨rfl, rfl⟩ | ⟨s, s', k, hk, rfl, rfl, h0⟩ <;> rfl

theorem mag_zero_iff : φ.mag 0 = 0 := by
  rcases Nat.eq_zero_or_pos (φ.mag 0) with h | h
  · exact h
  · exact absurd (mag_pos_iff.1 h) (Nat.lt_irrefl _)

theorem smag_opp {s s' : Bool} {k : Nat} (h : k = 0 ∨ s' = !s) : smag φ s' k = -smag φ s k := by
  rcases h with rfl | rfl
  · unfold smag
    rw [mag_zero_iff]
    cases s <;> cases s' <;> rfl
  · unfold smag
    cases s <;> simp

theorem ofSMag_opp (z z' : Bool) (i : Int) : Opp (ofSMag φ z i) (ofSMag φ z' (-i)) := by
  unfold ofSMag
  by_cases h : i = 0
  · rw [if_pos h, if_pos (by omega)]
    exact opp_zero _ _
  · rw [if_neg h, if_neg (by omega)]
    unfold ofMag
    refine ⟨by rw [Int.natAbs_neg], Or.inr ?_⟩
    by_cases h2 : i < 0
    · rw [decide_eq_true h2, decide_eq_false (by omega)]; rfl
    · rw [decide_eq_false h2, decide_eq_true (by omega)]; rfl

theorem opp_inf {s s' : Bool} (h : s' = !s) : Opp (inf s : Fl φ) (inf s') := ⟨rfl, Or.inr h⟩

theorem Opp.add {x x' y y' : Fl φ} (h : Opp x x') (g : Opp y y') :
    Opp (Fl.add x y) (Fl.add x' y') := by
  rcases h.nan_or with ⟨rfl, rfl⟩ | ⟨s, s', k, hk, rfl, rfl, h0⟩
  · trivial
  · rcases g.nan_or with ⟨rfl, rfl⟩ | ⟨u, u', l, hl, rfl, rfl, g0⟩
    · trivial
    · have hi := infK_pos φ
      unfold Fl.add
      dsimp only
      by_cases hk' : k = φ.infK
      · have hs : s' = !s := h0.resolve_left (by omega)
        rw [if_pos hk', if_pos hk']
        by_cases hl' : l = φ.infK
        · have hu : u' = !u := g0.resolve_left (by omega)
          rw [if_pos hl', if_pos hl', hs, hu]
          by_cases hsu : s = u
          · rw [if_pos hsu, if_pos (by rw [hsu])]
            exact opp_inf rfl
          · rw [if_neg hsu, if_neg (by intro hh; exact hsu (by simpa using hh))]
            trivial
        · rw [if_neg hl', if_neg hl', hs]
          exact opp_inf rfl
      · rw [if_neg hk', if_neg hk']
        by_cases hl' : l = φ.infK
        · have hu : u' = !u := g0.resolve_left (by omega)
          rw [if_pos hl', if_pos hl', hu]
          exact opp_inf rfl
        · rw [if_neg hl', if_neg hl', smag_opp h0, smag_opp g0,
            show -smag φ s k + -smag φ u l = -(smag φ s k + smag φ u l) by omega]
          exact ofSMag_opp _ _ _

theorem Opp.sub {x x' y y' : Fl φ} (h : Opp x x') (g : Opp y y') :
    Opp (Fl.sub x y) (Fl.sub x' y') := Opp.add h g.neg

theorem rnd_zero_mul (a : Nat) {d : Nat} (hd : 0 < d) (hmb : 1 ≤ φ.mb) : φ.rnd (φ.mag 0 * a) d = 0 := by
  rw [mag_zero_iff, Nat.zero_mul]
  exact φ.rnd_zero hmb hd

theorem Opp.mul (hmb : 1 ≤ φ.mb) {x x' : Fl φ} (h : Opp x x') (c : Fl φ) : Opp (Fl.mul x c) (Fl.mul x' c) := by
  rcases h.nan_or with ⟨rfl, rfl⟩ | ⟨s, s', k, hk, rfl, rfl, h0⟩
  · trivial
  · cases c with
    | nan => trivial
    | num u l hl =>
      have hi := infK_pos φ
      unfold Fl.mul
      dsimp only
      by_cases hk' : k = φ.infK
      · have hs : s' = !s := h0.resolve_left (by omega)
        rw [if_pos hk', if_pos hk']
        split
        · trivial
        · exact opp_inf (by rw [hs]; cases s <;> cases u <;> rfl)
      · rw [if_neg hk', if_neg hk']
        by_cases hl' : l = φ.infK
        · rw [if_pos hl', if_pos hl']
          by_cases hz : k = 0
          · rw [if_pos hz, if_pos hz]
            trivial
          · rw [if_neg hz, if_neg hz]
            exact opp_inf (by rw [h0.resolve_left hz]; cases s <;> cases u <;> rfl)
        · rw [if_neg hl', if_neg hl']
          unfold ofMag
          refine ⟨rfl, ?_⟩
          rcases h0 with rfl | rfl
          · exact Or.inl (rnd_zero_mul _ (Nat.two_pow_pos _) hmb)
          · exact Or.inr (by cases s <;> cases u <;> rfl)

theorem Opp.square {x x' : Fl φ} (h : Opp x x') : Fl.mul x x = Fl.mul x' x' := by
  rcases h.nan_or with ⟨rfl, rfl⟩ | ⟨s, s', k, hk, rfl, rfl, h0⟩
  · rfl
  · unfold Fl.mul
    simp only [Bool.xor_self]

theorem Opp.fma {x x' a a' : Fl φ} (h : Opp x x') (g : Opp a a') (c : Fl φ) :
    Opp (Fl.fma x c a) (Fl.fma x' c a') := by
  rcases h.nan_or with ⟨rfl, rfl⟩ | ⟨s, s', k, hk, rfl, rfl, h0⟩
  · trivial
  · cases c with
    | nan => trivial
    | num u l hl =>
      rcases g.nan_or with ⟨rfl, rfl⟩ | ⟨r, r', j, hj, rfl, rfl, g0⟩
      · trivial
      · have hi := infK_pos φ
        unfold Fl.fma
        dsimp only
        by_cases h1 : k = φ.infK ∨ l = φ.infK
        · rw [if_pos h1, if_pos h1]
          by_cases h2 : k = 0 ∨ l = 0
          · rw [if_pos h2, if_pos h2]
            trivial
          · rw [if_neg h2, if_neg h2]
            have hs : s' = !s := h0.resolve_left (fun h => h2 (Or.inl h))
            have hx : (s' ^^ u) = !(s ^^ u) := by rw [hs]; cases s <;> cases u <;> rfl
            by_cases h3 : j = φ.infK
            · have hr : r' = !r := g0.resolve_left (by omega)
              rw [if_pos h3, if_pos h3, hx, hr]
              by_cases h4 : (s ^^ u) = r
              · rw [if_pos h4, if_pos (by rw [h4])]
                exact opp_inf rfl
              · rw [if_neg h4, if_neg (by intro hh; exact h4 (by simpa using hh))]
                trivial
            · rw [if_neg h3, if_neg h3, hx]
              exact opp_inf rfl
        · rw [if_neg h1, if_neg h1]
          by_cases h3 : j = φ.infK
          · rw [if_pos h3, if_pos h3]
            exact ⟨rfl, g0⟩
          · rw [if_neg h3, if_neg h3]
            have hp : (if (s' ^^ u) then (-1 : Int) else 1) * (φ.mag k * φ.mag l : Nat) =
                -((if (s ^^ u) then (-1 : Int) else 1) * (φ.mag k * φ.mag l : Nat)) := by
              rcases h0 with rfl | rfl
              · rw [mag_zero_iff]; simp
              · cases s <;> cases u <;> simp
            rw [hp, smag_opp g0]
            generalize (if (s ^^ u) then (-1 : Int) else 1) * (φ.mag k * φ.mag l : Nat) = p
            rw [Int.neg_mul, ← Int.neg_add]
            generalize p + smag φ r j * ((2 ^ φ.u : Nat) : Int) = i
            by_cases h5 : i = 0
            · rw [if_pos h5, if_pos (by omega)]
              exact opp_zero _ _
            · rw [if_neg h5, if_neg (by omega)]
              unfold ofMag
              refine ⟨by rw [Int.natAbs_neg], Or.inr ?_⟩
              by_cases h2 : i < 0
              · rw [decide_eq_true h2, decide_eq_false (by omega)]; rfl
              · rw [decide_eq_false h2, decide_eq_true (by omega)]; rfl

theorem Opp.cast {ψ : Fmt} (hmb : 1 ≤ ψ.mb) {x x' : Fl φ} (h : Opp x x') : Opp (Fl.cast ψ x) (Fl.cast ψ x') := by
  rcases h.nan_or with ⟨rfl, rfl⟩ | ⟨s, s', k, hk, rfl, rfl, h0⟩
  · trivial
  · have hi := infK_pos φ
    unfold Fl.cast
    dsimp only
    by_cases hk' : k = φ.infK
    · rw [if_pos hk', if_pos hk']
      exact opp_inf (h0.resolve_left (by omega))
    · rw [if_neg hk', if_neg hk']
      unfold ofMag
      refine ⟨rfl, ?_⟩
      rcases h0 with rfl | rfl
      · rw [mag_zero_iff, Nat.zero_mul]
        exact Or.inl (ψ.rnd_zero hmb (Nat.two_pow_pos _))
      · exact Or.inr rfl

theorem Opp.div (hmb : 1 ≤ φ.mb) {x x' : Fl φ} (h : Opp x x') (c : Fl φ) : Opp (Fl.div x c) (Fl.div x' c) := by
  rcases h.nan_or with ⟨rfl, rfl⟩ | ⟨s, s', k, hk, rfl, rfl, h0⟩
  · trivial
  · cases c with
    | nan => trivial
    | num u l hl =>
      have hi := infK_pos φ
      unfold Fl.div
      dsimp only
      by_cases hk' : k = φ.infK
      · have hs : s' = !s := h0.resolve_left (by omega)
        rw [if_pos hk', if_pos hk']
        split
        · trivial
        · exact opp_inf (by rw [hs]; cases s <;> cases u <;> rfl)
      · rw [if_neg hk', if_neg hk']
        split
        · exact opp_zero _ _
        · by_cases hl' : l = 0
          · rw [if_pos hl', if_pos hl']
            by_cases hz : k = 0
            · rw [if_pos hz, if_pos hz]
              trivial
            · rw [if_neg hz, if_neg hz]
              exact opp_inf (by rw [h0.resolve_left hz]; cases s <;> cases u <;> rfl)
          · rw [if_neg hl', if_neg hl']
            unfold ofMag
            refine ⟨rfl, ?_⟩
            rcases h0 with rfl | rfl
            · exact Or.inl (rnd_zero_mul _ (mag_pos_iff.2 (Nat.pos_of_ne_zero hl')) hmb)
            · exact Or.inr (by cases s <;> cases u <;> rfl)

theorem opp_ofInt (hmb : 1 ≤ φ.mb) (i : Int) : Opp (ofInt φ i) (ofInt φ (-i)) := by
  unfold ofInt ofMag
  refine ⟨by rw [Int.natAbs_neg], ?_⟩
  by_cases h : i = 0
  · subst h
    refine Or.inl ?_
    rw [Int.natAbs_zero, Nat.zero_mul]
    exact φ.rnd_zero hmb Nat.one_pos
  · refine Or.inr ?_
    by_cases h2 : i < 0
    · rw [decide_eq_true h2, decide_eq_false (by omega)]; rfl
    · rw [decide_eq_false h2, decide_eq_true (by omega)]; rfl

end Verif.Fl
