import Verif.Proofs.Percentile
import Verif.Proofs.FloatOps
import Verif.Model.History
/-! # Sums of floats -/

set_option linter.unusedSimpArgs false

namespace Verif
namespace Fl
variable {φ : Fmt}


theorem ofSMag_ne_negzero (ok : φ.Ok) {i : Int} {z : Bool} (h : i = 0 → z = false) :
    ofSMag φ z i ≠ zero true := by
  unfold ofSMag
  split
  · next h0 => rw [h h0]; simp [zero]
  · next h0 =>
    intro hh
    unfold ofMag zero at hh
    injection hh with h1 h2
    have : 1 ≤ φ.rnd i.natAbs 1 := by
      apply Fmt.le_rnd _ ok.mb (by omega) (infK_pos _)
      have : φ.mag 1 = 1 := Fmt.mag_small _ (by have : 1 ≤ 2 ^ φ.mb := Nat.one_le_two_pow; omega)
      rw [this]; omega
    omega

/-- A sum is negative zero only if both summands are. -/
theorem add_ne_negzero (ok : φ.Ok) {x : Fl φ} (h : x ≠ zero true) (y : Fl φ) : add x y ≠ zero true := by
  have hinf : (0 : Nat) ≠ φ.infK := (infK_pos φ).ne
  cases x with
  | nan => rw [nan_add]; simp [zero]
  | num s k hk =>
    cases y with
    | nan => rw [add_nan]; simp [zero]
    | num t l hl =>
      unfold add
      simp only
      split
      · split
        · split
          · intro hh; unfold inf zero at hh; injection hh with _ h2; exact hinf h2.symm
          · simp [zero]
        · intro hh; unfold inf zero at hh; injection hh with _ h2; exact hinf h2.symm
      · split
        · intro hh; unfold inf zero at hh; injection hh with _ h2; exact hinf h2.symm
        · apply ofSMag_ne_negzero ok
          intro h0
          cases s <;> cases t <;> try rfl
          exfalso
          apply h
          unfold zero
          have : φ.mag k = 0 := by simp only [smag, if_true] at h0; omega
          have : k = 0 := by
            by_contra hk0
            have := (mag_pos_iff (φ := φ)).2 (Nat.pos_of_ne_zero hk0)
            omega
          subst this
          rfl

/-- Adding to positive zero changes nothing but the sign of a zero. -/
theorem zero_add (ok : φ.Ok) {x : Fl φ} (h : x ≠ zero true) : add (zero false) x = x := by
  have hinf : (0 : Nat) ≠ φ.infK := (infK_pos φ).ne
  cases x with
  | nan => rw [add_nan]
  | num s k hk =>
    cases s with
    | false => exact zero_add_pos ok.mb hk
    | true =>
      have hk0 : k ≠ 0 := by
        rintro rfl; exact h rfl
      have hm := (mag_pos_iff (φ := φ)).2 (Nat.pos_of_ne_zero hk0)
      show (if 0 = φ.infK then (if k = φ.infK then _ else _) else if k = φ.infK then inf true
        else ofSMag φ (false && true) (smag φ false 0 + smag φ true k)) = _
      rw [if_neg hinf]
      split
      · next h1 => subst h1; rfl
      · have h0 : φ.mag 0 = 0 := Fmt.mag_small _ (Nat.zero_le _)
        have e : smag φ false 0 + smag φ true k = -(φ.mag k : Int) := by
          simp [smag, h0]
        rw [e]
        unfold ofSMag
        rw [if_neg (by omega)]
        apply ext_num
        · simp; omega
        · rw [Int.natAbs_neg, Int.natAbs_natCast]
          have := Fmt.rnd_mag φ ok.mb hk (d := 1) (by omega)
          rwa [Nat.mul_one] at this

/-- Non-negative number or NaN. -/
def NonnegOrNan : Fl φ → Prop
  | .nan => True
  | .num s _ _ => s = false

/-- Non-negative number (possibly infinite). -/
def Nonneg : Fl φ → Prop
  | .nan => False
  | .num s _ _ => s = false

theorem Nonneg.out {x : Fl φ} (h : x.Nonneg) : ∃ k hk, x = .num false k hk := by
  cases x with
  | nan => cases h
  | num s k hk => cases h; exact ⟨k, hk, rfl⟩

theorem Nonneg.not_nan {x : Fl φ} (h : x.Nonneg) : x.isNan = false := by
  obtain ⟨k, hk, rfl⟩ := h.out; rfl

theorem Nonneg.add (hmb : 1 ≤ φ.mb) {x y : Fl φ} (hx : x.Nonneg) (hy : y.Nonneg) : (Fl.add x y).Nonneg := by
  obtain ⟨k, hk, rfl⟩ := hx.out
  obtain ⟨l, hl, rfl⟩ := hy.out
  rw [add_pos hmb]
  rfl

end Fl

open Fl

/-- Sums of doubles starting from `0.0`. -/
theorem foldl_ne_negzero (l : List F64) {s : F64} (h : s ≠ zero true) : l.foldl Fl.add s ≠ zero true := by
  induction l generalizing s with
  | nil => exact h
  | cons x l ih => exact ih (add_ne_negzero Fmt.ok64 h x)

theorem sum_ne_negzero (l : List F64) : sumD (Fl.arith Fmt.b64) l ≠ zero true := by
  apply foldl_ne_negzero
  show (zero false : F64) ≠ zero true
  simp [zero]

theorem zero_add_sum (l : List F64) :
    Fl.add (zero false) (sumD (Fl.arith Fmt.b64) l) = sumD (Fl.arith Fmt.b64) l :=
  Fl.zero_add Fmt.ok64 (sum_ne_negzero l)

theorem foldl_nan (l : List F64) : l.foldl Fl.add .nan = .nan := by
  induction l with
  | nil => rfl
  | cons x l ih => rw [List.foldl_cons, nan_add, ih]

/-- A NaN summand makes the sum NaN. -/
theorem sum_nan {l : List F64} (h : .nan ∈ l) : sumD (Fl.arith Fmt.b64) l = .nan := by
  obtain ⟨a, b, rfl⟩ := List.append_of_mem h
  show (a ++ .nan :: b).foldl Fl.add (zero false) = .nan
  rw [List.foldl_append, List.foldl_cons, add_nan, foldl_nan]

theorem foldl_nonneg {l : List F64} (h : ∀ x ∈ l, x.Nonneg) {s : F64} (hs : s.Nonneg) :
    (l.foldl Fl.add s).Nonneg := by
  induction l generalizing s with
  | nil => exact hs
  | cons x l ih =>
    exact ih (fun y hy => h y (by simp [hy])) (hs.add Fmt.b64_mb (h x (by simp)))

theorem sum_nonneg {l : List F64} (h : ∀ x ∈ l, x.Nonneg) : (sumD (Fl.arith Fmt.b64) l).Nonneg :=
  foldl_nonneg h rfl

end Verif
