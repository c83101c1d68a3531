import Verif.Proofs.FilterErr
import Verif.Proofs.Orders
import Verif.Props.C34
import Verif.Props.C52
import Verif.Props.C61
/-!
# The filter with software flush as a sequence
-/

set_option linter.unusedSimpArgs false

namespace Verif
open Spec Fl

section
variable {D S : Type} (E : Env D S) (a b : V5 D) (X : ℕ → D × Bool)

/-- The states kept after `n` frames. -/
def statesOn : ℕ → List D
  | 0 => []
  | n + 1 =>
    let v := next E.f64p a E.f64.zero (statesOn n) (X n).1 :: statesOn n
    if (X n).2 then settleAll E v else v

/-- The values of the recursive part before any flush; four values of silence come first. -/
def rawOn (n : ℕ) : D := if n < 4 then E.f64.zero else next E.f64p a E.f64.zero (statesOn E a X (n - 4)) (X (n - 4)).1

theorem past_statesOn (hz : E.f64p.zero = E.f64.zero) (n : ℕ) : ∀ k < 4,
    past E.f64.zero (statesOn E a X n) k = rawOn E a X (n + 3 - k) ∨
    past E.f64.zero (statesOn E a X n) k = settle E (rawOn E a X (n + 3 - k)) := by
  induction n with
  | zero =>
    intro k hk
    left
    rw [rawOn, if_pos (by omega)]
    simp [statesOn, past]
  | succ n ih =>
    have hv : ∀ k < 4, past E.f64.zero (next E.f64p a E.f64.zero (statesOn E a X n) (X n).1 :: statesOn E a X n) k =
          rawOn E a X (n + 1 + 3 - k) ∨
        past E.f64.zero (next E.f64p a E.f64.zero (statesOn E a X n) (X n).1 :: statesOn E a X n) k =
          settle E (rawOn E a X (n + 1 + 3 - k)) := by
      intro k hk
      cases k with
      | zero =>
        left
        rw [rawOn, if_neg (by omega)]
        rfl
      | succ k =>
        have := ih k (by omega)
        rw [show n + 1 + 3 - (k + 1) = n + 3 - k by omega]
        exact this
    intro k hk
    rw [statesOn]
    split
    · right
      rw [past_settleAll hz _ hk]
      rcases hv k hk with h | h
      · rw [h]
      · rw [h, settle_idem]
    · exact hv k hk

theorem rawOn_rec (n : ℕ) :
    rawOn E a X (n + 4) = E.f64p.sub (E.f64p.sub (E.f64p.sub (E.f64p.sub (X n).1
      (E.f64p.mul a.v1 (past E.f64.zero (statesOn E a X n) 0))) (E.f64p.mul a.v2 (past E.f64.zero (statesOn E a X n) 1)))
      (E.f64p.mul a.v3 (past E.f64.zero (statesOn E a X n) 2))) (E.f64p.mul a.v4 (past E.f64.zero (statesOn E a X n) 3)) := by
  rw [rawOn, if_neg (by omega)]
  rfl

/-- The output at frame `n`. -/
def outOn (n : ℕ) : D := response E.f64p b E.f64.zero (next E.f64p a E.f64.zero (statesOn E a X n) (X n).1 :: statesOn E a X n)

theorem outOn_eq (n : ℕ) :
    outOn E a b X n = E.f64p.add (E.f64p.add (E.f64p.add (E.f64p.add (E.f64p.mul b.v0 (rawOn E a X (n + 4)))
      (E.f64p.mul b.v1 (past E.f64.zero (statesOn E a X n) 0))) (E.f64p.mul b.v2 (past E.f64.zero (statesOn E a X n) 1)))
      (E.f64p.mul b.v3 (past E.f64.zero (statesOn E a X n) 2))) (E.f64p.mul b.v4 (past E.f64.zero (statesOn E a X n) 3)) := by
  rw [rawOn, if_neg (by omega)]
  rfl

theorem meterOn_seq (c : Nat) (evs : List (Event D × Bool))
    (h : ∀ n p, evs[n]? = some p → X n = (p.1.frame.getD c E.f64.zero, p.2)) :
    (meterOn E b a evs c).1 = statesOn E a X evs.length ∧
    (meterOn E b a evs c).2 = (((List.range evs.length).map (outOn E a b X)).zip (evs.map Prod.fst)).filterMap
      fun p => if p.2.measured then some p.1 else none := by
  induction evs using List.reverseRecOn with
  | nil => exact ⟨rfl, rfl⟩
  | append_singleton evs p ih =>
    obtain ⟨i1, i2⟩ := ih fun n q hq => h n q (by
      have := (List.getElem?_eq_some_iff.1 hq).1
      rw [List.getElem?_append_left this]; exact hq)
    have hp := h evs.length p (by simp)
    have e : meterOn E b a (evs ++ [p]) c = meterStep E b a c (meterOn E b a evs c) p := by
      unfold meterOn; rw [List.foldl_append]; rfl
    rw [e, meterStep, i1, i2, List.length_append, List.length_singleton, List.range_succ, List.map_append, List.map_append,
      List.zip_append (by simp), List.filterMap_append]
    refine ⟨?_, ?_⟩
    · rw [statesOn, hp]
    · have ho : outOn E a b X evs.length = response E.f64p b E.f64.zero (next E.f64p a E.f64.zero
          (statesOn E a X evs.length) (p.1.frame.getD c E.f64.zero) :: statesOn E a X evs.length) := by
        rw [outOn, hp]
      cases hm : p.1.measured <;> simp [hm, ho]

end

variable {m : Libm F64} {bs : BSearch} {t : Target}

/-- What the software flush may change. -/
noncomputable def flushed (t : Target) : ℝ := if t.sse2 then 0 else 1 / 2 ^ 52

theorem value_abs_le {v : F64} (h : Fl.lt (Fl.abs v) (Fl.lit Fmt.b64 1 (2 ^ 52)) = true) : |v.value| ≤ 1 / 2 ^ 52 := by
  have key : Fl.lit Fmt.b64 1 (2 ^ 52) = .num false (971 * 2 ^ 52) (by decide) := by decide +kernel
  have hv : (Fl.lit Fmt.b64 1 (2 ^ 52)).value = 1 / 2 ^ 52 := by
    rw [key, value_binade false (j := 52) (by norm_num) (by norm_num), if_neg Bool.false_ne_true, one_mul]
  cases v with
  | nan => cases h
  | num s k hk =>
    have h2 : Fl.le (Fl.abs (.num s k hk : F64)) (Fl.lit Fmt.b64 1 (2 ^ 52)) = true := by
      rw [key] at h ⊢
      rw [show Fl.abs (.num s k hk : F64) = .num false k hk from rfl] at *
      rw [Fl.lt_rank rfl rfl] at h
      rw [Fl.le_rank rfl rfl]
      omega
    have h3 := value_fle h2
    rw [hv] at h3
    refine _root_.le_trans (le_of_eq ?_) h3
    show _ = (.num false k hk : F64).value
    cases s
    · exact abs_of_nonneg (value_nonneg fun _ => ⟨_, _, rfl⟩)
    · have : (.num true k hk : F64).value = -(.num false k hk : F64).value := by rw [← value_neg]; rfl
      rw [this, abs_neg]
      exact abs_of_nonneg (value_nonneg fun _ => ⟨_, _, rfl⟩)

theorem settle_kept (v : F64) : Kept (flushed t) (settle (ieeeEnv m bs t) v) v := by
  have f0 : 0 ≤ flushed t := by unfold flushed; split <;> positivity
  unfold settle
  split
  next h =>
    have hs : t.sse2 = false := by
      have := h.1
      change (!t.sse2) = true at this
      simpa using this
    have hl : Fl.lt (Fl.abs v) (Fl.lit Fmt.b64 1 (2 ^ 52)) = true := by
      obtain ⟨sse2, fused, u⟩ := t
      cases hs
      exact h.2
    have hz : (ieeeEnv m bs t).f64p.zero = Fl.zero false := ieee_zero m bs t
    rw [hz]
    have := value_abs_le hl
    refine ⟨fun _ => zero64_finite, ?_, ?_⟩
    · rw [value_zero, abs_zero]; exact abs_nonneg _
    · rw [value_zero, zero_sub, abs_neg, flushed, hs]; exact this
  · exact ⟨id, _root_.le_refl _, by rw [sub_self, abs_zero]; exact f0⟩

/-- The filter of a run, software flush or not, against the exact one. -/
theorem float_outOn (hm : ElemWithin m (1 / 2 ^ 50)) (bs' : BSearch) (u : Nat) {rate : Nat} (hr : 8000 ≤ rate)
    (hr' : rate ≤ 400000) {Z : ℕ → F64 × Bool} {X : ℝ} (hX : 1 / 2 ^ 100 ≤ X) (hX' : X ≤ 2 ^ 60)
    (hs : t.sse2 = true ∨ 1 / 2 ^ 13 ≤ X) (hx : ∀ n, (Z n).1.Finite ∧ |(Z n).1.value| ≤ X) (k : ℕ) :
    let c := filterCoefficients (ieeeEnv m bs t) ((ieeeEnv m bs t).f64.ofInt rate)
    let C := filterCoefficients (exactEnv bs' u) ((exactEnv bs' u).f64.ofInt rate)
    let w := stateSeq C.2 fun n => (Z n).1.value
    App (outOn (ieeeEnv m bs t) c.2 c.1 Z k)
      (C.1.v0 * w (k + 4) + C.1.v1 * w (k + 3) + C.1.v2 * w (k + 2) + C.1.v3 * w (k + 1) + C.1.v4 * w k)
      (stateGain rate / 2 ^ 38 * X) := by
  intro c C w
  have X0 : 0 < X := lt_of_lt_of_le (by positivity) hX
  rw [outOn_eq]
  refine float_out (bs := bs) (t := t) hm bs' u hr hr' hX hX' (τ := flushed t) ?_ (fun n => (hx n).1) (fun n => (hx n).2)
    (v := rawOn (ieeeEnv m bs t) c.2 Z)
    (p := fun n k => past (Fl.zero false) (statesOn (ieeeEnv m bs t) c.2 Z n) (3 - k)) ?_ ?_ ?_ k
  · unfold flushed
    split
    · positivity
    next h =>
      have := hs.resolve_left h
      norm_num at this ⊢
      linarith
  · intro n hn
    exact if_pos hn
  · intro n k hk
    have := past_statesOn (ieeeEnv m bs t) c.2 Z (ieee_zero m bs t) n (3 - k) (by omega)
    rw [show n + 3 - (3 - k) = n + k by omega] at this
    have hz : (ieeeEnv m bs t).f64.zero = Fl.zero false := rfl
    rw [hz] at this
    rcases this with h | h
    · rw [h]
      have := Kept.refl (rawOn (ieeeEnv m bs t) c.2 Z (n + k))
      exact ⟨this.1, this.2.1, this.2.2.trans (by unfold flushed; split <;> positivity)⟩
    · rw [h]; exact settle_kept _
  · intro P a n
    exact rawOn_rec (ieeeEnv m bs t) c.2 Z n

end Verif
