import Verif.Model.Api
/-!
# A concrete environment for the examples

Only used to show that hypotheses can be met.  The libm is a stand-in (real functions are not computable);
the binary search is a linear scan satisfying the documented contract.
-/

namespace Verif.Demo

/-- A linear scan meeting the contract of `binary_search`. -/
def scan : List Nat → Nat → Nat → Except Nat Nat
  | [], _, k => .error k
  | v :: l, x, k => if v < x then scan l x (k + 1) else if v = x then .ok k else .error k

theorem scan_ok (l : List Nat) (x k j : Nat) (h : scan l x k = .ok j) :
    k ≤ j ∧ l[j - k]? = some x := by
  induction l generalizing k with
  | nil => cases h
  | cons v l ih =>
    unfold scan at h
    split at h
    · obtain ⟨h1, h2⟩ := ih _ h
      refine ⟨by omega, ?_⟩
      rw [show j - k = (j - (k + 1)) + 1 by omega]
      simpa using h2
    · split at h
      · next h2 => cases h; simp [h2]
      · cases h

theorem scan_err (l : List Nat) (x k j : Nat) (hs : l.Pairwise (· ≤ ·)) (h : scan l x k = .error j) :
    k ≤ j ∧ j ≤ k + l.length ∧ (∀ i v, i < j - k → l[i]? = some v → v < x) ∧
      (∀ i v, j - k ≤ i → l[i]? = some v → x < v) := by
  induction l generalizing k with
  | nil => cases h; exact ⟨Nat.le_refl _, by simp, by simp, by simp⟩
  | cons w l ih =>
    rw [List.pairwise_cons] at hs
    unfold scan at h
    split at h
    · next hw =>
      obtain ⟨h1, h2, h3, h4⟩ := ih _ hs.2 h
      refine ⟨by omega, by simp; omega, ?_, ?_⟩
      · intro i v hi hv
        cases i with
        | zero => cases hv; exact hw
        | succ i => exact h3 i v (by omega) (by simpa using hv)
      · intro i v hi hv
        cases i with
        | zero => omega
        | succ i => exact h4 i v (by omega) (by simpa using hv)
    · split at h
      · cases h
      · cases h
        next h1 h2 =>
        refine ⟨Nat.le_refl _, by simp, by simp, ?_⟩
        intro i v _ hv
        cases i with
        | zero => cases hv; omega
        | succ i =>
          have := hs.1 v (List.mem_of_getElem? (by simpa using hv))
          omega

/-- The linear scan as a `BSearch`. -/
def bsearch : BSearch where
  run l x := scan l x 0
  ok l x j _ h := by simpa using (scan_ok l x 0 j h).2
  err l x j hs h := by simpa using (scan_err l x 0 j hs h).2

/-- A stand-in libm. -/
def libm : Libm F64 where
  log10 x := x
  tan x := x
  sin x := x
  cos x := x
  powf _ _ := Fl.lit Fmt.b64 1 10

/-- x86-64. -/
def env : Env F64 F32 := ieeeEnv libm bsearch ⟨true, false, 2 ^ 64 - 1⟩
/-- 32-bit x86 with SSE2. -/
def env32 : Env F64 F32 := ieeeEnv libm bsearch ⟨true, false, 2 ^ 32 - 1⟩
/-- A 64-bit target without SSE2. -/
def envNoSse : Env F64 F32 := ieeeEnv libm bsearch ⟨false, false, 2 ^ 64 - 1⟩

end Verif.Demo
