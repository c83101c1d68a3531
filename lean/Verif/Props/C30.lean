import Verif.Proofs.Table
import Verif.Proofs.TableReal
import Verif.Spec.Real
import Verif.Spec.Demo
/-!
# C30: histogram binning; C34: quantisation error
-/

set_option linter.unusedSimpArgs false

namespace Verif
open Fl
variable {m : Libm F64} {bs : BSearch} {t : Target}

/-- The double in the source table `HISTOGRAM_BOUNDARIES`. -/
def Spec.bnd (i : Nat) : F64 := Fl.lit Fmt.b64 ((boundariesN.getD i 0 : Nat) : Int) (10 ^ 36)
/-- The double in the source table `HISTOGRAM_ENERGIES`. -/
def Spec.centre (i : Nat) : F64 := Fl.lit Fmt.b64 ((energiesN.getD i 0 : Nat) : Int) (10 ^ 36)

/-- `x` belongs to bin `i`: not below its lower boundary and below its upper one; the last bin is open above. -/
def Spec.InBin (x : F64) (i : Nat) : Prop :=
  i < 1000 ∧ Fl.le (bnd i) x = true ∧ (i = 999 ∨ Fl.lt x (bnd (i + 1)) = true)

open Spec

theorem bnd_eq (i : Nat) : bnd i = .num false (Fmt.b64.rnd (boundariesN.getD i 0 * 2 ^ Fmt.b64.u) (10 ^ 36))
    (Fmt.rnd_le_infK ..) := Fl.lit_pos _ _

theorem bnd_key (i : Nat) : ∃ h, bnd i = .num false (bkey i) h := by
  unfold bkey
  exact ⟨_, bnd_eq i⟩

theorem centre_key (i : Nat) : ∃ h, centre i = .num false (ekey i) h := by
  unfold ekey
  exact ⟨_, Fl.lit_pos _ _⟩

theorem getD_map_lit {l : List Nat} {i : Nat} (h : i < l.length) (f : Nat → F64) (d : F64) :
    (l.map f).getD i d = f (l.getD i 0) := by
  simp [List.getD, h]

theorem boundary_bnd {i : Nat} (h : i ≤ 1000) : boundary (ieeeEnv m bs t) i = bnd i :=
  getD_map_lit (by rw [boundariesN_length]; omega) _ _

theorem binEnergy_centre {i : Nat} (h : i < 1000) : binEnergy (ieeeEnv m bs t) i = centre i :=
  getD_map_lit (by rw [energiesN_length]; omega) _ _

theorem gate0_bnd : gate0 (ieeeEnv m bs t) = bnd 0 := by
  rw [← boundary_bnd (m := m) (bs := bs) (t := t) (Nat.zero_le _)]
  have h := index_b0 (ieeeEnv m bs t)
  unfold Run.index at h
  unfold boundary List.getD
  split at h
  · next a ha => cases h; rw [ha]; rfl
  · cases h

theorem bnd_lt {i j : Nat} (hij : i < j) (hj : j ≤ 1000) : Fl.lt (bnd i) (bnd j) = true := by
  obtain ⟨_, e1⟩ := bnd_key i
  obtain ⟨_, e2⟩ := bnd_key j
  rw [e1, e2, Fl.lt_pos, decide_eq_true_eq]
  exact bkey_lt hij hj

theorem bnd_le {i j : Nat} (hij : i ≤ j) (hj : j ≤ 1000) : Fl.le (bnd i) (bnd j) = true := by
  by_cases h : i = j
  · subst h
    obtain ⟨_, e⟩ := bnd_key i
    rw [e]
    exact Fl.le_refl rfl
  · exact Fl.le_of_lt (bnd_lt (by omega) hj)

theorem bnd_not_nan (i : Nat) : (bnd i).isNan = false := by
  obtain ⟨_, e⟩ := bnd_key i
  rw [e]; rfl

theorem centre_not_nan (i : Nat) : (centre i).isNan = false := by
  obtain ⟨_, e⟩ := centre_key i
  rw [e]; rfl

theorem not_nan_of_le {x y : F64} (h : Fl.le x y = true) : y.isNan = false := by
  cases y with
  | nan => cases x <;> cases h
  | num => rfl

/-- An energy belongs to at most one bin. -/
theorem Spec.InBin.unique {x : F64} {i j : Nat} (hi : InBin x i) (hj : InBin x j) : i = j := by
  have key : ∀ {i j : Nat}, InBin x i → InBin x j → ¬ i < j := by
    intro i j hi hj hij
    obtain ⟨-, -, h⟩ := hi
    obtain ⟨hj1, hj2, -⟩ := hj
    rcases h with h | h
    · omega
    · have := Fl.lt_of_lt_of_le h (Fl.le_trans (bnd_le (show i + 1 ≤ j by omega) (by omega)) hj2)
      rw [Fl.lt_irrefl] at this
      cases this
  have h1 := key hi hj
  have h2 := key hj hi
  omega

theorem find_inBin {x : F64} (h : Fl.le (bnd 0) x = true) : InBin x (findP (ieeeEnv m bs t) x) := by
  have hlt := (find_eq (ieeeEnv m bs t) x).2
  obtain ⟨h1, h2⟩ := findP_spec (ieeeEnv m bs t) x
  rw [boundary_bnd (by omega)] at h1 h2
  refine ⟨hlt, ?_, ?_⟩
  · rcases h1 with h1 | h1
    · rw [h1]; exact h
    · exact h1
  · rcases h2 with h2 | h2
    · left; omega
    · right
      rw [← Bool.not_eq_false]
      intro hh
      rw [Fl.not_lt (not_nan_of_le h) (bnd_not_nan _)] at hh
      have h2 : Fl.le (bnd (findP (ieeeEnv m bs t) x + 1)) x = false := h2
      rw [hh] at h2
      cases h2

/-- **C30.** For every energy not below the `-70` LUFS boundary the binary search terminates and returns the
one bin the energy belongs to. -/
theorem C30_search {x : F64} (h : Fl.le (bnd 0) x = true) :
    ∃ i, findHistogramIndex (ieeeEnv m bs t) x = .done i ∧ InBin x i ∧ ∀ j, InBin x j → j = i :=
  ⟨_, (find_eq _ _).1, find_inBin h, fun _ hj => hj.unique (find_inBin h)⟩

/-- **C30.** NaN and energies below the first boundary give bin 0. -/
theorem C30_low {x : F64} (h : Fl.le (bnd 0) x = false) :
    findHistogramIndex (ieeeEnv m bs t) x = .done 0 := by
  rw [(find_eq _ _).1]
  have hlt := (find_eq (ieeeEnv m bs t) x).2
  rcases (findP_spec (ieeeEnv m bs t) x).1 with h1 | h1
  · rw [h1]
  · rw [boundary_bnd (by omega)] at h1
    have := Fl.le_trans (bnd_le (Nat.zero_le _) (by omega)) h1
    rw [h] at this
    cases this

/-- **C30.** The tables are strictly increasing and each bin centre lies strictly inside its bin. -/
theorem C30_tables {i : Nat} (hi : i < 1000) :
    Fl.lt (bnd i) (centre i) = true ∧ Fl.lt (centre i) (bnd (i + 1)) = true := by
  obtain ⟨_, e1⟩ := bnd_key i
  obtain ⟨_, e2⟩ := bnd_key (i + 1)
  obtain ⟨_, e3⟩ := centre_key i
  rw [e1, e2, e3, Fl.lt_pos, Fl.lt_pos, decide_eq_true_eq, decide_eq_true_eq]
  exact ⟨bkey_lt_ekey hi, ekey_lt_bkey hi⟩

/-- **C30.** The tables hold what they should: entry `i` is the energy of `-70 + i/10` LUFS for the boundaries
and of the middle of the bin for the centres, up to 3 parts in `10^14` (before rounding to a double). -/
theorem C30_values {i : Nat} (hi : i < 1000) :
    |(boundariesN.getD i 0 : ℝ) / 10 ^ 36 - energyOf (-70 + i / 10)| ≤ 3 / 10 ^ 14 * energyOf (-70 + i / 10) ∧
    |(boundariesN.getD (i + 1) 0 : ℝ) / 10 ^ 36 - energyOf (-70 + (i + 1) / 10)| ≤
      3 / 10 ^ 14 * energyOf (-70 + (i + 1) / 10) ∧
    |(energiesN.getD i 0 : ℝ) / 10 ^ 36 - energyOf (-70 + i / 10 + 1 / 20)| ≤
      3 / 10 ^ 14 * energyOf (-70 + i / 10 + 1 / 20) := by
  have := boundary_exact (show i + 1 ≤ 1000 by omega)
  push_cast at this
  exact ⟨boundary_exact (by omega), this, centre_exact hi⟩

/-- **C30.** Adding an energy to a histogram increments the counter of its bin and nothing else. -/
theorem C30_add {x : F64} (h : Fl.le (bnd 0) x = true) {i : Nat} (hi : InBin x i) {c : List Nat}
    (hc : c.length = 1000) :
    ∃ c', (History.histogram c).add (ieeeEnv m bs t) x = .done (.histogram c') ∧ c'.length = 1000 ∧
      c'.getD i 0 = c.getD i 0 + 1 ∧ ∀ j, j ≠ i → c'.getD j 0 = c.getD j 0 := by
  have e : findP (ieeeEnv m bs t) x = i := (find_inBin h).unique hi
  have hl : Fl.lt x (bnd 0) = false := by
    rw [Fl.not_lt (not_nan_of_le h) (bnd_not_nan _)]; exact h
  refine ⟨c.modify i (· + 1), ?_, by simpa using hc, ?_, ?_⟩
  · rw [History.add_eq (ieeeEnv m bs t) (hist := .histogram c) hc x]
    unfold History.addP
    rw [gate0_bnd, if_neg (by intro hh; change Fl.lt x (bnd 0) = true at hh; rw [hl] at hh; cases hh), e]
  · have : i < c.length := by rw [hc]; exact hi.1
    simp [List.getD, List.getElem?_modify, this]
  · intro j hj
    simp [List.getD, List.getElem?_modify, Ne.symm hj]

/-- Bins 0, 999 and one in the middle; infinity goes to the last bin. -/
example : InBin (Fl.lit _ 1 (10 ^ 6)) 93 ∧ InBin (bnd 0) 0 ∧ InBin (Fl.inf false) 999 ∧
    ¬ InBin (Fl.lit _ 1 (10 ^ 6)) 94 := by
  refine ⟨⟨by omega, by decide +kernel, .inr (by decide +kernel)⟩, ⟨by omega, by decide +kernel, .inr (by decide +kernel)⟩,
    ⟨by omega, by decide +kernel, .inl rfl⟩, ?_⟩
  rintro ⟨-, h, -⟩
  revert h
  decide +kernel

end Verif
