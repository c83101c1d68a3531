import Verif.Spec.Exact
import Verif.Proofs.Bins
import Verif.Props.C30
/-! # The table order in IEEE and in exact arithmetic -/

namespace Verif
open Spec
variable {m : Libm F64} {bs : BSearch} {t : Target} {u : Nat}

/-- Position of a non-NaN float in the order. -/
def Fl.rank {φ : Fmt} : Fl φ → Int
  | .nan => 0
  | .num s k _ => skey s k

theorem Fl.le_rank {φ : Fmt} {x y : Fl φ} (hx : x.isNan = false) (hy : y.isNan = false) :
    Fl.le x y = true ↔ x.rank ≤ y.rank := by
  cases x <;> cases y <;> simp_all [Fl.le, Fl.rank, Fl.isNan]

theorem Fl.lt_rank {φ : Fmt} {x y : Fl φ} (hx : x.isNan = false) (hy : y.isNan = false) :
    Fl.lt x y = true ↔ x.rank < y.rank := by
  cases x <;> cases y <;> simp_all [Fl.lt, Fl.rank, Fl.isNan]

theorem ieee_order : TableOrder (ieeeEnv m bs t) (fun x => x.isNan = false) (fun x => (x.rank : ℝ)) where
  le x y hx hy := by
    show Fl.le x y = true ↔ _
    rw [Fl.le_rank hx hy, Int.cast_le]
  lt x y hx hy := by
    show Fl.lt x y = true ↔ _
    rw [Fl.lt_rank hx hy, Int.cast_lt]
  boundary i hi := by rw [boundary_bnd hi]; exact bnd_not_nan i
  energy i hi := by rw [binEnergy_centre hi]; exact centre_not_nan i
  above i hi := by
    rw [boundary_bnd hi.le, binEnergy_centre hi, Int.cast_lt, ← Fl.lt_rank (bnd_not_nan i) (centre_not_nan i)]
    exact (C30_tables hi).1
  below i hi := by
    rw [boundary_bnd (by omega), binEnergy_centre hi, Int.cast_lt, ← Fl.lt_rank (centre_not_nan i) (bnd_not_nan _)]
    exact (C30_tables hi).2

/-- Upper end of bin `i - 1`, lower end of bin `i`, as written in the source. -/
noncomputable def Spec.bndR (i : Nat) : ℝ := (boundariesN.getD i 0 : ℝ) / 10 ^ 36

/-- Energy of bin `i` as written in the source. -/
noncomputable def Spec.centreR (i : Nat) : ℝ := (energiesN.getD i 0 : ℝ) / 10 ^ 36

theorem exact_boundary {i : Nat} (hi : i ≤ 1000) : boundary (exactEnv bs u) i = bndR i := by
  have h : i < boundariesN.length := by rw [boundariesN_length]; omega
  unfold boundary boundaries bndR
  rw [List.getD_eq_getElem?_getD, List.getElem?_map, List.getD_eq_getElem?_getD, List.getElem?_eq_getElem h]
  simp [exactEnv, exactArith]
  norm_num

theorem exact_energy {i : Nat} (hi : i < 1000) : binEnergy (exactEnv bs u) i = centreR i := by
  have h : i < energiesN.length := by rw [energiesN_length]; omega
  unfold binEnergy energies centreR
  rw [List.getD_eq_getElem?_getD, List.getElem?_map, List.getD_eq_getElem?_getD, List.getElem?_eq_getElem h]
  simp [exactEnv, exactArith]
  norm_num

theorem centreR_between {i : Nat} (hi : i < 1000) : 0 < bndR i ∧ bndR i < centreR i ∧ centreR i < bndR (i + 1) := by
  obtain ⟨h1, h2, h3, h4⟩ := table_entry i hi
  unfold bndR centreR
  refine ⟨?_, ?_, ?_⟩
  · apply div_pos
    · exact_mod_cast h1
    · positivity
  · apply div_lt_div_of_pos_right _ (by positivity)
    exact_mod_cast (by omega)
  · apply div_lt_div_of_pos_right _ (by positivity)
    exact_mod_cast (by omega)

theorem exact_order : TableOrder (exactEnv bs u) (fun _ => True) id where
  le x y _ _ := by simp [exactEnv, exactArith]
  lt x y _ _ := by simp [exactEnv, exactArith]
  boundary _ _ := trivial
  energy _ _ := trivial
  above i hi := by
    rw [exact_boundary hi.le, exact_energy hi]
    exact (centreR_between hi).2.1
  below i hi := by
    rw [exact_boundary (by omega), exact_energy hi]
    exact (centreR_between hi).2.2

end Verif
