import Verif.Proofs.ToneFile
/-!
# Samples of 24 bits

What an analyzer hears when it is given 24-bit samples in the upper bytes of an `i32`, in one call or in many.
-/

namespace Verif
open Spec
variable {m : Libm F64} {bs : BSearch} {t : Target}

/-- A 32-bit sample as a number. -/
theorem long_value (x : Int32) : ((i32Ops (ieeeEnv m bs t)).toF64 x).Finite ∧
    ((i32Ops (ieeeEnv m bs t)).toF64 x).value = x.toInt / 2147483648 := by
  have := int_value t (i := x.toInt) (j := 31) (natAbs32 _) (by omega)
  dsimp only at this
  rw [show ((2 ^ 31 : Nat) : Int) = 2147483648 by norm_num, show (2 : ℝ) ^ 31 = 2147483648 by norm_num] at this
  simp only [i32Ops]
  cases hs : t.sse2 <;> simp only [hs, ieeeEnv, if_true, if_false, Bool.false_eq_true] at this ⊢
  · simpa only [arith_div, arith_ofInt, arith_lit] using this
  · rw [ftz_ofInt, ftz_lit]; exact this

/-- Rounding to 24 bits is an error of at most half a step. -/
theorem long_round {x : ℝ} (hx : |x| ≤ 99 / 100) :
    |((Int32.ofInt (256 * round (8388608 * x))).toInt : ℝ) / 2147483648 - x| ≤ 1 / 16777216 := by
  have h := abs_le.1 (abs_sub_round (8388608 * x))
  have hx := abs_le.1 hx
  have h1 : (round (8388608 * x) : ℤ) < 8388608 := by
    have : (round (8388608 * x) : ℝ) < (8388608 : ℤ) := by push_cast; linarith
    exact_mod_cast this
  have h2 : -8388608 < (round (8388608 * x) : ℤ) := by
    have : ((-8388608 : ℤ) : ℝ) < round (8388608 * x) := by push_cast; linarith
    exact_mod_cast this
  have e : (Int32.ofInt (256 * round (8388608 * x))).toInt = 256 * round (8388608 * x) :=
    Int32.toInt_ofInt_of_le (by omega) (by omega)
  rw [e, abs_le]
  push_cast
  constructor <;> linarith

/-- What is heard of a file that is cut into calls anywhere between frames. -/
theorem heard_frames32 (channels : ℕ) (hc : 0 < channels) (parts : List (List (List Int32)))
    (hp : ∀ fs ∈ parts, ∀ f ∈ fs, f.length = channels) :
    heard (ieeeEnv m bs t) channels (parts.map fun fs => .addFrames (.i32 fs.flatten)) =
      parts.flatten.map fun f => ⟨true, f.map (i32Ops (ieeeEnv m bs t)).toF64⟩ := by
  unfold heard
  rw [List.flatMap_map, List.map_flatten, List.flatMap_def]
  congr 1
  refine List.map_congr_left fun fs hfs => ?_
  have hf := hp fs hfs
  have hw : WellFormed (D := F64) (S := F32) channels (.i32 fs.flatten) := by
    show fs.flatten.length % channels = 0
    rw [List.length_flatten, List.map_congr_left (g := fun _ => channels) (fun f h => hf f h)]
    simp
  simp only [delivered, if_pos hw, inputFrames]
  rw [groups_map', groups_flatten (by omega) hf, List.map_map]
  rfl

end Verif
