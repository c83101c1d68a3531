import Verif.Proofs.Tones
import Verif.Props.C58
/-!
# Files of tones

What an analyzer hears when it is given the 16-bit file of a programme of tones, in one call or in many.
-/

namespace Verif
open Spec
variable {m : Libm F64} {bs : BSearch} {t : Target}

/-- A 16-bit sample as a number. -/
theorem short_value (x : Int16) : ((i16Ops (ieeeEnv m bs t)).toF64 x).Finite ∧
    ((i16Ops (ieeeEnv m bs t)).toF64 x).value = x.toInt / 32768 := by
  have := int_value t (i := x.toInt) (j := 15) (natAbs16 _) (by omega)
  dsimp only at this
  rw [show ((2 ^ 15 : Nat) : Int) = 32768 by norm_num, show (2 : ℝ) ^ 15 = 32768 by norm_num] at this
  simp only [i16Ops]
  cases hs : t.sse2 <;> simp only [hs, ieeeEnv, if_true, if_false, Bool.false_eq_true] at this ⊢
  · simpa only [arith_div, arith_ofInt, arith_lit] using this
  · rw [ftz_ofInt, ftz_lit]; exact this

/-- Rounding to 16 bits is an error of at most half a step. -/
theorem short_round {x : ℝ} (hx : |x| ≤ 99 / 100) :
    |((Int16.ofInt (round (32768 * x))).toInt : ℝ) / 32768 - x| ≤ 1 / 65536 := by
  have h := abs_le.1 (abs_sub_round (32768 * x))
  have hx := abs_le.1 hx
  have h1 : (round (32768 * x) : ℤ) < 32768 := by
    have : (round (32768 * x) : ℝ) < (32768 : ℤ) := by push_cast; linarith
    exact_mod_cast this
  have h2 : -32768 < (round (32768 * x) : ℤ) := by
    have : ((-32768 : ℤ) : ℝ) < round (32768 * x) := by push_cast; linarith
    exact_mod_cast this
  have e : (Int16.ofInt (round (32768 * x))).toInt = round (32768 * x) :=
    Int16.toInt_ofInt_of_le (by omega) (by omega)
  rw [e, abs_le]
  constructor <;> linarith

/-- What is heard of a file that is cut into calls anywhere between frames. -/
theorem heard_frames (channels : ℕ) (hc : 0 < channels) (parts : List (List (List Int16)))
    (hp : ∀ fs ∈ parts, ∀ f ∈ fs, f.length = channels) :
    heard (ieeeEnv m bs t) channels (parts.map fun fs => .addFrames (.i16 fs.flatten)) =
      parts.flatten.map fun f => ⟨true, f.map (i16Ops (ieeeEnv m bs t)).toF64⟩ := by
  unfold heard
  rw [List.flatMap_map, List.map_flatten, List.flatMap_def]
  congr 1
  refine List.map_congr_left fun fs hfs => ?_
  have hf := hp fs hfs
  have hw : WellFormed (D := F64) (S := F32) channels (.i16 fs.flatten) := by
    show fs.flatten.length % channels = 0
    rw [List.length_flatten, List.map_congr_left (g := fun _ => channels) (fun f h => hf f h)]
    simp
  simp only [delivered, if_pos hw, inputFrames]
  rw [groups_map', groups_flatten (by omega) hf, List.map_map]
  rfl

/-- The file is a programme of tones. -/
theorem file16_plays {segs : List (ℕ × ℝ)} {channels : ℕ} (hc : 0 < channels) {gain φ : ℕ → ℝ} {tol : ℝ}
    (hs : ∀ s ∈ segs, s.2 ≤ 0) (hg : ∀ c < channels, gain c ≤ -1 ∧ 1 / 65536 ≤ tol * (10 : ℝ) ^ (gain c / 20))
    {parts : List (List (List Int16))} (hp : parts.flatten = file16 segs channels gain φ) :
    Plays tol segs channels gain φ
      (heard (ieeeEnv m bs t) channels (parts.map fun fs => .addFrames (.i16 fs.flatten))) := by
  have hl : ∀ fs ∈ parts, ∀ f ∈ fs, f.length = channels := by
    intro fs hfs f hf
    have : f ∈ parts.flatten := List.mem_flatten.2 ⟨fs, hfs, hf⟩
    rw [hp] at this
    obtain ⟨n, -, rfl⟩ := List.mem_map.1 this
    simp
  rw [heard_frames channels hc parts hl, hp]
  refine ⟨by simp [file16], ?_, ?_⟩
  · intro ev hev
    obtain ⟨f, hf, rfl⟩ := List.mem_map.1 hev
    obtain ⟨n, -, rfl⟩ := List.mem_map.1 hf
    simp
  · intro n hn c hc
    simp only [file16, List.getElem_map, List.getElem_range, List.length_map, List.length_range] at hc ⊢
    obtain ⟨g1, g2⟩ := hg c hc
    have hv := short_value (m := m) (bs := bs) (t := t) (Int16.ofInt (round (32768 *
      ((10 : ℝ) ^ ((levelAt segs (n / 4800) + gain c) / 20) * Real.sin (2 * Real.pi * 1000 * (n / 48000) + φ c)))))
    refine ⟨hv.1, ?_⟩
    rw [hv.2]
    refine (short_round ?_).trans g2
    have l0 := levelAt_le le_rfl hs (n / 4800)
    have a1 : (10 : ℝ) ^ ((levelAt segs (n / 4800) + gain c) / 20) ≤ 99 / 100 := by
      have h1 : (10 : ℝ) ^ ((levelAt segs (n / 4800) + gain c) / 20) ≤ (10 : ℝ) ^ (-(1 / 20 : ℝ)) :=
        Real.rpow_le_rpow_of_exponent_le (by norm_num) (by linarith)
      refine h1.trans ?_
      rw [Real.rpow_neg (by norm_num), inv_le_comm₀ (by positivity) (by norm_num)]
      rw [show (1 / 20 : ℝ) = (20 : ℝ)⁻¹ by norm_num, Real.le_rpow_inv_iff_of_pos (by norm_num) (by norm_num) (by norm_num)]
      rw [show (20 : ℝ) = ((20 : ℕ) : ℝ) by norm_num, Real.rpow_natCast]
      norm_num
    rw [abs_mul, abs_of_pos (by positivity)]
    have := Real.abs_sin_le_one (2 * Real.pi * 1000 * (n / 48000) + φ c)
    have a0 : (0 : ℝ) < (10 : ℝ) ^ ((levelAt segs (n / 4800) + gain c) / 20) := by positivity
    nlinarith

end Verif
