import Verif.Spec.Steps
import Verif.Proofs.Long
/-!
# 24-bit files of tones

What an analyzer hears when it is given the 24-bit file of a tone, as 32-bit samples, in one call or in many.
-/

namespace Verif
open Spec
variable {m : Libm F64} {bs : BSearch} {t : Target}

/-- The file sounds as it should. -/
theorem stepFile24_sounds {A : ℕ → ℝ} {K channels : ℕ} (hc : 0 < channels) {φ : ℕ → ℝ} (hA : ∀ i < K, |A i| ≤ 99 / 100)
    {parts : List (List (List Int32))} (hp : parts.flatten = stepFile24 A K channels φ) :
    Sounds (1 / 2 ^ 24) A K channels φ
      (heard (ieeeEnv m bs t) channels (parts.map fun fs => .addFrames (.i32 fs.flatten))) := by
  have hl : ∀ fs ∈ parts, ∀ f ∈ fs, f.length = channels := by
    intro fs hfs f hf
    have : f ∈ parts.flatten := List.mem_flatten.2 ⟨fs, hfs, hf⟩
    rw [hp] at this
    obtain ⟨n, -, rfl⟩ := List.mem_map.1 this
    simp
  rw [heard_frames32 channels hc parts hl, hp]
  refine ⟨by simp [stepFile24], ?_, ?_⟩
  · intro ev hev
    obtain ⟨f, hf, rfl⟩ := List.mem_map.1 hev
    obtain ⟨n, -, rfl⟩ := List.mem_map.1 hf
    simp
  · intro n hn c hc
    simp only [stepFile24, List.getElem_map, List.getElem_range, List.length_map, List.length_range] at hn hc ⊢
    have hv := long_value (m := m) (bs := bs) (t := t) (Int32.ofInt (256 * round (8388608 *
      (A (n / 480) * Real.sin (2 * Real.pi * 1000 * (n / 48000) + φ c)))))
    refine ⟨hv.1, ?_⟩
    rw [hv.2]
    refine (long_round ?_).trans (by norm_num)
    have a1 := hA (n / 480) (by omega)
    rw [abs_mul]
    have := Real.abs_sin_le_one (2 * Real.pi * 1000 * (n / 48000) + φ c)
    nlinarith [abs_nonneg (A (n / 480)), abs_nonneg (Real.sin (2 * Real.pi * 1000 * (n / 48000) + φ c))]

theorem Spec.Sounds.mono {tol tol' : ℝ} (h : tol ≤ tol') {A : ℕ → ℝ} {K channels : ℕ} {φ : ℕ → ℝ} {evs : List (Event F64)}
    (hs : Sounds tol A K channels φ evs) : Sounds tol' A K channels φ evs :=
  ⟨hs.length, hs.measured, fun n hn c hc => ⟨(hs.sample n hn c hc).1, (hs.sample n hn c hc).2.trans h⟩⟩

end Verif
