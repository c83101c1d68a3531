import Mathlib.Analysis.SpecialFunctions.Pow.Real
import Mathlib.Analysis.SpecialFunctions.Trigonometric.Basic
import Mathlib.Algebra.Order.Round
import Verif.Spec.Real
import Verif.Spec.Meter
/-!
# Programmes of steady tones

The synthetic test signals of EBU Tech 3341 and 3342: sine waves of 1 kHz, sampled at 48 kHz, whose level changes at
certain times.
-/

namespace Verif.Spec

/-- The level in decibels during tenth `i` of a second of a programme given as a list of durations in tenths of a second
and levels. -/
noncomputable def levelAt : List (ℕ × ℝ) → ℕ → ℝ
  | [], _ => 0
  | (n, l) :: segs, i => if i < n then l else levelAt segs (i - n)

/-- The duration of a programme in tenths of a second. -/
def tenths {α : Type} (segs : List (ℕ × α)) : ℕ := (segs.map (·.1)).sum

/-- The frames are those of a programme of steady tones of 1 kHz at 48 kHz, all measured. Channel `c` has amplitude
`10 ^ ((level + gain c) / 20)` and phase `φ c`. Each sample may deviate from the sine by the part `tol` of the amplitude
`10 ^ (gain c / 20)`. -/
structure Plays (tol : ℝ) (segs : List (ℕ × ℝ)) (channels : ℕ) (gain φ : ℕ → ℝ) (evs : List (Event F64)) : Prop where
  length : evs.length = tenths segs * 4800
  measured : ∀ ev ∈ evs, ev.measured = true ∧ ev.frame.length = channels
  sample : ∀ n (h : n < evs.length), ∀ c (hc : c < evs[n].frame.length), (evs[n].frame[c]).Finite ∧
    |(evs[n].frame[c]).value - (10 : ℝ) ^ ((levelAt segs (n / 4800) + gain c) / 20) *
      Real.sin (2 * Real.pi * 1000 * (n / 48000) + φ c)| ≤ tol * (10 : ℝ) ^ (gain c / 20)

/-- The frames of the 16-bit file of such a programme, every sample rounded to the nearest. -/
noncomputable def file16 (segs : List (ℕ × ℝ)) (channels : ℕ) (gain φ : ℕ → ℝ) : List (List Int16) :=
  (List.range (tenths segs * 4800)).map fun n => (List.range channels).map fun c =>
    Int16.ofInt (round (32768 * ((10 : ℝ) ^ ((levelAt segs (n / 4800) + gain c) / 20) *
      Real.sin (2 * Real.pi * 1000 * (n / 48000) + φ c))))

end Verif.Spec
