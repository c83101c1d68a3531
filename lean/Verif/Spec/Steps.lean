import Verif.Spec.Tones
/-!
# Tones whose amplitude changes every few milliseconds

The test signals of EBU Tech 3341 for the momentary and the short-term loudness: sine waves of 1 kHz, sampled at 48 kHz,
whose amplitude changes at multiples of 10 ms.
-/

namespace Verif.Spec

/-- The frames are those of `K` hundredths of a second of a tone of 1 kHz at 48 kHz, all measured. During hundredth `i` the
amplitude is `A i` in all channels. Channel `c` has phase `φ c`. Each sample may deviate from the sine by `tol`. -/
structure Sounds (tol : ℝ) (A : ℕ → ℝ) (K channels : ℕ) (φ : ℕ → ℝ) (evs : List (Event F64)) : Prop where
  length : evs.length = K * 480
  measured : ∀ ev ∈ evs, ev.measured = true ∧ ev.frame.length = channels
  sample : ∀ n (h : n < evs.length), ∀ c (hc : c < evs[n].frame.length), (evs[n].frame[c]).Finite ∧
    |(evs[n].frame[c]).value - A (n / 480) * Real.sin (2 * Real.pi * 1000 * (n / 48000) + φ c)| ≤ tol

/-- The frames of the 24-bit file of such a signal, every sample rounded to the nearest and shifted to the upper 24 bits. -/
noncomputable def stepFile24 (A : ℕ → ℝ) (K channels : ℕ) (φ : ℕ → ℝ) : List (List Int32) :=
  (List.range (K * 480)).map fun n => (List.range channels).map fun c =>
    Int32.ofInt (256 * round (8388608 * (A (n / 480) * Real.sin (2 * Real.pi * 1000 * (n / 48000) + φ c))))

/-- The amplitude that goes with a level in dBFS. -/
noncomputable def dBFS (L : ℝ) : ℝ := (10 : ℝ) ^ (L / 20)

/-- Two amplitudes in turn: `a` for the first `q` hundredths of a second of each period of `p`, and `b` for the rest. -/
noncomputable def inTurn (a b : ℝ) (q p : ℕ) (i : ℕ) : ℝ := if i % p < q then a else b

/-- A tone of amplitude `a` that begins with hundredth `s` and is `d` hundredths of a second long, in silence. -/
noncomputable def burst (a : ℝ) (s d : ℕ) (i : ℕ) : ℝ := if s ≤ i ∧ i < s + d then a else 0

/-- `n` such tones, number `j` of amplitude `a j` and beginning with hundredth `s j`. -/
noncomputable def bursts (a : ℕ → ℝ) (s : ℕ → ℕ) (d n : ℕ) (i : ℕ) : ℝ := ∑ j ∈ Finset.range n, burst (a j) (s j) d i

end Verif.Spec
