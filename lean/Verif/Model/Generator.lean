import Verif.Model.History
/-!
# `examples/generate_histogram_bins.rs`

The program that writes `src/histogram_bins.rs`: the two tables computed with `powf`, and their entries printed with 36
decimals.  The text around the numbers is left out; a printed number is its digits read as an integer, that is the number
times `10 ^ 36`.  The program runs outside the crate, so the arithmetic is plain IEEE (`Fl`).
-/

namespace Verif
namespace Examples

/-- `f64::powf(10.0, (i as f64 / 10.0 - x + 0.691) / 10.0)` (generate_histogram_bins.rs:34, 39). -/
def level (m : Libm F64) (i : Nat) (x : F64) : F64 :=
  let ten := Fl.lit Fmt.b64 10 1
  m.powf ten (Fl.div (Fl.add (Fl.sub (Fl.div (Fl.ofInt Fmt.b64 i) ten) x) (Fl.lit Fmt.b64 691 1000)) ten)

/-- The array `energies` (generate_histogram_bins.rs:32-35). -/
def genEnergies (m : Libm F64) : List F64 := (List.range 1000).map fun i => level m i (Fl.lit Fmt.b64 6995 100)

/-- The array `boundaries` (generate_histogram_bins.rs:37-40). -/
def genBoundaries (m : Libm F64) : List F64 := (List.range 1001).map fun i => level m i (Fl.lit Fmt.b64 70 1)

/-- The digits of `{:.36?}` (generate_histogram_bins.rs:67, 70): the exact value of a finite number that is not negative,
rounded to 36 decimals.  Others (`-1.0`, `NaN`, `inf`) print differently and are given as 0; the tables have none. -/
def printed : F64 → Nat
  | .nan => 0
  | .num s k _ => if s || k == Fmt.b64.infK then 0 else rne (Fmt.b64.mag k * 10 ^ 36) (2 ^ Fmt.b64.u)

end Examples
end Verif
