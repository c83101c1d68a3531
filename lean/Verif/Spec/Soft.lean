import Verif.Spec.Meter
import Verif.Spec.Buffer
/-!
# Specification: the filtered signal on every target

Without hardware flush-to-zero the code sets small filter states to zero in software, after each internal call of the
filter.  Such a call ends with the last frame of an `add_frames` or `seed_frames` call, and with every frame that
completes a gating block.
-/

namespace Verif.Spec
variable {D S : Type}

/-- What becomes of a filter state at the end of an internal call: without hardware flush-to-zero, values below
`f64::EPSILON = 2^-52` become zero. -/
def settle (E : Env D S) (v : D) : D :=
  if E.noFtz = true ∧ E.f64p.lt (E.f64p.abs v) (E.f64p.lit 1 (2 ^ 52)) = true then E.f64p.zero else v

/-- The four states that count for the future. -/
def settleAll (E : Env D S) (v : List D) : List D := (v.take 4).map (settle E) ++ v.drop 4

/-- The next value of the recursive part (`internal`, one step). -/
def next (A : Arith D) (a : V5 D) (z : D) (v : List D) (x : D) : D :=
  A.sub (A.sub (A.sub (A.sub x (A.mul a.v1 (past z v 0))) (A.mul a.v2 (past z v 1)))
    (A.mul a.v3 (past z v 2))) (A.mul a.v4 (past z v 3))

/-- One frame of channel `c`, marked if an internal call ends with it: the values of the recursive part, newest first,
and the filtered signal at the measured frames, oldest first. -/
def meterStep (E : Env D S) (b a : V5 D) (c : Nat) (vy : List D × List D) (p : Event D × Bool) : List D × List D :=
  let v := next E.f64p a E.f64.zero vy.1 (p.1.frame.getD c E.f64.zero) :: vy.1
  (if p.2 then settleAll E v else v,
    if p.1.measured then vy.2 ++ [response E.f64p b E.f64.zero v] else vy.2)

/-- All frames. -/
def meterOn (E : Env D S) (b a : V5 D) (evs : List (Event D × Bool)) (c : Nat) : List D × List D :=
  evs.foldl (meterStep E b a c) ([], [])

/-- The frames of one call after `n` measured ones, marked: the last one, and those that complete a block of `4 s`
frames. -/
def marked (s : Nat) : Nat → List (Event D) → List (Event D × Bool)
  | _, [] => []
  | n, ev :: evs =>
    let n' := if ev.measured then n + 1 else n
    (ev, evs.isEmpty || (ev.measured && decide (n' % s = 0 ∧ 4 * s ≤ n'))) :: marked s n' evs

/-- The frames a history of calls delivers, marked. -/
noncomputable def heardOn (E : Env D S) (channels s : Nat) : Nat → List (Op D S) → List (Event D × Bool)
  | _, [] => []
  | n, op :: ops => marked s n (delivered E channels op) ++
      heardOn E channels s (n + count (delivered E channels op)) ops

/-- The K-weighted signal of channel `c` at the measured frames, on any target. -/
noncomputable def signalOn (E : Env D S) (rate channels : Nat) (ops : List (Op D S)) (c : Nat) : List D :=
  (meterOn E (filterCoefficients E (E.f64.ofInt rate)).1 (filterCoefficients E (E.f64.ofInt rate)).2
    (heardOn E channels (hop rate) 0 ops) c).2

end Verif.Spec
