import Verif.Model.Api
/-!
# Specification: the meter of ITU-R BS.1770 as difference equation, windows and block times

Independent of the ring buffer, the chunking and the five-element filter state of the code.  The signal is
the list of all frames that ever reached the filter, each marked as measured (`add_frames`) or not
(`seed_frames`).
-/

namespace Verif.Spec
variable {D S : Type}

/-- One frame that reached the filter: its `f64` values and whether it was added or only seeded. -/
structure Event (D : Type) where
  measured : Bool
  frame : List D

/-- The samples of channel `c`. -/
def chan (z : D) (c : Nat) (evs : List (Event D)) : List D := evs.map fun ev => ev.frame.getD c z

/-- The value `k` steps back in a list with the newest value first; `z` before the start. -/
def past (z : D) (v : List D) (k : Nat) : D := v.getD k z

/-- The recursive part of the filter, newest value first:
`v[n] = x[n] - a1 v[n-1] - a2 v[n-2] - a3 v[n-3] - a4 v[n-4]`. -/
def internal (A : Arith D) (a : V5 D) (z : D) (xs : List D) : List D :=
  xs.foldl (fun v x =>
    A.sub (A.sub (A.sub (A.sub x (A.mul a.v1 (past z v 0))) (A.mul a.v2 (past z v 1)))
      (A.mul a.v3 (past z v 2))) (A.mul a.v4 (past z v 3)) :: v) []

/-- `y[n] = b0 v[n] + b1 v[n-1] + b2 v[n-2] + b3 v[n-3] + b4 v[n-4]`. -/
def response (A : Arith D) (b : V5 D) (z : D) (v : List D) : D :=
  A.add (A.add (A.add (A.add (A.mul b.v0 (past z v 0)) (A.mul b.v1 (past z v 1)))
    (A.mul b.v2 (past z v 2))) (A.mul b.v3 (past z v 3))) (A.mul b.v4 (past z v 4))

/-- The filtered signal. -/
def filtered (A : Arith D) (b a : V5 D) (z : D) (xs : List D) : List D :=
  (List.range xs.length).map fun k => response A b z (internal A a z (xs.take (k + 1)))

/-- The filtered values of channel `c` at the measured frames. -/
def outs (A : Arith D) (b a : V5 D) (z : D) (evs : List (Event D)) (c : Nat) : List D :=
  (List.zip (filtered A b a z (chan z c evs)) evs).filterMap fun p =>
    if p.2.measured then some p.1 else none

/-- Number of measured frames. -/
def count (evs : List (Event D)) : Nat := (evs.filter (·.measured)).length

/-- The last `N` values of a signal, silence before its start. -/
def lastN (z : D) (N : Nat) (ys : List D) : List D := (List.replicate N z ++ ys).drop ys.length

/-- The order in which the last values of a signal of length `n` are read from a ring of `L` frames:
if the ring wrapped inside the window, the newest `n % L` values come first. -/
def readOrder (L n : Nat) (w : List D) : List D :=
  if n % L < w.length then w.drop (w.length - n % L) ++ w.take (w.length - n % L) else w

/-- It is a reordering. -/
theorem readOrder_perm (L n : Nat) (w : List D) : (readOrder L n w).Perm w := by
  unfold readOrder
  split
  · exact List.perm_append_comm.trans (by rw [List.take_append_drop])
  · exact List.Perm.refl _

/-- Sum of squares. -/
def sumSq (A : Arith D) (l : List D) : D := l.foldl (fun s x => A.add s (A.mul x x)) A.zero

/-- Channel weight as a fraction. -/
def weight : Channel → Nat × Nat
  | .leftSurround | .rightSurround | .mp060 | .mm060 | .mp090 | .mm090 => (141, 100)
  | .dualMono => (2, 1)
  | _ => (1, 1)

/-- Apply a channel weight (a weight of one is not multiplied). -/
def weighted (A : Arith D) (ch : Channel) (s : D) : D :=
  if weight ch = (1, 1) then s else A.mul s (A.lit (weight ch).1 (weight ch).2)

/-- Sum over the used channels. -/
def channelSum (A : Arith D) (cm : List Channel) (f : Nat → D) : D :=
  cm.zipIdx.foldl (fun s x => if x.1 = .unused then s else A.add s (weighted A x.1 (f x.2))) A.zero

/-- Energy of the last `N` frames after `n` frames: channel-weighted mean square. -/
def energy (E : Env D S) (L N n : Nat) (cm : List Channel) (ys : Nat → List D) : D :=
  E.f64.div
    (channelSum E.f64 cm fun c => sumSq E.f64 (readOrder L n (lastN E.f64.zero N ((ys c).take n))))
    (E.f64.ofInt N)

/-- Times (in frames) at which gating blocks end: every `s` frames from `4 s` on. -/
def blockEnds (s n : Nat) : List Nat := ((List.range (n / s + 1)).filter fun j => 4 ≤ j).map (· * s)

/-- Times at which short-term blocks end: every `10 s` frames from `30 s` on. -/
def shortEnds (s n : Nat) : List Nat :=
  ((List.range (n / s + 1)).filter fun j => 30 ≤ j ∧ j % 10 = 0).map (· * s)

end Verif.Spec

/-! ## What a history of calls delivers -/

namespace Verif.Spec
variable {D S : Type}

/-- A flat list cut into frames of `n` values. -/
def groups {α : Type} (n : Nat) (l : List α) : List (List α) :=
  (List.range (l.length / n)).map fun k => (l.drop (k * n)).take n

/-- Frames of planar data: the `k`-th values of all channels. -/
def columns {α : Type} (l : List (List α)) : List (List α) :=
  (List.range (l.headD []).length).map fun k => l.filterMap fun ch => ch[k]?

/-- The `f64` values of the frames of an input for `n` channels. -/
def inputFrames (E : Env D S) (n : Nat) : Input D S → List (List D)
  | .i16 l => groups n (l.map (i16Ops E).toF64)
  | .i32 l => groups n (l.map (i32Ops E).toF64)
  | .f32 l => groups n (l.map (f32Ops E).toF64)
  | .f64 l => groups n (l.map (f64Ops E).toF64)
  | .pi16 l => columns (l.map (·.map (i16Ops E).toF64))
  | .pi32 l => columns (l.map (·.map (i32Ops E).toF64))
  | .pf32 l => columns (l.map (·.map (f32Ops E).toF64))
  | .pf64 l => columns (l.map (·.map (f64Ops E).toF64))

/-- The layout requirements of the methods. -/
def WellFormed (channels : Nat) : Input D S → Prop
  | .i16 l => l.length % channels = 0
  | .i32 l => l.length % channels = 0
  | .f32 l => l.length % channels = 0
  | .f64 l => l.length % channels = 0
  | .pi16 l => l ≠ [] ∧ ∃ n, ∀ d ∈ l, d.length = n
  | .pi32 l => l ≠ [] ∧ ∃ n, ∀ d ∈ l, d.length = n
  | .pf32 l => l ≠ [] ∧ ∃ n, ∀ d ∈ l, d.length = n
  | .pf64 l => l ≠ [] ∧ ∃ n, ∀ d ∈ l, d.length = n

/-- A call that delivers frames. -/
def Feed : Op D S → Prop
  | .addFrames _ | .seedFrames _ => True
  | _ => False

open Classical in
/-- The frames one call delivers to the filter; none if its input is malformed. -/
noncomputable def delivered (E : Env D S) (n : Nat) : Op D S → List (Event D)
  | .addFrames x => if WellFormed n x then (inputFrames E n x).map fun f => ⟨true, f⟩ else []
  | .seedFrames x => if WellFormed n x then (inputFrames E n x).map fun f => ⟨false, f⟩ else []
  | _ => []

/-- The frames a history of calls delivers. -/
noncomputable def heard (E : Env D S) (n : Nat) (ops : List (Op D S)) : List (Event D) :=
  ops.flatMap (delivered E n)

end Verif.Spec
