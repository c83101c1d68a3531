import Verif.Spec.Meter
import Verif.Proofs.Safe
/-!
# What peaks are

The level of a sample is its magnitude relative to full scale, as a double. It is written here without
reference to the code: an integer sample `x` of `b` bits has level `|x| / 2^(b-1)` and a float sample has
level `|x|`. Under hardware flush-to-zero a subnormal double counts as zero, because the code divides it
by `1.0` while the flag is set (filter.rs:276, utils.rs:255).
-/

namespace Verif.Spec
open Verif

/-- A call and its result. -/
abbrev Entry (D S : Type) := Op D S × Except Error Unit

/-- `Calls E e log e'`: the calls of `log`, made one after the other on `e`, give the recorded results and end
in `e'`. -/
inductive Calls {D S : Type} (E : Env D S) : Ebu D S → List (Entry D S) → Ebu D S → Prop
  | nil (e : Ebu D S) : Calls E e [] e
  | cons {e e1 e2 : Ebu D S} {op : Op D S} {r : Except Error Unit} {log : List (Entry D S)}
      (h : step E e op = .done (e1, r)) (hs : Calls E e1 log e2) : Calls E e ((op, r) :: log) e2

/-- Frames of an input, every sample mapped to a value. -/
def mapFrames {D S α : Type} (n : Nat) (a : Int16 → α) (b : Int32 → α) (f : S → α) (d : D → α) :
    Input D S → List (List α)
  | .i16 l => groups n (l.map a)
  | .i32 l => groups n (l.map b)
  | .f32 l => groups n (l.map f)
  | .f64 l => groups n (l.map d)
  | .pi16 l => columns (l.map (·.map a))
  | .pi32 l => columns (l.map (·.map b))
  | .pf32 l => columns (l.map (·.map f))
  | .pf64 l => columns (l.map (·.map d))

def level16 (x : Int16) : F64 := Fl.lit _ x.toInt.natAbs 32768
def level32 (x : Int32) : F64 := Fl.lit _ x.toInt.natAbs 2147483648
def levelF (x : F32) : F64 := Fl.abs (Fl.cast _ x)
def levelD (t : Target) (x : F64) : F64 := Fl.abs (if t.sse2 then Fl.ftz x else x)

/-- Levels of channel `c` in one input of `n`-channel frames. -/
def inputLevels (t : Target) (n c : Nat) (x : Input F64 F32) : List F64 :=
  (mapFrames n level16 level32 levelF (levelD t) x).filterMap (·[c]?)

/-- Levels of channel `c` in the successful `add_frames` calls of a log, in order. -/
def levels (t : Target) (n c : Nat) (log : List (Entry F64 F32)) : List F64 :=
  log.flatMap fun
    | (.addFrames x, .ok _) => inputLevels t n c x
    | _ => []

/-- `p` is the largest of the levels, ignoring NaN, and zero if there is none. -/
structure IsPeak (l : List F64) (p : F64) : Prop where
  notNan : p.isNan = false
  bound : ∀ x ∈ l, x.isNan = false → Fl.le x p = true
  attained : p ∈ l ∨ p = Fl.zero false

/-- Calls after which the peaks continue: all but `reset` and a change of the channel count. -/
def KeepsPeaks {D S : Type} (n : Nat) : Op D S → Prop
  | .reset => False
  | .changeParameters c _ => c.toNat = n
  | _ => True

/-- Where peaks start: construction, `reset`, and `change_parameters` with another channel count. -/
def PeakStart {D S : Type} (E : Env D S) (e : Ebu D S) : Prop :=
  (∃ channels rate mode, Ebu.new E channels rate mode = .done (.ok e)) ∨
  (∃ e1 r, Reachable E e1 ∧ step E e1 .reset = .done (e, r)) ∨
  (∃ e1 c w, Reachable E e1 ∧ step E e1 (.changeParameters c w) = .done (e, .ok ()) ∧ e1.channels ≠ c.toNat)

/-- Number of frames of well-formed input. -/
def frameCount {D S : Type} (channels : Nat) : Input D S → Nat
  | .i16 l => l.length / channels
  | .i32 l => l.length / channels
  | .f32 l => l.length / channels
  | .f64 l => l.length / channels
  | .pi16 l => (l.headD []).length
  | .pi32 l => (l.headD []).length
  | .pf32 l => (l.headD []).length
  | .pf64 l => (l.headD []).length

/-- Calls that add no frame, and neither reset the analyzer nor change channel count or rate. -/
def Quiet {D S : Type} (n rate : Nat) : Op D S → Prop
  | .reset => False
  | .changeParameters c r => c.toNat = n ∧ r.toNat = rate
  | .addFrames x => WellFormed n x → frameCount n x = 0
  | _ => True

end Verif.Spec
