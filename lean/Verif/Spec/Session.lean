import Verif.Spec.Soft
/-!
# Specification: what a whole session of calls measures

The state is what the measurement means, not how it is stored: the values of the recursive filter per channel, the
filtered signal per channel since the block grid last started, and the recorded blocks.  No ring buffer, no counters,
no pieces.  The containers of recorded blocks are those of `Model/History.lean` (C03, C22 and C63 say what they hold).
-/

namespace Verif.Spec
variable {D S : Type}

/-- Channel counts and sample rates that are accepted. -/
def Valid (channels rate : Nat) : Prop := 1 ≤ channels ∧ channels ≤ 64 ∧ 16 ≤ rate ∧ rate ≤ 2822400

instance (channels rate : Nat) : Decidable (Valid channels rate) := by unfold Valid; infer_instance

/-- A measuring session.  `v c`: values of the recursive part of channel `c`, newest first, since the filter was last
cleared.  `y c`: filtered signal of channel `c`, oldest first, since the block grid last started, `n` frames ago. -/
structure Session (D : Type) where
  mode : Mode
  channels : Nat
  rate : Nat
  window : Nat
  history : Nat
  map : List Channel
  n : Nat
  v : Nat → List D
  y : Nat → List D
  blocks : History D
  shorts : History D

/-- Channel `c` is measured. -/
def Session.used (s : Session D) (c : Nat) : Bool := s.map.getD c .unused ≠ .unused

/-- The recursive part of every channel after one more frame.  The filter of an unused channel rests. -/
def Session.values (E : Env D S) (s : Session D) (x : List D) (c : Nat) : List D :=
  if s.used c then
    next E.f64p (filterCoefficients E (E.f64.ofInt s.rate)).2 E.f64.zero (s.v c) (x.getD c E.f64.zero) :: s.v c
  else s.v c

/-- The filtered signal of every channel after one more frame.  An unused channel repeats what it had one buffer length
ago (silence if there was nothing). -/
def Session.signals (E : Env D S) (s : Session D) (x : List D) (c : Nat) : List D :=
  s.y c ++ [if s.used c then
    response E.f64p (filterCoefficients E (E.f64.ofInt s.rate)).1 E.f64.zero (s.values E x c)
  else (lastN E.f64.zero (capacity s.rate s.window) (s.y c)).headD E.f64.zero]

/-- Energy of the last `N` frames. -/
def Session.energy (E : Env D S) (s : Session D) (N : Nat) : D :=
  Spec.energy E (capacity s.rate s.window) N s.n s.map s.y

/-- One measured frame: a gating block ends every 100 ms from 400 ms on, a short-term block every second from 3 s on. -/
def Session.frame (E : Env D S) (s : Session D) (x : List D) : Run (Session D) := do
  let s := { s with n := s.n + 1, v := s.values E x, y := s.signals E x }
  let h := hop s.rate
  let blocks ← if s.mode.contains Mode.I = true ∧ s.n % h = 0 ∧ 4 * h ≤ s.n then
      s.blocks.add E (s.energy E (4 * h)) else Run.done s.blocks
  let shorts ← if s.mode.contains Mode.LRA = true ∧ s.n % (10 * h) = 0 ∧ 30 * h ≤ s.n then
      s.shorts.add E (s.energy E (30 * h)) else Run.done s.shorts
  Run.done { s with blocks := blocks, shorts := shorts }

/-- A gating block ends with the newest frame. -/
def Session.ends (s : Session D) : Bool := s.n % hop s.rate = 0 ∧ 4 * hop s.rate ≤ s.n

/-- The end of an internal call of the filter: without hardware flush-to-zero, small values become zero. -/
def Session.settled (E : Env D S) (s : Session D) : Session D :=
  { s with v := fun c => if s.used c then settleAll E (s.v c) else s.v c }

/-- The frames of one `add_frames` call.  The internal calls end with the last frame and with every gating block. -/
def Session.add (E : Env D S) : Session D → List (List D) → Run (Session D)
  | s, [] => Run.done s
  | s, x :: xs => (s.frame E x).bind fun s => Session.add E (if xs.isEmpty || s.ends then s.settled E else s) xs

/-- The frames of one `seed_frames` call: they pass through the filter and are not measured. -/
def Session.seed (E : Env D S) (s : Session D) : List (List D) → Session D
  | [] => s
  | xs => (xs.foldl (fun s x => { s with v := s.values E x }) s).settled E

open Classical in
/-- The frames of an input for `n` channels; none if it is malformed. -/
noncomputable def framesOf (E : Env D S) (n : Nat) (x : Input D S) : List (List D) :=
  if WellFormed n x then inputFrames E n x else []

/-- The session with the signal path at rest. -/
def Session.rest (s : Session D) : Session D := { s with n := 0, v := fun _ => [], y := fun _ => [] }

/-- One call. -/
noncomputable def Session.step (E : Env D S) (s : Session D) : Op D S → Run (Session D)
  | .setChannel n v => Run.done
      (if n.toNat < s.channels ∧ (v = .dualMono → s.channels = 1) then { s with map := s.map.set n.toNat v } else s)
  | .setChannelMap m => Run.done
      (if m.length = s.channels ∧ (.dualMono ∈ m → s.channels = 1) then { s with map := m } else s)
  | .changeParameters c r => Run.done
      (if Valid c.toNat r.toNat ∧ ¬ (c.toNat = s.channels ∧ r.toNat = s.rate) then
        { s.rest with channels := c.toNat, rate := r.toNat
                      map := if c.toNat = s.channels then s.map else defaultChannelMap c.toNat }
      else s)
  | .setMaxWindow w => Run.done
      (if max w.toNat (minWindow s.mode) = s.window then s
      else { s with window := max w.toNat (minWindow s.mode), n := 0, y := fun _ => [] })
  | .setMaxHistory h => Run.done
      (if max h.toNat (minWindow s.mode) = s.history then s
      else { s with history := max h.toNat (minWindow s.mode)
                    blocks := s.blocks.setMaxSize E (max h.toNat (minWindow s.mode) / 100)
                    shorts := s.shorts.setMaxSize E (max h.toNat (minWindow s.mode) / 3000) })
  | .reset => Run.done { s.rest with blocks := s.blocks.reset, shorts := s.shorts.reset }
  | .addFrames x => Session.add E s (framesOf E s.channels x)
  | .seedFrames x => Run.done (s.seed E (framesOf E s.channels x))

/-- A sequence of calls. -/
noncomputable def Session.run (E : Env D S) : Session D → List (Op D S) → Run (Session D)
  | s, [] => Run.done s
  | s, op :: ops => (s.step E op).bind fun s => Session.run E s ops

/-- A new session. -/
def Session.start (E : Env D S) (channels rate : Nat) (mode : Mode) : Session D where
  mode := mode
  channels := channels
  rate := rate
  window := minWindow mode
  history := E.usizeMax
  map := defaultChannelMap channels
  n := 0
  v := fun _ => []
  y := fun _ => []
  blocks := History.new (mode.contains Mode.HISTOGRAM) (E.usizeMax / 100)
  shorts := History.new (mode.contains Mode.HISTOGRAM) (E.usizeMax / 3000)

end Verif.Spec
