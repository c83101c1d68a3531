import Verif.Model.Capi
/-!
# `src/capi.rs` with its pointers

`Model/Capi` treats an `ebur128_state *` as the value it points to.  Here the two boxes behind it live in a heap: the
`State` handed out to C and the analyzer its `internal` field points to.  Addresses are naturals, null is 0.  A heap is the
list of the live blocks; the allocator is any function from the live addresses to an address (`Allocates`: not null, not
live), so it may hand out freed addresses again.  Dereferencing or freeing what is not a live block of the right type is
undefined behaviour and modelled as a fault.
-/

namespace Verif
variable {D S : Type}

/-- What a heap block holds: a `State` (capi.rs:6-12) or an `EbuR128`. -/
inductive Block (D S : Type) where
  | state (mode : BitVec 32) (channels samplerate internal : Nat)
  | analyzer (e : Ebu D S)

/-- The live blocks with their addresses. -/
abbrev Heap (D S : Type) := List (Nat × Block D S)

/-- The content of a live block. -/
def Heap.get : Heap D S → Nat → Option (Block D S)
  | [], _ => none
  | (q, b) :: h, p => if p = q then some b else Heap.get h p

/-- The addresses of the live blocks. -/
def Heap.live (h : Heap D S) : List Nat := h.map Prod.fst

/-- `Box::into_raw(Box::new(b))`. -/
def Heap.box (alloc : List Nat → Nat) (h : Heap D S) (b : Block D S) : Heap D S × Nat :=
  ((alloc h.live, b) :: h, alloc h.live)

/-- `drop(Box::from_raw(p))`. -/
def Heap.free (h : Heap D S) (p : Nat) : Heap D S := h.filter fun x => x.1 ≠ p

/-- Assignment through a pointer to a live block. -/
def Heap.write (h : Heap D S) (p : Nat) (b : Block D S) : Heap D S := h.map fun x => if x.1 = p then (p, b) else x

/-- `&mut *state` for a `*mut State`, followed by `&mut *s.internal`: the address of the analyzer and the two blocks as
one value (capi.rs:78-79 and alike). -/
def Heap.deref (h : Heap D S) (p : Nat) : Run (Nat × CState D S) :=
  match h.get p with
  | some (.state mode channels samplerate q) =>
    match h.get q with
    | some (.analyzer e) => Run.done (q, ⟨mode, channels, samplerate, e⟩)
    | _ => Run.panic
  | _ => Run.panic

/-- `ebur128_init` (capi.rs:22-46): the analyzer is boxed first, then the `State`. -/
def heapInit (E : Env D S) (alloc : List Nat → Nat) (h : Heap D S) (channels samplerate : Nat) (mode : BitVec 32) :
    Run (Heap D S × Nat) := do
  match ← cInit E channels samplerate mode with
  | none => Run.done (h, 0)
  | some s =>
    let (h, q) := h.box alloc (.analyzer s.internal)
    let (h, p) := h.box alloc (.state s.mode s.channels s.samplerate q)
    Run.done (h, p)

/-- `ebur128_destroy` (capi.rs:48-59): the argument is null or a variable of the caller with its content; the result is
the new content of that variable. -/
def heapDestroy (h : Heap D S) : Option Nat → Run (Heap D S × Option Nat)
  | none => Run.done (h, none)
  | some p =>
    if p = 0 then Run.done (h, some p)
    else match h.get p with
      | some (.state _ _ _ q) =>
        match h.get q with
        | some (.analyzer _) => Run.done ((h.free q).free p, some 0)
        | _ => Run.panic
      | _ => Run.panic

/-- Functions that reject an `unsigned long` before they look at the state (capi.rs:120-122, 142-144). -/
def COp.early : COp D S → Bool
  | .setMaxWindow w => 2 ^ 32 - 1 < w
  | .setMaxHistory w => 2 ^ 32 - 1 < w
  | _ => false

/-- The mutating functions (capi.rs:71-245). `ebur128_change_parameters` looks at the analyzer only after comparing the
fields of the `State`; here both are looked at first. -/
def heapCall (E : Env D S) (h : Heap D S) (p : Nat) (op : COp D S) : Run (Heap D S × Nat) :=
  if op.early then Run.done (h, errCode .noMem)
  else do
    let (q, s) ← h.deref p
    let (s, code) ← cstep E s op
    Run.done ((h.write p (.state s.mode s.channels s.samplerate q)).write q (.analyzer s.internal), code)

/-- The queries of one analyzer (capi.rs:247-259, 281-307, 331-343, 365-449). -/
def heapAsk (E : Env D S) (h : Heap D S) (p : Nat) (out : D) (q : Query) : Run (D × Nat) := do
  let (_, s) ← h.deref p
  cAsk E s out q

/-- `ebur128_loudness_window` (capi.rs:309-329). -/
def heapAskWindow (E : Env D S) (h : Heap D S) (p : Nat) (w : Nat) (out : D) : Run (D × Nat) := do
  let (_, s) ← h.deref p
  cLoudnessWindow E s w out

/-- `ebur128_loudness_global_multiple` and `ebur128_loudness_range_multiple` (capi.rs:261-279, 345-363) on an array of
pointers. -/
def heapMultiple (E : Env D S) (h : Heap D S) (range : Bool) (ps : List Nat) (out : D) : Run (D × Nat) := do
  let ss ← Run.forL h.deref ps
  if range then cLoudnessRangeMultiple E (ss.map Prod.snd) out else cLoudnessGlobalMultiple E (ss.map Prod.snd) out

/-- What a C program with variables of type `ebur128_state *` can do. -/
inductive Act (D S : Type) where
  /-- `v = ebur128_init(channels, samplerate, mode)` -/
  | init (v : Nat) (channels : UInt32) (samplerate : Nat) (mode : BitVec 32)
  /-- `ebur128_destroy(&v)` -/
  | destroy (v : Nat)
  /-- `ebur128_destroy(NULL)` -/
  | destroyNull
  | call (v : Nat) (op : COp D S)
  | ask (v : Nat) (q : Query) (out : D)
  | askWindow (v : Nat) (w : Nat) (out : D)
  | multiple (range : Bool) (vs : List Nat) (out : D)
  /-- `v = w` -/
  | copy (v w : Nat)

/-- What the program sees of an action: whether `ebur128_init` succeeded, a return code, a return code and `*out`. -/
inductive Seen (D : Type) where
  | nothing
  | created (ok : Bool)
  | code (n : Nat)
  | value (n : Nat) (out : D)

/-- Assignment to a variable. -/
def setVar {α : Type} (f : Nat → α) (v : Nat) (x : α) : Nat → α := fun w => if w = v then x else f w

/-- One action on the heap and the variables. -/
def heapAct (E : Env D S) (alloc : List Nat → Nat) (st : Heap D S × (Nat → Nat)) :
    Act D S → Run ((Heap D S × (Nat → Nat)) × Seen D)
  | .init v channels samplerate mode => do
    let (h, p) ← heapInit E alloc st.1 channels.toNat samplerate mode
    Run.done ((h, setVar st.2 v p), .created (p ≠ 0))
  | .destroy v => do
    let (h, p) ← heapDestroy st.1 (some (st.2 v))
    Run.done ((h, setVar st.2 v (p.getD 0)), .nothing)
  | .destroyNull => do
    let (h, _) ← heapDestroy st.1 none
    Run.done ((h, st.2), .nothing)
  | .call v op => do
    let (h, code) ← heapCall E st.1 (st.2 v) op
    Run.done ((h, st.2), .code code)
  | .ask v q out => do
    let (x, code) ← heapAsk E st.1 (st.2 v) out q
    Run.done (st, .value code x)
  | .askWindow v w out => do
    let (x, code) ← heapAskWindow E st.1 (st.2 v) w out
    Run.done (st, .value code x)
  | .multiple range vs out => do
    let (x, code) ← heapMultiple E st.1 range (vs.map st.2) out
    Run.done (st, .value code x)
  | .copy v w => Run.done ((st.1, setVar st.2 v (st.2 w)), .nothing)

/-- A C program: the final heap and variables, and all it has seen. -/
def heapRun (E : Env D S) (alloc : List Nat → Nat) :
    Heap D S × (Nat → Nat) → List (Act D S) → Run ((Heap D S × (Nat → Nat)) × List (Seen D))
  | st, [] => Run.done (st, [])
  | st, a :: as => do
    let (st, x) ← heapAct E alloc st a
    let (st, xs) ← heapRun E alloc st as
    Run.done (st, x :: xs)

end Verif
