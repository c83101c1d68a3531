import Verif.Model.Filter
/-!
# `src/filter.rs` mod `ftz`: the control register around `process` and `seed`

The SSE2 variant.  Code runs on a CPU state consisting of the MXCSR register; a panic unwinds and runs
the `Drop` of the `Ftz` guard.
-/

namespace Verif

/-- A computation on the MXCSR register. After a panic the register still has a value. -/
abbrev Csr (α : Type) := BitVec 32 → Run α × BitVec 32

/-- `_MM_FLUSH_ZERO_ON`. -/
def FLUSH_ZERO_ON : BitVec 32 := 0x8000

/-- Sequencing: the second part runs only if the first returned. -/
def Csr.bind {α β : Type} (x : Csr α) (f : α → Csr β) : Csr β := fun csr =>
  match x csr with
  | (.done a, csr) => f a csr
  | (.panic, csr) => (.panic, csr)
  | (.hang, csr) => (.hang, csr)

/-- `_mm_getcsr` -/
def getcsr : Csr (BitVec 32) := fun csr => (.done csr, csr)
/-- `_mm_setcsr` -/
def setcsr (v : BitVec 32) : Csr Unit := fun _ => (.done (), v)

/-- `Ftz::new` (filter.rs:390-396): the guard stores the old register value. -/
def ftzNew : Csr (BitVec 32) :=
  Csr.bind getcsr fun csr => Csr.bind (setcsr (csr ||| FLUSH_ZERO_ON)) fun _ => fun c => (.done csr, c)

/-- `Drop for Ftz` (filter.rs:399-406). -/
def ftzDrop (guard : BitVec 32) : Csr Unit := setcsr guard

/-- `with_ftz` (filter.rs:408-415): the guard is dropped on return and on unwinding. -/
def withFtz {α : Type} (body : Csr α) : Csr α :=
  Csr.bind ftzNew fun guard => fun csr =>
    match body csr with
    | (.done a, csr) => (.done a, (ftzDrop guard csr).2)
    | (.panic, csr) => (.panic, (ftzDrop guard csr).2)
    | (.hang, csr) => (.hang, csr)

end Verif
