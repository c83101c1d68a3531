import Verif.Model.CRef
import Verif.Model.Capi
/-!
# Correspondence between the data of the crate and of the C reference
-/

namespace Verif.Spec
variable {D S : Type}

/-- The planar array of `n` channels of `L` frames (channel `c`, frame `i` at `c * L + i`) and the
interleaved one (at `i * n + c`) hold the same samples. -/
structure SameSamples (n L : Nat) (planar inter : List D) : Prop where
  planar_length : planar.length = n * L
  inter_length : inter.length = n * L
  same : ∀ c i, c < n → i < L → planar[c * L + i]? = inter[i * n + c]?

/-- The number of a channel in the C interface: its place in the list of ebur128.h, which is the
discriminant of the Rust enum (ebur128.rs:84-149). -/
def IsCode (ch : Channel) (code : Nat) : Prop := channelTable[code]? = some ch

/-- The number of a channel. -/
def codeOf (ch : Channel) : Nat := channelTable.idxOf ch

/-- The same values in the four elements of the filter state that are read before they are written;
the first one is always written first. -/
def SameState (v w : V5 D) : Prop := v.v1 = w.v1 ∧ v.v2 = w.v2 ∧ v.v3 = w.v3 ∧ v.v4 = w.v4

/-- Interleaved samples of one of the four formats. -/
inductive Chunk where
  | short (l : List Int16)
  | int (l : List Int32)
  | float (l : List F32)
  | double (l : List F64)

def Chunk.length : Chunk → Nat
  | .short l => l.length
  | .int l => l.length
  | .float l => l.length
  | .double l => l.length

/-- A double that flush-to-zero would clear. -/
def Subnormal64 : F64 → Prop
  | .nan => False
  | .num _ k _ => 0 < k ∧ k < 2 ^ 52

/-- No sample is a subnormal double. -/
def Chunk.NoSubnormal : Chunk → Prop
  | .double l => ∀ x ∈ l, ¬ Subnormal64 x
  | _ => True

/-- A call on the filter: process a chunk, writing the output from frame `index` of the buffer on, or
reset the peaks. -/
inductive FilterCall where
  | process (chunk : Chunk) (index : Nat) (map : List Channel)
  | resetPeaks

/-- The call on the crate's filter and its planar buffer. -/
def rustCall (E : Env F64 F32) (n : Nat) (st : Filter F64 F32 × List F64) :
    FilterCall → Run (Filter F64 F32 × List F64)
  | .process (.short l) i cm => st.1.process E (i16Ops E) (⟨l, n⟩ : Interleaved Int16) st.2 i cm
  | .process (.int l) i cm => st.1.process E (i32Ops E) (⟨l, n⟩ : Interleaved Int32) st.2 i cm
  | .process (.float l) i cm => st.1.process E (f32Ops E) (⟨l, n⟩ : Interleaved F32) st.2 i cm
  | .process (.double l) i cm => st.1.process E (f64Ops E) (⟨l, n⟩ : Interleaved F64) st.2 i cm
  | .resetPeaks => .done (st.1.resetPeaks E, st.2)

/-- Call the C filter with a pointer to element `i * n` of the buffer. -/
def cProcess {T : Type} (E : Env F64 F32) (n : Nat) (cs : CRef.CSample F64 T)
    (st : CRef.Filter F64 F32 × List F64) (l : List T) (i : Nat) (cm : List Channel) :
    Run (CRef.Filter F64 F32 × List F64) := do
  let r ← st.1.process E cs (l.length / n) l (st.2.drop (i * n)) (cm.map codeOf)
  Run.done (r.1, st.2.take (i * n) ++ r.2)

/-- The call on the C filter and its interleaved buffer. -/
def cCall (E : Env F64 F32) (n : Nat) (st : CRef.Filter F64 F32 × List F64) :
    FilterCall → Run (CRef.Filter F64 F32 × List F64)
  | .process (.short l) i cm => cProcess E n (CRef.cShort E) st l i cm
  | .process (.int l) i cm => cProcess E n (CRef.cInt E) st l i cm
  | .process (.float l) i cm => cProcess E n (CRef.cFloat E) st l i cm
  | .process (.double l) i cm => cProcess E n (CRef.cDouble E) st l i cm
  | .resetPeaks => .done (st.1.resetPeaks E, st.2)

/-- A new filter and a series of calls. -/
def rustFilter (E : Env F64 F32) (rate n L : Nat) (sp tp : Bool) (calls : List FilterCall) :
    Run (Filter F64 F32 × List F64) := do
  let f ← Filter.new E rate n sp tp
  Run.foldL (rustCall E n) (f, List.replicate (n * L) E.f64.zero) calls

def cFilter (E : Env F64 F32) (rate n L : Nat) (sp tp : Bool) (calls : List FilterCall) :
    Run (CRef.Filter F64 F32 × List F64) := do
  let g ← CRef.Filter.create E rate n sp tp
  Run.foldL (cCall E n) (g, List.replicate (n * L) E.f64.zero) calls

/-- Calls that both filters take: whole frames that fit into the buffer, at most `M` frames (the size of
the C true peak buffer) when the true peak is measured, and no subnormal doubles on targets that flush
them. -/
def FilterCall.Ok (t : Target) (n L M : Nat) (tp : Bool) : FilterCall → Prop
  | .process x i cm => x.length % n = 0 ∧ i + x.length / n ≤ L ∧ cm.length = n ∧
      (tp = true → x.length / n ≤ M) ∧ (t.sse2 = true → x.NoSubnormal)
  | .resetPeaks => True

/-- Nothing the C code keeps would be flushed by the crate's software flush, which clears everything
below `f64::EPSILON` where C clears what is below `DBL_MIN`. -/
def Clear (v : V5 F64) : Prop :=
  ∀ y ∈ [v.v1, v.v2, v.v3, v.v4], Fl.lt (Fl.abs y) (epsilon (Fl.arith Fmt.b64)) = true → y = Fl.zero false

/-! ### Histories -/

/-- The C program has the tables and the gate factors of the crate. -/
structure SameTables (E : Env D S) (G : CRef.Globals D) : Prop where
  energies : G.energies = Verif.energies E
  boundaries : G.boundaries = Verif.boundaries E
  integrated : G.relativeGateFactor = gateFactor E (-10)
  range : G.minusTwentyDecibels = gateFactor E (-20)

/-- What C promises of `qsort` with a comparison that is a total order on the values: it permutes the
elements so that they ascend.  With NaN among them it promises nothing. -/
def Sorts (qsort : List F64 → List F64) : Prop :=
  ∀ l, (∀ x ∈ l, x.isNan = false) → (qsort l).Perm l ∧ (qsort l).Pairwise fun x y => Fl.le x y = true

/-- The same content: bins and counts, or stored energies and the maximum number of them. -/
inductive SameHistory : History D → CRef.History D → Prop
  | histogram (h : List Nat) (max : Nat) : SameHistory (.histogram h) ⟨true, [], max, h⟩
  | queue (q : List D) (max : Nat) : SameHistory (.queue q max) ⟨false, q, max, []⟩

/-- A loudness given by an energy, or `silent` if there is none. -/
def levelOf (toLoudness : D → D) (silent : D) : Option D → D
  | none => silent
  | some e => toLoudness e

/-- A range given by the energies at its ends, or zero if there are none. -/
def spanOf (A : Arith D) (toLoudness : D → D) : Option (D × D) → D
  | none => A.zero
  | some (low, high) => A.sub (toLoudness high) (toLoudness low)

/-- The crate's history after adding blocks with the given energies. -/
def rustHistory (E : Env D S) (useHistogram : Bool) (max : Nat) (xs : List D) : Run (History D) :=
  Run.foldL (fun h x => h.add E x) (.new useHistogram max) xs

/-- The C library's. -/
def cHistory (E : Env D S) (G : CRef.Globals D) (useHistogram : Bool) (max : Nat) (xs : List D) :
    Run (CRef.History D) :=
  Run.foldL (fun g x => g.add E.f64 G x) (.create useHistogram max) xs

end Verif.Spec
