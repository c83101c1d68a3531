import Verif.Proofs.Level
import Verif.Proofs.Tracks
/-!
# Feeding depends on sample values only

The effect of a feeding call is a function of three values per sample: what the filter sees, what the
interpolator sees, and the level. Sample type, layout and (with hardware flush-to-zero) the division into
calls do not matter.
-/

set_option linter.unusedSimpArgs false

namespace Verif
open Fl Spec

/-- What a sample amounts to: its value for the filter, for the interpolator, and its level. -/
structure Spec.Val where
  f64 : F64
  f32 : F32
  level : F64

variable (m : Libm F64) (bs : BSearch) (t : Target)

def Spec.val16 (x : Int16) : Val := ⟨(i16Ops (ieeeEnv m bs t)).toF64 x, (i16Ops (ieeeEnv m bs t)).toF32 x, level16 x⟩
def Spec.val32 (x : Int32) : Val := ⟨(i32Ops (ieeeEnv m bs t)).toF64 x, (i32Ops (ieeeEnv m bs t)).toF32 x, level32 x⟩
def Spec.valF (x : F32) : Val := ⟨(f32Ops (ieeeEnv m bs t)).toF64 x, (f32Ops (ieeeEnv m bs t)).toF32 x, levelF x⟩
def Spec.valD (x : F64) : Val := ⟨(f64Ops (ieeeEnv m bs t)).toF64 x, (f64Ops (ieeeEnv m bs t)).toF32 x, levelD t x⟩

/-- The frames of an input as values. -/
def Spec.vals (n : Nat) (x : Input F64 F32) : List (List Val) :=
  mapFrames n (val16 m bs t) (val32 m bs t) (valF m bs t) (valD m bs t) x

/-- Values as samples. -/
def valOps : SampleOps F64 F32 Val := ⟨Fl.lit _ 1 1, Val.level, Val.f64, Val.f32⟩

/-- `g` says what the samples amount to. -/
structure ValOf {T : Type} (ops : SampleOps F64 F32 T) (g : T → Val) : Prop where
  f64 : ∀ x, (g x).f64 = ops.toF64 x
  f32 : ∀ x, (g x).f32 = ops.toF32 x
  level : ∀ x, mkey (g x).level = sampleKey t ops x

theorem vals_decode {n : Nat} {x : Input F64 F32} (h : x.Ok n) :
    ∃ g, ValOf t (x.decode (ieeeEnv m bs t) n).ops g ∧
      vals m bs t n x = (x.decode (ieeeEnv m bs t) n).frames.map (·.map g) := by
  cases x
  · exact ⟨val16 m bs t, ⟨fun _ => rfl, fun _ => rfl, fun x => (sampleKey_i16 m bs t x).symm⟩, inter_values h _⟩
  · exact ⟨val32 m bs t, ⟨fun _ => rfl, fun _ => rfl, fun x => (sampleKey_i32 m bs t x).symm⟩, inter_values h _⟩
  · exact ⟨valF m bs t, ⟨fun _ => rfl, fun _ => rfl, fun x => (sampleKey_f32 m bs t x).symm⟩, inter_values h _⟩
  · exact ⟨valD m bs t, ⟨fun _ => rfl, fun _ => rfl, fun x => (sampleKey_f64 m bs t x).symm⟩, inter_values h _⟩
  · exact ⟨val16 m bs t, ⟨fun _ => rfl, fun _ => rfl, fun x => (sampleKey_i16 m bs t x).symm⟩, planar_values _ _⟩
  · exact ⟨val32 m bs t, ⟨fun _ => rfl, fun _ => rfl, fun x => (sampleKey_i32 m bs t x).symm⟩, planar_values _ _⟩
  · exact ⟨valF m bs t, ⟨fun _ => rfl, fun _ => rfl, fun x => (sampleKey_f32 m bs t x).symm⟩, planar_values _ _⟩
  · exact ⟨valD m bs t, ⟨fun _ => rfl, fun _ => rfl, fun x => (sampleKey_f64 m bs t x).symm⟩, planar_values _ _⟩

/-! ## The signal path -/

section
variable {m bs t} {T : Type} {ops : SampleOps F64 F32 T} {g : T → Val} (hg : ValOf t ops g) (E : Env F64 F32)
include hg

theorem ValOf.colF64 (c : Nat) (fs : List (List T)) : colF64 valOps c (fs.map (·.map g)) = colF64 ops c fs := by
  unfold Verif.colF64
  rw [column_map, List.map_map]
  exact List.map_congr_left fun x _ => hg.f64 x

theorem ValOf.frame32 (f : List T) : (f.map g).map valOps.toF32 = f.map ops.toF32 := by
  rw [List.map_map]
  exact List.map_congr_left fun x _ => hg.f32 x

theorem ValOf.feed (fs : List (List T)) (sc : Scanner F32) :
    sc.feed E valOps (fs.map (·.map g)) = sc.feed E ops fs := by
  cases sc with
  | specialized ch ip =>
    simp only [Scanner.feed, List.foldl_map]
    congr 1
    congr 1
    funext ip f
    rw [hg.frame32]
  | generic ips =>
    simp only [Scanner.feed]
    congr 1
    apply List.map_congr_left
    intro x _
    rw [column_map, List.foldl_map]
    congr 1
    funext ip s
    rw [show valOps.toF32 (g s) = ops.toF32 s from hg.f32 s]

theorem ValOf.coreP (f : Filter F64 F32) (fs : List (List T)) (cm : List Channel) :
    f.coreP E valOps (fs.map (·.map g)) cm = f.coreP E ops fs cm := by
  have h : (Scanner.feed E valOps (fs.map (·.map g)) : Scanner F32 → Scanner F32) = Scanner.feed E ops fs :=
    funext fun sc => hg.feed E fs sc
  simp only [Filter.coreP, statesP, hg.colF64, h]

theorem ValOf.advanceC (e : Ebu F64 F32) (fs : List (List T)) :
    e.advanceC E valOps (fs.map (·.map g)) = e.advanceC E ops fs := by
  simp only [Ebu.advanceC, rowsP, hg.coreP, hg.colF64, List.length_map]

theorem ValOf.tickC (e : Ebu F64 F32) (f : List T) : e.tickC E valOps (f.map g) = e.tickC E ops f := by
  have := hg.advanceC E e [f]
  simp only [List.map_cons, List.map_nil] at this
  simp only [Ebu.tickC, this]

omit hg in
theorem rect_map {n : Nat} {fs : List (List T)} (h : RectF n fs) : RectF n (fs.map (·.map g)) := by
  intro f hf
  obtain ⟨f', hf', rfl⟩ := List.mem_map.1 hf
  rw [List.length_map]; exact h f' hf'

end

/-- The loop of `add_frames` on a state without peaks. -/
def Ebu.addLoopC {T : Type} (E : Env F64 F32) (ops : SampleOps F64 F32 T) :
    Nat → Ebu F64 F32 → List (List T) → Ebu F64 F32
  | 0, e, _ => e
  | fuel + 1, e, fs =>
    if fs.length = 0 then e
    else if e.neededFrames ≤ fs.length then
      Ebu.addLoopC E ops fuel ((e.advanceC E ops (fs.take e.neededFrames)).completeP E) (fs.drop e.neededFrames)
    else e.advanceC E ops fs

theorem Ebu.strip_addLoopC {T : Type} {E : Env F64 F32} (ops : SampleOps F64 F32 T) (fuel : Nat) :
    ∀ {e : Ebu F64 F32}, e.Inv E → e.Good → ∀ {n : Nat}, e.PosAt n → ∀ {fs : List (List T)}, RectF e.channels fs →
    (e.addLoopP E ops fuel fs).strip = e.strip.addLoopC E ops fuel fs := by
  induction fuel with
  | zero => intro e _ _ n _ fs _; rfl
  | succ fuel ih =>
    intro e hi hg n hp fs hf
    have hroom := hi.idx_room hg hp
    simp only [Ebu.addLoopP, Ebu.addLoopC]
    by_cases h0 : fs.length = 0
    · rw [if_pos h0, if_pos h0]
    · rw [if_neg h0, if_neg h0]
      show (if e.neededFrames ≤ fs.length then _ else _ : Ebu F64 F32).strip =
        if e.neededFrames ≤ fs.length then _ else _
      by_cases hle : e.neededFrames ≤ fs.length
      · rw [if_pos hle, if_pos hle]
        have hla : (fs.take e.neededFrames).length = e.neededFrames := by rw [List.length_take]; omega
        have hrect : RectF e.channels (fs.take e.neededFrames) := fun f h => hf f (List.mem_of_mem_take h)
        have hadv := Ebu.advanceP_inv ops hi hrect (by omega) (k := 1) (Nat.le_refl 1)
        have hinv := Ebu.completeP_inv hadv.1
        have hsame := hadv.2.trans (Ebu.completeP_sameCfg E (e.advanceP E ops (fs.take e.neededFrames)))
        have hpos := Ebu.completeP_pos ops hi hg hp hrect hla
        rw [ih hinv (hg.of_same hsame) hpos
          (by rw [hsame.channels]; exact fun f h => hf f (List.mem_of_mem_drop h)),
          Ebu.strip_completeP, Ebu.strip_advanceP _ hi]
        rfl
      · rw [if_neg hle, if_neg hle]
        exact Ebu.strip_advanceP _ hi fs

theorem Ebu.strip_addP_loop {T : Type} {E : Env F64 F32} (ops : SampleOps F64 F32 T) {e : Ebu F64 F32} (hi : e.Inv E)
    (hg : e.Good) {n : Nat} (hp : e.PosAt n) {fs : List (List T)} (hf : RectF e.channels fs) :
    (e.addP E ops fs).strip = e.strip.addLoopC E ops (2 * fs.length + 2) fs := by
  unfold Ebu.addP
  by_cases h0 : fs.length = 0
  · rw [if_pos h0]
    simp only [Ebu.addLoopC, if_pos h0]
  · rw [if_neg h0]
    have hi' : ({ e with filter := e.filter.resetPeaks E } : Ebu F64 F32).Inv E := Ebu.resetPeaks_inv hi
    have := Ebu.strip_addLoopC ops (2 * fs.length + 2) hi' ⟨hg.gate, hg.short⟩ ⟨hp.idx, hp.needed, hp.stc⟩ hf
    exact this

theorem ValOf.addLoopC {t : Target} {T : Type} {ops : SampleOps F64 F32 T} {g : T → Val} (hg : ValOf t ops g)
    (E : Env F64 F32) (fuel : Nat) : ∀ (e : Ebu F64 F32) (fs : List (List T)),
    e.addLoopC E valOps fuel (fs.map (·.map g)) = e.addLoopC E ops fuel fs := by
  induction fuel with
  | zero => intro e fs; rfl
  | succ fuel ih =>
    intro e fs
    simp only [Ebu.addLoopC, List.length_map, ← List.map_take, ← List.map_drop, hg.advanceC, ih]

end Verif
