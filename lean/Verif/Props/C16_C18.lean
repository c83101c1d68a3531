import Verif.Props.C04_C07
import Verif.Proofs.Layout
import Verif.Proofs.Feed
import Verif.Spec.Peaks
/-! # C16, C18: input layouts -/

namespace Verif
variable {D S T : Type}

/-! ## C16 -/

/-- Interleaving of equally long channels: sample `i` of every channel in turn, for `i = 0, 1, …`. -/
def Spec.interleave (l : List (List T)) : List T :=
  match l with
  | [] => []
  | d :: _ => (List.range d.length).flatMap fun i => l.filterMap fun ch => ch[i]?

/-- What the interleaving is, position by position. -/
theorem Spec.interleave_get (l : List (List T)) (n : Nat) (hl : ∀ d ∈ l, d.length = n) (i c : Nat)
    (hi : i < n) (hc : c < l.length) :
    (Spec.interleave l)[i * l.length + c]? = (l[c]?).bind fun ch => ch[i]? := by
  have hin : Spec.interleave l = (List.range n).flatMap fun i => l.filterMap fun ch => ch[i]? := by
    cases l with
    | nil => simp at hc
    | cons d ds => rw [Spec.interleave, hl d (by simp)]
  rw [hin]
  have key : ∀ k, k ≤ n → ∀ off, (∀ j, j < k → off + j < n) →
      ∀ i c, i < k → c < l.length →
      (((List.range' off k).flatMap fun i => l.filterMap fun ch => ch[i]?))[i * l.length + c]? =
        (l[c]?).bind fun ch => ch[off + i]? := by
    intro k
    induction k with
    | zero => intro _ _ _ i c h; omega
    | succ k ih =>
      intro hk off ho i c hi hc
      have hlen : ∀ j, j < n → (l.filterMap fun ch => ch[j]?).length = l.length := fun j hj =>
        planarFrame_length (fun ch hch => by rw [hl ch hch]; exact hj)
      have h0 := ho 0 (by omega)
      rw [List.range'_succ, List.flatMap_cons]
      cases i with
      | zero =>
        rw [Nat.zero_mul, Nat.zero_add, List.getElem?_append_left (by rw [hlen off h0]; exact hc)]
        exact planarFrame_getElem? (fun ch hch => by rw [hl ch hch]; exact h0) c
      | succ i =>
        rw [List.getElem?_append_right (by rw [hlen off h0, Nat.succ_mul]; omega), hlen off h0,
          show (i + 1) * l.length + c - l.length = i * l.length + c by rw [Nat.succ_mul]; omega,
          ih (by omega) (off + 1) (fun j hj => by have := ho (j + 1) (by omega); omega) i c (by omega) hc,
          show off + 1 + i = off + (i + 1) by omega]
  have := key n (Nat.le_refl n) 0 (fun j hj => by omega) i c hi hc
  rw [List.range_eq_range', this, Nat.zero_add]

theorem interleave_frames {l : List (List T)} (h : planarOk l) :
    Spec.interleave l = (planarFrames l).flatten ∧ (planarFrames l).length = (l.headD []).length := by
  obtain ⟨h0, h1⟩ := h
  cases l with
  | nil => exact absurd rfl h0
  | cons d ds =>
    refine ⟨?_, by simp [planarFrames]⟩
    simp only [Spec.interleave, planarFrames, List.flatMap_def, List.headD_cons]
    rfl

theorem interleave_decode {l : List (List T)} (h : planarOk l) :
    interOk l.length (Spec.interleave l) ∧
      interFrames l.length (Spec.interleave l) = planarFrames l := by
  obtain ⟨h1, h2⟩ := interleave_frames h
  have hr := planarFrames_rect h
  have h0 : l.length ≠ 0 := fun hh => h.1 (List.length_eq_zero_iff.1 hh)
  rw [h1]
  refine ⟨⟨h0, ?_⟩, chunksExact_flatten h0 hr⟩
  rw [length_flatten_of hr]; simp

/-- Planar input: the sixteen methods come in pairs, one planar and one interleaved. -/
def Spec.interleaved : Input D S → Input D S
  | .pi16 l => .i16 (Spec.interleave l)
  | .pi32 l => .i32 (Spec.interleave l)
  | .pf32 l => .f32 (Spec.interleave l)
  | .pf64 l => .f64 (Spec.interleave l)
  | x => x

/-- **C16**: planar input with one slice per channel has exactly the effect (result, new state, panic)
of its interleaving, when adding and when seeding, in every reachable state of every configuration. -/
theorem C16_planar {E : Env D S} {e : Ebu D S} (hr : Reachable E e) (x : Input D S)
    (hx : Spec.WellFormed e.channels x) (hc : x.width e.channels = e.channels) :
    step E e (.addFrames x) = step E e (.addFrames (Spec.interleaved x)) ∧
    step E e (.seedFrames x) = step E e (.seedFrames (Spec.interleaved x)) := by
  have key : ∀ {T : Type} (ops : SampleOps D S T) (l : List (List T)), planarOk l →
      l.length = e.channels →
      e.addPlanar E ops l = e.addInterleaved E ops (Spec.interleave l) ∧
      e.seedPlanar E ops l = e.seedInterleaved E ops (Spec.interleave l) := by
    intro T ops l hl hn
    obtain ⟨h1, h2⟩ := interleave_decode hl
    rw [hn] at h1 h2
    simp only [Ebu.addPlanar, Ebu.addInterleaved, Ebu.seedPlanar, Ebu.seedInterleaved,
      (planar_new_eq l).1 hl, (interleaved_new_eq _ _).1 h1]
    have hf : LawfulSamples.toFrames (⟨l, 0, (l.headD []).length⟩ : Planar T) =
        LawfulSamples.toFrames (⟨Spec.interleave l, e.channels⟩ : Interleaved T) := by
      rw [planar_toFrames]; exact h2.symm
    refine ⟨Ebu.addFrames_congr ops hr.inv (planarOk_wf hl) (interOk_wf h1) hn hf, ?_⟩
    rw [Ebu.seedFrames_congr ops hr.inv (planarOk_wf hl) (interOk_wf h1) hn hf]
  cases x with
  | i16 l => exact ⟨rfl, rfl⟩
  | i32 l => exact ⟨rfl, rfl⟩
  | f32 l => exact ⟨rfl, rfl⟩
  | f64 l => exact ⟨rfl, rfl⟩
  | pi16 l => exact key _ l ((planarOk_iff l).2 hx) hc
  | pi32 l => exact key _ l ((planarOk_iff l).2 hx) hc
  | pf32 l => exact key _ l ((planarOk_iff l).2 hx) hc
  | pf64 l => exact key _ l ((planarOk_iff l).2 hx) hc

/-- The hypotheses of `C16_planar`: two channels of three samples. -/
example : ∃ e : Ebu F64 F32, Reachable Demo.env e ∧
    Spec.WellFormed e.channels (.pi16 [[1, 2, 3], [4, 5, 6]] : Input F64 F32) ∧
    (.pi16 [[1, 2, 3], [4, 5, 6]] : Input F64 F32).width e.channels = e.channels ∧
    Spec.interleave [[1, 2, 3], [4, 5, 6]] = [1, 4, 2, 5, 3, 6] := by
  obtain ⟨e, -, hr, h1, -⟩ := demo_new (channels := 2) (rate := 48000) (mode := Mode.I) (by omega)
    (by decide)
  exact ⟨e, hr, ⟨by simp, 3, by simp⟩, by rw [h1]; rfl, by decide⟩

/-! ## C18 -/

/-- **C18**: malformed input is rejected with `NoMem` and changes nothing. -/
theorem C18_rejects {E : Env D S} {e : Ebu D S} (hr : Reachable E e) (x : Input D S)
    (hx : ¬ Spec.WellFormed e.channels x) :
    step E e (.addFrames x) = .done (e, .error .noMem) ∧
      step E e (.seedFrames x) = .done (e, .error .noMem) :=
  Ebu.addInput_err (fun h => hx ((wellFormed_iff hr.inv.ch1 x).1 h))

/-- **C18**: well-formed input is never answered with `NoMem`. -/
theorem C18_accepts {E : Env D S} {e : Ebu D S} (hr : Reachable E e) (x : Input D S)
    (hx : Spec.WellFormed e.channels x) :
    (∀ e', step E e (.addFrames x) ≠ .done (e', .error .noMem)) ∧
      (∀ e' err, step E e (.seedFrames x) ≠ .done (e', .error err)) := by
  have hok := (wellFormed_iff hr.inv.ch1 x).2 hx
  refine ⟨fun e' => Ebu.addInput_ne_noMem hr.inv hok, fun e' err h => ?_⟩
  by_cases hw : x.width e.channels = e.channels
  · simp only [step, Ebu.seedInput_eq hr.inv hok hw] at h; cases h
  · simp only [step, Ebu.seedInput_wrong hr.inv hok hw] at h; cases h

/-- **C18**: well-formed input without frames changes nothing at all. -/
theorem C18_empty {E : Env D S} (e : Ebu D S) (hc : 1 ≤ e.channels) (x : Input D S)
    (hx : Spec.WellFormed e.channels x) (h0 : Spec.frameCount e.channels x = 0) :
    step E e (.addFrames x) = .done (e, .ok ()) := by
  have hok := (wellFormed_iff hc x).2 hx
  have inter : ∀ {T : Type} (ops : SampleOps D S T) (l : List T), interOk e.channels l →
      l.length / e.channels = 0 → e.addInterleaved E ops l = .done (e, .ok ()) := by
    intro T ops l hl hz
    simp only [Ebu.addInterleaved, (interleaved_new_eq _ _).1 hl, Ebu.addFrames]
    exact if_pos hz
  have plan : ∀ {T : Type} (ops : SampleOps D S T) (l : List (List T)), planarOk l →
      (l.headD []).length = 0 → e.addPlanar E ops l = .done (e, .ok ()) := by
    intro T ops l hl hz
    simp only [Ebu.addPlanar, (planar_new_eq _).1 hl, Ebu.addFrames]
    exact if_pos hz
  cases x
  · exact inter _ _ hok h0
  · exact inter _ _ hok h0
  · exact inter _ _ hok h0
  · exact inter _ _ hok h0
  · exact plan _ _ hok h0
  · exact plan _ _ hok h0
  · exact plan _ _ hok h0
  · exact plan _ _ hok h0

/-- Three samples are not stereo frames; two empty planar channels are well-formed and empty. -/
example : ∃ e : Ebu F64 F32, Reachable Demo.env e ∧ 1 ≤ e.channels ∧
    ¬ Spec.WellFormed e.channels (.i16 [1, 2, 3] : Input F64 F32) ∧
    Spec.WellFormed e.channels (.pf64 [[], []] : Input F64 F32) ∧
    Spec.frameCount e.channels (.pf64 [[], []] : Input F64 F32) = 0 := by
  obtain ⟨e, -, hr, h1, -⟩ := demo_new (channels := 2) (rate := 48000) (mode := Mode.I) (by omega)
    (by decide)
  refine ⟨e, hr, by omega, ?_, ⟨by simp, 0, by simp⟩, rfl⟩
  rw [h1]; intro h; simp [Spec.WellFormed] at h

end Verif
