import Verif.Proofs.Events
import Verif.Proofs.Same
/-!
# C11: results do not depend on how the input is split into calls

On targets with hardware flush-to-zero (SSE2). The comparison is between any two histories of
`add_frames_*` / `seed_frames_*` calls that deliver the same samples in the same order, so the split, the
layout (interleaved or planar) and the position of rejected calls do not matter.
-/

set_option linter.unusedSimpArgs false

namespace Verif
open Fl Spec

/-- A sample of one of the four types. -/
inductive Spec.Sample where
  | i16 (x : Int16)
  | i32 (x : Int32)
  | f32 (x : F32)
  | f64 (x : F64)

/-- The frames of an input. -/
def Spec.frames (n : Nat) (x : Input F64 F32) : List (List Sample) :=
  mapFrames n Sample.i16 Sample.i32 Sample.f32 Sample.f64 x

open Classical in
/-- The frames a call delivers, with a flag telling measured ones from seeds; malformed input is rejected and
delivers none. -/
noncomputable def Spec.deliveredBy (n : Nat) : Op F64 F32 → List (Bool × List Sample)
  | .addFrames x => if WellFormed n x then (frames n x).map fun f => (true, f) else []
  | .seedFrames x => if WellFormed n x then (frames n x).map fun f => (false, f) else []
  | _ => []

/-- The sound a history of calls delivers. -/
noncomputable def Spec.sound (n : Nat) (ops : List (Op F64 F32)) : List (Bool × List Sample) :=
  ops.flatMap (deliveredBy n)

section
variable (m : Libm F64) (bs : BSearch) (t : Target)

/-- What a sample amounts to. -/
def Spec.Sample.val : Sample → Val
  | .i16 x => val16 m bs t x
  | .i32 x => val32 m bs t x
  | .f32 x => valF m bs t x
  | .f64 x => valD m bs t x

theorem groups_map' {α β : Type} (n : Nat) (l : List α) (g : α → β) :
    groups n (l.map g) = (groups n l).map (·.map g) := by
  simp only [groups, List.length_map, List.map_map]
  exact List.map_congr_left fun k _ => by simp [List.map_take, List.map_drop]

theorem columns_map' {α β : Type} (l : List (List α)) (g : α → β) :
    columns (l.map (·.map g)) = (columns l).map (·.map g) := by
  have h0 : ((l.map (·.map g)).headD []).length = (l.headD []).length := by cases l <;> simp
  simp only [columns, h0, List.map_map]
  refine List.map_congr_left fun k _ => ?_
  simp only [Function.comp, List.filterMap_map, List.map_filterMap]
  congr 1
  funext ch
  simp

theorem vals_frames (n : Nat) (x : Input F64 F32) :
    vals m bs t n x = (frames n x).map (·.map (Sample.val m bs t)) := by
  cases x <;> simp only [vals, frames, mapFrames, ← groups_map', ← columns_map', List.map_map, Function.comp_def] <;> rfl

theorem step_done_inv2 {E : Env F64 F32} {e e' : Ebu F64 F32} (h : e.Inv2 E) {op : Op F64 F32}
    {r : Except Error Unit} (hs : step E e op = .done (e', r)) : e'.Inv2 E := by
  rcases step_inv2 h op with h1 | ⟨e1, r1, h1, h2, -⟩
  · rw [h1] at hs; cases hs
  · rw [h1] at hs; cases hs; exact h2

theorem evsOf_delivered (n : Nat) (op : Op F64 F32) :
    evsOf m bs t n op = (deliveredBy n op).map fun p => (p.1, p.2.map (Sample.val m bs t)) := by
  cases op with
  | addFrames x =>
    simp only [evsOf, deliveredBy]
    split
    · rw [vals_frames, List.map_map, List.map_map]; rfl
    · rfl
  | seedFrames x =>
    simp only [evsOf, deliveredBy]
    split
    · rw [vals_frames, List.map_map, List.map_map]; rfl
    · rfl
  | _ => rfl

theorem evs_sound (n : Nat) (ops : List (Op F64 F32)) :
    ops.flatMap (evsOf m bs t n) = (sound n ops).map fun p => (p.1, p.2.map (Sample.val m bs t)) := by
  unfold sound
  rw [List.map_flatMap]
  exact flatMap_congr' fun op _ => evsOf_delivered m bs t n op
end

variable {m : Libm F64} {bs : BSearch} {t : Target}

/-- **C11.** Two histories of feeding calls that deliver the same sound lead from one state to the same state,
but for the peaks of the last call. -/
theorem C11_state (hz : t.sse2 = true) {e e1 e2 : Ebu F64 F32} (hr : Reachable (ieeeEnv m bs t) e)
    (ha : Adequate e.mode e.rate e.window) {ops1 ops2 : List (Op F64 F32)} (h1 : ∀ op ∈ ops1, Feed op)
    (h2 : ∀ op ∈ ops2, Feed op) (hs : sound e.channels ops1 = sound e.channels ops2)
    (r1 : runOps (ieeeEnv m bs t) e ops1 = .done e1) (r2 : runOps (ieeeEnv m bs t) e ops2 = .done e2) :
    SameButPrev e1 e2 := by
  have hi := hr.inv
  have hg := hi.good_iff.2 ha
  have hp := hr.inv2.pos hg
  have k1 := Heard.run hi hg hp h1 r1
  have k2 := Heard.run hi hg hp h2 r2
  rw [evs_sound, ← hs, ← evs_sound] at k2
  have k := k1.agree hz hr.pk k2
  exact SameButPrev.of_strip k.strip k.sample k.true

/-- **C11** for the queries: loudness, range, threshold, overall peaks and the gating block summary. -/
theorem C11_queries (hz : t.sse2 = true) {e e1 e2 : Ebu F64 F32} (hr : Reachable (ieeeEnv m bs t) e)
    (ha : Adequate e.mode e.rate e.window) {ops1 ops2 : List (Op F64 F32)} (h1 : ∀ op ∈ ops1, Feed op)
    (h2 : ∀ op ∈ ops2, Feed op) (hs : sound e.channels ops1 = sound e.channels ops2)
    (r1 : runOps (ieeeEnv m bs t) e ops1 = .done e1) (r2 : runOps (ieeeEnv m bs t) e ops2 = .done e2) :
    (∀ q, NotPrev q → ask (ieeeEnv m bs t) e1 q = ask (ieeeEnv m bs t) e2 q) ∧
    e1.gatingBlockCountAndEnergy (ieeeEnv m bs t) = e2.gatingBlockCountAndEnergy (ieeeEnv m bs t) :=
  have k := C11_state hz hr ha h1 h2 hs r1 r2
  ⟨fun _ hq => k.ask hq, k.blocks⟩

/-- **C11** for the future: whatever is called afterwards gives the same results on both, and every query
(but those of the last call's peaks) the same answer. -/
theorem C11_after (hz : t.sse2 = true) {e e1 e2 f1 : Ebu F64 F32} (hr : Reachable (ieeeEnv m bs t) e)
    (ha : Adequate e.mode e.rate e.window) {ops1 ops2 : List (Op F64 F32)} (h1 : ∀ op ∈ ops1, Feed op)
    (h2 : ∀ op ∈ ops2, Feed op) (hs : sound e.channels ops1 = sound e.channels ops2)
    (r1 : runOps (ieeeEnv m bs t) e ops1 = .done e1) (r2 : runOps (ieeeEnv m bs t) e ops2 = .done e2)
    {log : List (Entry F64 F32)} (hc : Calls (ieeeEnv m bs t) e1 log f1) :
    ∃ f2, Calls (ieeeEnv m bs t) e2 log f2 ∧
      ∀ q, NotPrev q → ask (ieeeEnv m bs t) f1 q = ask (ieeeEnv m bs t) f2 q := by
  have k := C11_state hz hr ha h1 h2 hs r1 r2
  have i1 := (runOps_inv2 hr.inv2 ops1 r1).1.inv
  have i2 := (runOps_inv2 hr.inv2 ops2 r2).1.inv
  have p1 := (runOps_inv2 hr.inv2 ops1 r1).1
  have p2 := (runOps_inv2 hr.inv2 ops2 r2).1
  clear i1 i2 r1 r2 hs
  suffices h : ∃ f2, Calls (ieeeEnv m bs t) e2 log f2 ∧ SameButPrev f1 f2 by
    obtain ⟨f2, h3, h4⟩ := h
    exact ⟨f2, h3, fun q hq => h4.ask hq⟩
  induction hc generalizing e2 with
  | nil e1 => exact ⟨e2, .nil _, k⟩
  | cons hst hrest ih =>
    obtain ⟨e2', hst', k'⟩ := k.step p1.inv p2.inv hst
    obtain ⟨f2, h3, h4⟩ := ih k' (step_done_inv2 p1 hst) (step_done_inv2 p2 hst')
    exact ⟨f2, .cons hst' h3, h4⟩

/-! ## Partitions of one buffer -/

theorem groups_append {α : Type} {n : Nat} (hn : 0 < n) {a : List α} (ha : a.length % n = 0) (b : List α) :
    groups n (a ++ b) = groups n a ++ groups n b := by
  obtain ⟨k, hk⟩ : ∃ k, a.length = k * n := ⟨a.length / n, by
    have := Nat.div_add_mod a.length n; rw [ha, Nat.add_zero, Nat.mul_comm] at this; exact this.symm⟩
  unfold groups
  rw [List.length_append, hk, Nat.add_comm (k * n), Nat.add_mul_div_right _ _ hn, Nat.mul_div_cancel _ hn,
    Nat.add_comm _ k, List.range_add, List.map_append]
  congr 1
  · apply List.map_congr_left
    intro j hj
    rw [List.mem_range] at hj
    have h1 : (j + 1) * n ≤ k * n := Nat.mul_le_mul_right n hj
    rw [Nat.add_mul, Nat.one_mul] at h1
    rw [List.drop_append_of_le_length (by omega), List.take_append_of_le_length (by
      rw [List.length_drop]; omega)]
  · rw [List.map_map]
    apply List.map_congr_left
    intro j _
    show List.take n (List.drop ((k + j) * n) (a ++ b)) = _
    rw [Nat.add_mul, ← hk, ← List.drop_drop, List.drop_left]

theorem frames_parts {T : Type} {mk : List T → Input F64 F32} {g : T → Sample} {n : Nat} (hn : 0 < n)
    (hm : ∀ l, frames n (mk l) = groups n (l.map g)) : ∀ {parts : List (List T)},
    (∀ p ∈ parts, p.length % n = 0) → frames n (mk parts.flatten) = parts.flatMap fun p => frames n (mk p) := by
  intro parts
  induction parts with
  | nil =>
    intro _
    rw [hm]
    simp [groups]
  | cons p parts ih =>
    intro h
    rw [List.flatten_cons, hm, List.map_append, groups_append hn (by rw [List.length_map]; exact h p (by simp)),
      ← hm, ← hm, ih fun q hq => h q (by simp [hq]), List.flatMap_cons]

theorem length_flatten_mod {T : Type} {n : Nat} : ∀ {parts : List (List T)}, (∀ p ∈ parts, p.length % n = 0) →
    parts.flatten.length % n = 0 := by
  intro parts
  induction parts with
  | nil => intro _; simp
  | cons p parts ih =>
    intro h
    rw [List.flatten_cons, List.length_append, Nat.add_mod, h p (by simp), ih fun q hq => h q (by simp [hq])]
    simp

/-- Well-formed input of the right width is accepted. -/
theorem adds_run {E : Env F64 F32} : ∀ {xs : List (Input F64 F32)} {e : Ebu F64 F32}, e.Inv2 E → e.Good →
    (∀ x ∈ xs, x.Ok e.channels ∧ x.width e.channels = e.channels) →
    ∃ e', runOps E e (xs.map Op.addFrames) = .done e' := by
  intro xs
  induction xs with
  | nil => intro e _ _ _; exact ⟨e, rfl⟩
  | cons x xs ih =>
    intro e hi hg hx
    obtain ⟨n, hp⟩ := hi.pos hg
    obtain ⟨h1, -, h3, -⟩ := Ebu.addInput_eq hi.inv hg hp (hx x (by simp)).1 (hx x (by simp)).2
    have hs : step E e (.addFrames x) = _ := h1
    obtain ⟨e', h4⟩ := ih (step_done_inv2 hi hs) (hg.of_same h3)
      (by rw [h3.channels]; exact fun y hy => hx y (by simp [hy]))
    refine ⟨e', ?_⟩
    simp only [List.map_cons, runOps, Run.bind_eq, hs, Run.done_bind]
    exact h4

theorem partition_same {T : Type} (mk : List T → Input F64 F32) (g : T → Sample) (hz : t.sse2 = true)
    {e : Ebu F64 F32} (hr : Reachable (ieeeEnv m bs t) e) (ha : Adequate e.mode e.rate e.window)
    (hm : ∀ n l, frames n (mk l) = groups n (l.map g)) (hwf : ∀ n l, WellFormed n (mk l) ↔ l.length % n = 0)
    (hwd : ∀ n l, (mk l).width n = n)
    {parts : List (List T)} (hp : ∀ p ∈ parts, p.length % e.channels = 0) :
    ∃ e1 e2, runOps (ieeeEnv m bs t) e (parts.map fun p => .addFrames (mk p)) = .done e1 ∧
      runOps (ieeeEnv m bs t) e [.addFrames (mk parts.flatten)] = .done e2 ∧ SameButPrev e1 e2 := by
  have hi := hr.inv
  have hg := hi.good_iff.2 ha
  obtain ⟨e1, r1⟩ := adds_run (xs := parts.map mk) hr.inv2 hg (by
    intro x hx
    obtain ⟨p, hp', rfl⟩ := List.mem_map.1 hx
    exact ⟨(wellFormed_iff hi.ch1 _).2 ((hwf _ _).2 (hp p hp')), hwd _ _⟩)
  obtain ⟨e2, r2⟩ := adds_run (xs := [mk parts.flatten]) hr.inv2 hg (by
    intro x hx
    rw [List.mem_singleton] at hx
    subst hx
    exact ⟨(wellFormed_iff hi.ch1 _).2 ((hwf _ _).2 (length_flatten_mod hp)), hwd _ _⟩)
  rw [List.map_map] at r1
  refine ⟨e1, e2, r1, r2, ?_⟩
  refine C11_state hz hr ha ?_ ?_ ?_ r1 r2
  · intro op hop
    obtain ⟨p, -, rfl⟩ := List.mem_map.1 hop
    exact trivial
  · intro op hop
    rw [List.mem_map] at hop
    obtain ⟨p, -, rfl⟩ := hop
    exact trivial
  · simp only [sound, List.map_cons, List.map_nil, List.flatMap_cons, List.flatMap_nil, List.append_nil]
    have h1 : deliveredBy e.channels (.addFrames (mk parts.flatten)) =
        (frames e.channels (mk parts.flatten)).map fun f => (true, f) := by
      simp only [deliveredBy]
      exact if_pos ((hwf _ _).2 (length_flatten_mod hp))
    rw [h1, frames_parts hi.ch1 (hm _) hp, List.map_flatMap, List.flatMap_map]
    refine flatMap_congr' fun p hp' => ?_
    simp only [Function.comp, deliveredBy]
    exact if_pos ((hwf _ _).2 (hp p hp'))

/-- **C11**: a buffer of doubles, cut anywhere between frames. -/
theorem C11_f64 (hz : t.sse2 = true) {e : Ebu F64 F32} (hr : Reachable (ieeeEnv m bs t) e)
    (ha : Adequate e.mode e.rate e.window) {parts : List (List F64)} (hp : ∀ p ∈ parts, p.length % e.channels = 0) :
    ∃ e1 e2, runOps (ieeeEnv m bs t) e (parts.map fun p => .addFrames (.f64 p)) = .done e1 ∧
      runOps (ieeeEnv m bs t) e [.addFrames (.f64 parts.flatten)] = .done e2 ∧ SameButPrev e1 e2 :=
  partition_same Input.f64 Sample.f64 hz hr ha (fun _ _ => rfl) (fun _ _ => Iff.rfl) (fun _ _ => rfl) hp

/-- **C11**: the same for single precision. -/
theorem C11_f32 (hz : t.sse2 = true) {e : Ebu F64 F32} (hr : Reachable (ieeeEnv m bs t) e)
    (ha : Adequate e.mode e.rate e.window) {parts : List (List F32)} (hp : ∀ p ∈ parts, p.length % e.channels = 0) :
    ∃ e1 e2, runOps (ieeeEnv m bs t) e (parts.map fun p => .addFrames (.f32 p)) = .done e1 ∧
      runOps (ieeeEnv m bs t) e [.addFrames (.f32 parts.flatten)] = .done e2 ∧ SameButPrev e1 e2 :=
  partition_same Input.f32 Sample.f32 hz hr ha (fun _ _ => rfl) (fun _ _ => Iff.rfl) (fun _ _ => rfl) hp

/-- **C11**: the same for 16-bit integers. -/
theorem C11_i16 (hz : t.sse2 = true) {e : Ebu F64 F32} (hr : Reachable (ieeeEnv m bs t) e)
    (ha : Adequate e.mode e.rate e.window) {parts : List (List Int16)}
    (hp : ∀ p ∈ parts, p.length % e.channels = 0) :
    ∃ e1 e2, runOps (ieeeEnv m bs t) e (parts.map fun p => .addFrames (.i16 p)) = .done e1 ∧
      runOps (ieeeEnv m bs t) e [.addFrames (.i16 parts.flatten)] = .done e2 ∧ SameButPrev e1 e2 :=
  partition_same Input.i16 Sample.i16 hz hr ha (fun _ _ => rfl) (fun _ _ => Iff.rfl) (fun _ _ => rfl) hp

/-- **C11**: the same for 32-bit integers. -/
theorem C11_i32 (hz : t.sse2 = true) {e : Ebu F64 F32} (hr : Reachable (ieeeEnv m bs t) e)
    (ha : Adequate e.mode e.rate e.window) {parts : List (List Int32)}
    (hp : ∀ p ∈ parts, p.length % e.channels = 0) :
    ∃ e1 e2, runOps (ieeeEnv m bs t) e (parts.map fun p => .addFrames (.i32 p)) = .done e1 ∧
      runOps (ieeeEnv m bs t) e [.addFrames (.i32 parts.flatten)] = .done e2 ∧ SameButPrev e1 e2 :=
  partition_same Input.i32 Sample.i32 hz hr ha (fun _ _ => rfl) (fun _ _ => Iff.rfl) (fun _ _ => rfl) hp

/-- Ten frames of a falling sawtooth on two channels in three calls, interleaved and planar, and a rejected one. -/
def Demo.pieces : List (Op F64 F32) :=
  [.addFrames (.i16 [20000, 17000, 14000, 11000, 8000, 5000, 2000, -1000]),
   .addFrames (.i16 [1, 2, 3]),
   .addFrames (.pi16 [[18000, 12000, 6000], [15000, 9000, 3000]]),
   .addFrames (.i16 [16000, 13000, 10000, 7000, 4000, 1000])]

/-- The same in one call. -/
def Demo.whole : List (Op F64 F32) :=
  [.addFrames (.i16 [20000, 17000, 14000, 11000, 8000, 5000, 2000, -1000, 18000, 15000, 12000, 9000, 6000, 3000,
    16000, 13000, 10000, 7000, 4000, 1000])]

/-- The hypotheses are met by these two histories, the last calls' peaks differ, and the loudness is that of a
non-silent signal. -/
example : ∃ e e1 e2 : Ebu F64 F32, Reachable Demo.env e ∧ Adequate e.mode e.rate e.window ∧
    (∀ op ∈ Demo.pieces, Feed op) ∧ (∀ op ∈ Demo.whole, Feed op) ∧
    sound e.channels Demo.pieces = sound e.channels Demo.whole ∧
    runOps Demo.env e Demo.pieces = .done e1 ∧ runOps Demo.env e Demo.whole = .done e2 ∧
    ask Demo.env e1 (.prevSamplePeak 0) ≠ ask Demo.env e2 (.prevSamplePeak 0) ∧
    e1.gatingBlockCountAndEnergy Demo.env ≠ .done none := by
  obtain ⟨e, he, hr, h1, h2, h3, h4⟩ := demo_new (channels := 2) (rate := 20) (mode := Mode.I ||| Mode.SAMPLE_PEAK)
    (by omega) (by decide)
  obtain ⟨rfl, -⟩ := Ebu.new_ok he
  have key : (match runOps Demo.env (Ebu.init Demo.env 2 20 (Mode.I ||| Mode.SAMPLE_PEAK)) Demo.pieces,
      runOps Demo.env (Ebu.init Demo.env 2 20 (Mode.I ||| Mode.SAMPLE_PEAK)) Demo.whole with
    | .done e1, .done e2 =>
      (match e1.getPrevSamplePeak 0, e2.getPrevSamplePeak 0 with
      | .done (.ok x), .done (.ok y) => decide (x ≠ y)
      | _, _ => false) &&
      (match e1.gatingBlockCountAndEnergy Demo.env with
      | .done (some _) => true
      | _ => false)
    | _, _ => false) = true := by decide +kernel
  split at key
  · next e1 e2 k1 k2 =>
    rw [Bool.and_eq_true] at key
    obtain ⟨ka, kb⟩ := key
    refine ⟨_, e1, e2, hr, by decide, by simp [Demo.pieces, Feed], by simp [Demo.whole, Feed], ?_, k1, k2, ?_, ?_⟩
    · show sound 2 Demo.pieces = sound 2 Demo.whole
      have h3 : ¬ WellFormed 2 (Input.i16 [1, 2, 3] : Input F64 F32) := by
        show ¬ (3 % 2 = 0); decide
      have h5 : WellFormed 2 (Input.pi16 [[18000, 12000, 6000], [15000, 9000, 3000]] : Input F64 F32) :=
        ⟨by simp, 3, by simp⟩
      have h6 : ∀ l : List Int16, WellFormed 2 (Input.i16 l : Input F64 F32) ↔ l.length % 2 = 0 := fun _ => Iff.rfl
      simp only [sound, Demo.pieces, Demo.whole, List.flatMap_cons, List.flatMap_nil, deliveredBy, if_neg h3, if_pos h5,
        h6, List.length_cons, List.length_nil]
      rfl
    · intro hh
      have hh : e1.getPrevSamplePeak 0 = e2.getPrevSamplePeak 0 := hh
      rw [hh] at ka
      split at ka
      · next x y h5 h6 => rw [h5] at h6; cases h6; simp at ka
      · cases ka
    · intro hh
      rw [hh] at kb
      cases kb
  · cases key

end Verif
