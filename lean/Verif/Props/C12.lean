import Verif.Props.C11
import Verif.Proofs.Opposite
import Verif.Proofs.FloatMono
import Verif.Props.C25_C26
import Verif.Spec.Libm
/-!
# C12: without hardware flush-to-zero the split matters

On targets without SSE2 the filter state is flushed in software at the end of every internal processing step.
Partitions on 100 ms boundaries still agree, and so do the overall peaks for every partition; the filter state does
not.
-/

set_option linter.unusedSimpArgs false

namespace Verif
open Spec

/-- Number of frames a call adds to the measurement. -/
noncomputable def Spec.adds (n : Nat) (op : Op F64 F32) : Nat := ((deliveredBy n op).filter (·.1)).length

/-- Calls adding these numbers of frames, after `p` frames, end at multiples of 100 ms (`s` frames) past the first
400 ms.  The last one may end anywhere. -/
def Spec.BlockCuts (s : Nat) : Nat → List Nat → Prop
  | _, [] => True
  | _, [_] => True
  | p, k :: ks => (k = 0 ∨ 4 * s ≤ p + k ∧ (p + k) % s = 0) ∧ BlockCuts s (p + k) ks

/-! ## The loop over blocks -/

section Loop
variable {T : Type} {E : Env F64 F32} (ops : SampleOps F64 F32 T)

theorem completeP_needed (E : Env F64 F32) (e : Ebu F64 F32) :
    (e.completeP E).neededFrames = e.samplesIn100ms ∧ (e.completeP E).samplesIn100ms = e.samplesIn100ms :=
  ⟨(Ebu.shortP_fields E (e.gateP E)).2.2.2.2.2.1, (Ebu.completeP_sameCfg E e).s100⟩

theorem addLoopC_fuel : ∀ {fuel fuel' : Nat} {e : Ebu F64 F32} {fs : List (List T)}, 0 < e.neededFrames →
    0 < e.samplesIn100ms → fs.length < fuel → fs.length < fuel' →
    e.addLoopC E ops fuel fs = e.addLoopC E ops fuel' fs
  | 0, _, _, _, _, _, h, _ => absurd h (Nat.not_lt_zero _)
  | _ + 1, 0, _, _, _, _, _, h => absurd h (Nat.not_lt_zero _)
  | fuel + 1, fuel' + 1, e, fs, hn, hs, h, h' => by
    simp only [Ebu.addLoopC]
    split
    · rfl
    · split
      · obtain ⟨k1, k2⟩ := completeP_needed E (e.advanceC E ops (fs.take e.neededFrames))
        have k3 : (e.advanceC E ops (fs.take e.neededFrames)).samplesIn100ms = e.samplesIn100ms := rfl
        exact addLoopC_fuel (by rw [k1, k3]; exact hs) (by rw [k2, k3]; exact hs)
          (by rw [List.length_drop]; omega) (by rw [List.length_drop]; omega)
      · rfl

/-- Frames that end with a block. -/
theorem addLoopC_append : ∀ {f1 f2 f3 : Nat} {e : Ebu F64 F32} {A : List (List T)} (B : List (List T)),
    0 < e.neededFrames → 0 < e.samplesIn100ms → A.length < f1 → B.length < f2 → (A ++ B).length < f3 →
    (A = [] ∨ ∃ k, A.length = e.neededFrames + k * e.samplesIn100ms) →
    e.addLoopC E ops f3 (A ++ B) = (e.addLoopC E ops f1 A).addLoopC E ops f2 B ∧
    (e.addLoopC E ops f1 A).samplesIn100ms = e.samplesIn100ms ∧
    (e.addLoopC E ops f1 A).neededFrames = if A = [] then e.neededFrames else e.samplesIn100ms
  | 0, _, _, _, _, _, _, _, h, _, _, _ => absurd h (Nat.not_lt_zero _)
  | _ + 1, _, 0, _, _, _, _, _, _, _, h, _ => absurd h (Nat.not_lt_zero _)
  | f1 + 1, f2, f3 + 1, e, A, B, hn, hs, h1, h2, h3, hc => by
    rcases hc with rfl | ⟨k, hk⟩
    · have : e.addLoopC E ops (f1 + 1) ([] : List (List T)) = e := by simp [Ebu.addLoopC]
      rw [this, List.nil_append]
      exact ⟨addLoopC_fuel ops hn hs (by simpa using h3) h2, rfl, by simp⟩
    · have hle : e.neededFrames ≤ A.length := by omega
      have hA : A ≠ [] := by intro h; rw [h] at hle; simp at hle; omega
      have e1 : e.addLoopC E ops (f1 + 1) A = Ebu.addLoopC E ops f1
          ((e.advanceC E ops (A.take e.neededFrames)).completeP E) (A.drop e.neededFrames) := by
        simp only [Ebu.addLoopC]
        rw [if_neg (by omega), if_pos hle]
      have e2 : e.addLoopC E ops (f3 + 1) (A ++ B) = Ebu.addLoopC E ops f3
          ((e.advanceC E ops (A.take e.neededFrames)).completeP E) (A.drop e.neededFrames ++ B) := by
        simp only [Ebu.addLoopC]
        rw [if_neg (by rw [List.length_append]; omega), if_pos (by rw [List.length_append]; omega),
          List.take_append_of_le_length hle, List.drop_append_of_le_length hle]
      obtain ⟨k1, k2⟩ := completeP_needed E (e.advanceC E ops (A.take e.neededFrames))
      have k3 : (e.advanceC E ops (A.take e.neededFrames)).samplesIn100ms = e.samplesIn100ms := rfl
      rw [k3] at k1 k2
      have hl : (A.drop e.neededFrames).length = k * e.samplesIn100ms := by rw [List.length_drop]; omega
      obtain ⟨i1, i2, i3⟩ := addLoopC_append (f1 := f1) (f2 := f2) (f3 := f3)
        (e := (e.advanceC E ops (A.take e.neededFrames)).completeP E) (A := A.drop e.neededFrames) B
        (by rw [k1]; exact hs) (by rw [k2]; exact hs) (by rw [List.length_drop]; omega) h2
        (by rw [List.length_append, List.length_drop]; rw [List.length_append] at h3; omega)
        (by
          cases k with
          | zero => left; exact List.length_eq_zero_iff.1 (by rw [hl]; simp)
          | succ k => right; exact ⟨k, by rw [hl, k1, k2, Nat.succ_mul]; omega⟩)
      rw [e1, e2]
      refine ⟨i1, by rw [i2, k2], ?_⟩
      rw [if_neg hA, i3, k1, k2, ite_self]

/-- The end of a block. -/
theorem cut_form {s p k : Nat} (hs : 0 < s) (hk : k ≠ 0) (h1 : 4 * s ≤ p + k) (h2 : (p + k) % s = 0) :
    (∃ j, k = needAt s p + j * s) ∧ needAt s (p + k) = s := by
  constructor
  · obtain ⟨q, hq⟩ := Nat.dvd_of_mod_eq_zero h2
    unfold needAt
    split
    · rename_i h3
      obtain ⟨d, rfl⟩ : ∃ d, q = 4 + d := by
        refine ⟨q - 4, ?_⟩
        have : 4 ≤ q := Nat.le_of_mul_le_mul_left (by rw [← hq, Nat.mul_comm]; exact h1) hs
        omega
      refine ⟨d, ?_⟩
      rw [Nat.mul_add, Nat.mul_comm s d] at hq
      omega
    · have hm := Nat.mod_lt p hs
      have hd := Nat.div_add_mod p s
      have hlt : p / s < q := by
        by_contra hc
        have := Nat.mul_le_mul_left s (Nat.le_of_not_lt hc)
        omega
      obtain ⟨d, rfl⟩ : ∃ d, q = p / s + 1 + d := ⟨q - (p / s + 1), by omega⟩
      refine ⟨d, ?_⟩
      rw [Nat.mul_add, Nat.mul_add, Nat.mul_one, Nat.mul_comm s d] at hq
      omega
  · unfold needAt
    rw [if_neg (by omega), h2, Nat.sub_zero]

/-- Calls whose cuts are the ends of blocks do what one call does. -/
theorem addLoopC_parts {s : Nat} (hs : 0 < s) : ∀ {parts : List (List (List T))} {e : Ebu F64 F32} {p : Nat},
    e.samplesIn100ms = s → e.neededFrames = needAt s p → BlockCuts s p (parts.map List.length) →
    parts.foldl (fun e A => e.addLoopC E ops (2 * A.length + 2) A) e =
      e.addLoopC E ops (2 * parts.flatten.length + 2) parts.flatten
  | [], e, p, _, _, _ => by simp [Ebu.addLoopC]
  | [A], e, p, _, _, _ => by simp
  | A :: A' :: parts, e, p, hs', hn, hc => by
    obtain ⟨hc1, hc2⟩ := hc
    have hn0 : 0 < e.neededFrames := by rw [hn]; exact needAt_pos hs p
    have hcut : (A = [] ∨ ∃ k, A.length = e.neededFrames + k * e.samplesIn100ms) ∧
        (if A = [] then e.neededFrames else e.samplesIn100ms) = needAt s (p + A.length) := by
      by_cases hA : A = []
      · exact ⟨.inl hA, by rw [if_pos hA, hA, hn]; rfl⟩
      · have hl : A.length ≠ 0 := fun h => hA (List.length_eq_zero_iff.1 h)
        obtain ⟨h1, h2⟩ := cut_form hs hl (hc1.resolve_left hl).1 (hc1.resolve_left hl).2
        exact ⟨.inr (by rw [hn, hs']; exact h1), by rw [if_neg hA, hs', h2]⟩
    obtain ⟨i1, i2, i3⟩ := addLoopC_append ops (E := E) (f1 := 2 * A.length + 2)
      (f2 := 2 * (A' :: parts).flatten.length + 2) (f3 := 2 * (A :: A' :: parts).flatten.length + 2) (e := e)
      (A := A) (A' :: parts).flatten hn0 (by omega) (by omega) (by omega)
      (by rw [← List.flatten_cons]; omega) hcut.1
    rw [List.foldl_cons, addLoopC_parts hs (by rw [i2, hs']) (by rw [i3, hcut.2]) hc2]
    exact i1.symm
end Loop

/-! ## Calls -/

section
variable (m : Libm F64) (bs : BSearch) (t : Target)

open Classical in
/-- What a call of `add_frames` delivers. -/
noncomputable def addedVals (n : Nat) : Op F64 F32 → List (List Val)
  | .addFrames x => if WellFormed n x then vals m bs t n x else []
  | _ => []

variable {m bs t}

theorem addedVals_evs {n : Nat} (x : Input F64 F32) :
    (addedVals m bs t n (.addFrames x)).map (fun f => (true, f)) = evsOf m bs t n (.addFrames x) := by
  simp only [addedVals, evsOf]
  split <;> rfl

theorem adds_evs (n : Nat) (op : Op F64 F32) :
    adds n op = ((evsOf m bs t n op).filter (·.1)).length := by
  rw [adds, evsOf_delivered, List.filter_map, List.length_map]
  rfl

theorem addedVals_length {n : Nat} (x : Input F64 F32) :
    (addedVals m bs t n (.addFrames x)).length = adds n (.addFrames x) := by
  rw [adds_evs (m := m) (bs := bs) (t := t), ← addedVals_evs, List.filter_map, List.length_map]
  congr 1
  exact (List.filter_eq_self.2 fun _ _ => rfl).symm

/-- A call of `add_frames`, on any target. -/
theorem add_step {e e' : Ebu F64 F32} (hi : e.Inv (ieeeEnv m bs t)) (hg : e.Good) {p : Nat} (hp : e.PosAt p)
    {x : Input F64 F32} {r : Except Error Unit}
    (hs : Verif.step (ieeeEnv m bs t) e (.addFrames x) = .done (e', r)) :
    e'.strip = e.strip.addLoopC (ieeeEnv m bs t) valOps (2 * (addedVals m bs t e.channels (.addFrames x)).length + 2)
      (addedVals m bs t e.channels (.addFrames x)) ∧ e'.PosAt (p + adds e.channels (.addFrames x)) := by
  rw [← addedVals_length (m := m) (bs := bs) (t := t)]
  have hs' : e.addInput (ieeeEnv m bs t) x = .done (e', r) := hs
  simp only [addedVals]
  by_cases hx : x.Ok e.channels
  · rw [if_pos ((wellFormed_iff hi.ch1 x).1 hx)]
    obtain ⟨g, hv, hvals⟩ := vals_decode m bs t hx
    by_cases hw : x.width e.channels = e.channels
    · obtain ⟨h1, h2, h3, h4⟩ := Ebu.addInput_eq hi hg hp hx hw
      rw [h1] at hs'
      cases hs'
      have hrect := Input.decode_rect (ieeeEnv m bs t) hx
      rw [hw] at hrect
      rw [hvals, List.length_map]
      exact ⟨by rw [Ebu.strip_addP_loop _ hi hg hp hrect, hv.addLoopC], h4⟩
    · have hnil : vals m bs t e.channels x = [] ∧ e' = e := by
        rcases step_peaks hi hs with ⟨-, -, u⟩ | ⟨y, hy, hx', -⟩ | ⟨hy, -⟩ | ⟨_, _, hy, -⟩
        · obtain ⟨-, u1, u2⟩ := u x rfl
          exact ⟨by rw [hvals, (u2 (Ebu.addInput_wrong hi hx hw hs).2).2]; rfl, u1⟩
        · cases hy; exact absurd hx'.2.1 hw
        · cases hy
        · cases hy
      rw [hnil.1, hnil.2]
      exact ⟨by simp [Ebu.addLoopC], hp⟩
  · rw [if_neg (fun h => hx ((wellFormed_iff hi.ch1 x).2 h))]
    rw [(Ebu.addInput_err hx).1] at hs'
    cases hs'
    exact ⟨by simp [Ebu.addLoopC], hp⟩

/-- The counters after a feeding call, on any target. -/
theorem feed_pos {e e' : Ebu F64 F32} (hi : e.Inv (ieeeEnv m bs t)) (hg : e.Good) {p : Nat} (hp : e.PosAt p)
    {op : Op F64 F32} (hop : Feed op) {r : Except Error Unit}
    (hs : Verif.step (ieeeEnv m bs t) e op = .done (e', r)) : e'.PosAt (p + adds e.channels op) := by
  cases op with
  | addFrames x => exact (add_step hi hg hp hs).2
  | seedFrames x =>
    have h0 : adds e.channels (.seedFrames x : Op F64 F32) = 0 := by
      simp only [adds, deliveredBy]
      split <;> simp [List.filter_map, Function.comp_def]
    rw [h0]
    have hs' : e.seedInput (ieeeEnv m bs t) x = .done (e', r) := hs
    by_cases hx : x.Ok e.channels
    · by_cases hw : x.width e.channels = e.channels
      · rw [Ebu.seedInput_eq hi hx hw] at hs'
        cases hs'
        exact ⟨hp.idx, hp.needed, hp.stc⟩
      · rw [Ebu.seedInput_wrong hi hx hw] at hs'; cases hs'
    · rw [(Ebu.addInput_err hx).2] at hs'
      cases hs'
      exact hp
  | _ => exact absurd hop id

theorem feeds_pos {ops : List (Op F64 F32)} : ∀ {e e' : Ebu F64 F32} {p : Nat},
    e.Inv (ieeeEnv m bs t) → e.Good → e.PosAt p → (∀ op ∈ ops, Feed op) →
    runOps (ieeeEnv m bs t) e ops = .done e' → e'.PosAt (p + (ops.map (adds e.channels)).sum) := by
  induction ops with
  | nil => intro e e' p _ _ hp _ h; cases h; exact hp
  | cons op ops ih =>
    intro e e' p hi hg hp hops hrun
    simp only [runOps, Run.bind_eq] at hrun
    obtain ⟨⟨e1, r⟩, h1, h2⟩ := Run.bind_done hrun
    have h3 := Heard.step hi hg ⟨p, hp⟩ (hops op (by simp)) h1
    have h4 := ih h3.inv (hg.of_same h3.same) (feed_pos hi hg hp (hops op (by simp)) h1)
      (fun o ho => hops o (by simp [ho])) h2
    rw [h3.same.channels] at h4
    rw [List.map_cons, List.sum_cons, ← Nat.add_assoc]
    exact h4

/-- A history of calls of `add_frames`, on any target. -/
theorem adds_strip {xs : List (Input F64 F32)} : ∀ {e e' : Ebu F64 F32} {p : Nat},
    e.Inv (ieeeEnv m bs t) → e.Good → e.PosAt p →
    runOps (ieeeEnv m bs t) e (xs.map Op.addFrames) = .done e' →
    e'.strip = (xs.map fun x => addedVals m bs t e.channels (.addFrames x)).foldl
      (fun e A => e.addLoopC (ieeeEnv m bs t) valOps (2 * A.length + 2) A) e.strip := by
  induction xs with
  | nil => intro e e' p _ _ _ h; cases h; rfl
  | cons x xs ih =>
    intro e e' p hi hg hp hrun
    simp only [List.map_cons, runOps, Run.bind_eq] at hrun
    obtain ⟨⟨e1, r⟩, h1, h2⟩ := Run.bind_done hrun
    have h3 := Heard.step hi hg ⟨p, hp⟩ (op := .addFrames x) trivial h1
    obtain ⟨h4, h5⟩ := add_step hi hg hp h1
    rw [ih h3.inv (hg.of_same h3.same) h5 h2, h3.same.channels, h4, List.map_cons, List.foldl_cons]

theorem runOps_append {E : Env F64 F32} {ops ops' : List (Op F64 F32)} : ∀ {e e' : Ebu F64 F32},
    runOps E e (ops ++ ops') = .done e' → ∃ e1, runOps E e ops = .done e1 ∧ runOps E e1 ops' = .done e' := by
  induction ops with
  | nil => intro e e' h; exact ⟨e, rfl, h⟩
  | cons op ops ih =>
    intro e e' h
    simp only [List.cons_append, runOps, Run.bind_eq] at h
    obtain ⟨⟨e1, r⟩, h1, h2⟩ := Run.bind_done h
    obtain ⟨e2, h3, h4⟩ := ih h2
    exact ⟨e2, by simp only [runOps, Run.bind_eq, h1, Run.done_bind]; exact h3, h4⟩

theorem reachable_run {E : Env F64 F32} {ops : List (Op F64 F32)} : ∀ {e e' : Ebu F64 F32}, Reachable E e →
    runOps E e ops = .done e' → Reachable E e' := by
  induction ops with
  | nil => intro e e' h hr; cases hr; exact h
  | cons op ops ih =>
    intro e e' h hr
    simp only [runOps, Run.bind_eq] at hr
    obtain ⟨⟨e1, r⟩, h1, h2⟩ := Run.bind_done hr
    exact ih (h.step h1) h2

theorem map_true_inj {α : Type} {a b : List α} (h : a.map (fun f => (true, f)) = b.map fun f => (true, f)) : a = b :=
  List.map_injective_iff.2 (fun _ _ h => (Prod.mk.inj h).2) h

/-- **C12**, what remains true.  After any feeding calls, two ways of cutting the same sound into calls of
`add_frames` at 100 ms boundaries lead to the same state, but for the peaks of the last call.  On every target. -/
theorem C12_aligned {e0 e1 e2 : Ebu F64 F32} (h : Started (ieeeEnv m bs t) e0)
    (ha : Adequate e0.mode e0.rate e0.window) {before : List (Op F64 F32)} (hb : ∀ op ∈ before, Feed op)
    {xs ys : List (Input F64 F32)}
    (hx : BlockCuts (hop e0.rate) ((before.map (adds e0.channels)).sum) (xs.map fun x => adds e0.channels (.addFrames x)))
    (hy : BlockCuts (hop e0.rate) ((before.map (adds e0.channels)).sum) (ys.map fun y => adds e0.channels (.addFrames y)))
    (hs : sound e0.channels (xs.map Op.addFrames) = sound e0.channels (ys.map Op.addFrames))
    (r1 : runOps (ieeeEnv m bs t) e0 (before ++ xs.map Op.addFrames) = .done e1)
    (r2 : runOps (ieeeEnv m bs t) e0 (before ++ ys.map Op.addFrames) = .done e2) : SameButPrev e1 e2 := by
  have hi := h.reachable.inv
  have hg := hi.good_iff.2 ha
  have hp : e0.PosAt 0 := (h.blank.tracks hi).pos
  obtain ⟨e, hrun, r1'⟩ := runOps_append r1
  obtain ⟨e', hrun', r2'⟩ := runOps_append r2
  rw [hrun] at hrun'
  cases hrun'
  have hh := Heard.run hi hg ⟨0, hp⟩ hb hrun
  have hpos := feeds_pos hi hg hp hb hrun
  rw [Nat.zero_add] at hpos
  have hg' := hg.of_same hh.same
  have hr : Reachable (ieeeEnv m bs t) e := reachable_run h.reachable hrun
  have hch := hh.same.channels
  have k1 := Heard.run hh.inv hg' ⟨_, hpos⟩ (by simp [Feed]) r1'
  have k2 := Heard.run hh.inv hg' ⟨_, hpos⟩ (by simp [Feed]) r2'
  rw [evs_sound, hch, ← hs, ← hch, ← evs_sound] at k2
  obtain ⟨p1, p2⟩ := k1.peaks hr.pk k2
  have s1 := adds_strip hh.inv hg' hpos r1'
  have s2 := adds_strip hh.inv hg' hpos r2'
  have hs0 : 0 < hop e0.rate := hop_pos hi.rate16
  have hs100 : e.strip.samplesIn100ms = hop e0.rate := by
    show e.samplesIn100ms = _
    rw [hh.same.s100, hi.s100]; rfl
  have hneed : e.strip.neededFrames = needAt (hop e0.rate) ((before.map (adds e0.channels)).sum) := by
    show e.neededFrames = _
    rw [hpos.needed]
    congr 1
  have cut : ∀ zs : List (Input F64 F32), (zs.map fun x => addedVals m bs t e.channels (.addFrames x)).map List.length =
      zs.map fun x => adds e0.channels (.addFrames x) := by
    intro zs
    rw [List.map_map, hch]
    exact List.map_congr_left fun x _ => addedVals_length x
  have flat : (xs.map fun x => addedVals m bs t e.channels (.addFrames x)).flatten =
      (ys.map fun x => addedVals m bs t e.channels (.addFrames x)).flatten := by
    apply map_true_inj
    have hf : ∀ zs : List (Input F64 F32),
        ((zs.map fun x => addedVals m bs t e.channels (.addFrames x)).flatten).map (fun f => (true, f)) =
        (zs.map Op.addFrames).flatMap (evsOf m bs t e.channels) := by
      intro zs
      rw [List.map_flatten, List.map_map, List.flatMap_def, List.map_map]
      congr 1
      exact List.map_congr_left fun x _ => addedVals_evs x
    rw [hf, hf, evs_sound, evs_sound, hch, hs]
  refine SameButPrev.of_strip ?_ p1 p2
  rw [s2, s1, addLoopC_parts valOps hs0 hs100 hneed (by rw [cut]; exact hy),
    addLoopC_parts valOps hs0 hs100 hneed (by rw [cut]; exact hx), flat]

/-- **C12**, the overall peaks: the same for every way of cutting the sound into calls, on every target. -/
theorem C12_peaks {e e1 e2 : Ebu F64 F32} (hr : Reachable (ieeeEnv m bs t) e)
    (ha : Adequate e.mode e.rate e.window) {ops1 ops2 : List (Op F64 F32)} (h1 : ∀ op ∈ ops1, Feed op)
    (h2 : ∀ op ∈ ops2, Feed op) (hs : sound e.channels ops1 = sound e.channels ops2)
    (r1 : runOps (ieeeEnv m bs t) e ops1 = .done e1) (r2 : runOps (ieeeEnv m bs t) e ops2 = .done e2) (c : UInt32) :
    ask (ieeeEnv m bs t) e1 (.samplePeak c) = ask (ieeeEnv m bs t) e2 (.samplePeak c) ∧
    ask (ieeeEnv m bs t) e1 (.truePeak c) = ask (ieeeEnv m bs t) e2 (.truePeak c) := by
  have hi := hr.inv
  have hg := hi.good_iff.2 ha
  have hp := hr.inv2.pos hg
  have k1 := Heard.run hi hg hp h1 r1
  have k2 := Heard.run hi hg hp h2 r2
  rw [evs_sound, ← hs, ← evs_sound] at k2
  obtain ⟨p1, p2⟩ := k1.peaks hr.pk k2
  have hm := k1.same.mode.trans k2.same.mode.symm
  have hc := k1.same.channels.trans k2.same.channels.symm
  constructor
  · show e1.getSamplePeak _ = e2.getSamplePeak _
    simp only [Ebu.getSamplePeak, p1, hm, hc]
  · show e1.getTruePeak _ _ = e2.getTruePeak _ _
    simp only [Ebu.getTruePeak, p1, p2, hm, hc]
end

/-! ## A cut inside a block -/

section
open Fl
variable {φ : Fmt}

theorem mul_zero_finite (hmb : 1 ≤ φ.mb) {x : Fl φ} (hx : Fl.Finite x) : ∃ s, Fl.mul x (Fl.zero false) = Fl.zero s := by
  obtain ⟨s, k, hk, rfl, hlt⟩ := hx
  refine ⟨s ^^ false, ?_⟩
  have h0 : (0 : Nat) ≠ φ.infK := (Nat.ne_of_gt (infK_pos φ)).symm
  show (if k = φ.infK then _ else if (0 : Nat) = φ.infK then _ else ofMag φ _ (φ.mag k * φ.mag 0) (2 ^ φ.u)) = _
  rw [if_neg (by omega), if_neg h0, φ.mag_zero, Nat.mul_zero]
  exact ext_num rfl (φ.rnd_zero hmb (Nat.two_pow_pos _))

theorem sub_zero_num (hmb : 1 ≤ φ.mb) {s : Bool} {k : Nat} {hk : k ≤ φ.infK} (h0 : k ≠ 0) (z : Bool) :
    Fl.sub (.num s k hk) (Fl.zero z) = .num s k hk := by
  have hz : (0 : Nat) ≠ φ.infK := (Nat.ne_of_gt (infK_pos φ)).symm
  show (if k = φ.infK then (if (0 : Nat) = φ.infK then _ else inf s) else if (0 : Nat) = φ.infK then _ else
    ofSMag φ (s && !z) (smag φ s k + smag φ (!z) 0)) = _
  by_cases hi : k = φ.infK
  · rw [if_pos hi, if_neg hz]; exact ext_num rfl hi.symm
  · rw [if_neg hi, if_neg hz]
    have h1 : smag φ (!z) 0 = 0 := by cases z <;> simp [smag]
    have hm : 0 < φ.mag k := mag_pos_iff.2 (by omega)
    have hr : φ.rnd (φ.mag k) 1 = k := by
      have := φ.rnd_mag hmb hk (d := 1) Nat.one_pos
      rwa [Nat.mul_one] at this
    rw [h1, Int.add_zero]
    cases s
    · have e1 : smag φ false k = (φ.mag k : Int) := by simp [smag]
      rw [e1, ofSMag, if_neg (by omega)]
      exact ext_num (by simp) (by rw [Int.natAbs_natCast]; exact hr)
    · have e1 : smag φ true k = -(φ.mag k : Int) := by simp [smag]
      rw [e1, ofSMag, if_neg (by omega)]
      refine ext_num ?_ ?_
      · simp; omega
      · rw [Int.natAbs_neg, Int.natAbs_natCast]; exact hr

/-- Just below `f64::EPSILON`. -/
def Spec.small (s : Bool) : F64 := .num s (971 * 2 ^ 52 - 1) (by decide)

theorem epsilon_key : Fl.lit Fmt.b64 1 (2 ^ 52) = .num false (971 * 2 ^ 52) (by decide) := by decide +kernel

theorem small_lt (s : Bool) : Fl.lt (Fl.abs (small s)) (Fl.lit Fmt.b64 1 (2 ^ 52)) = true := by
  cases s <;> decide +kernel

theorem zero_lt_eps (s : Bool) : Fl.lt (Fl.abs (Fl.zero s)) (Fl.lit Fmt.b64 1 (2 ^ 52)) = true := by
  cases s <;> decide +kernel

theorem eps_reached : 971 * 2 ^ 52 ≤ Fmt.b64.rnd (Fmt.b64.mag (971 * 2 ^ 52 - 1) +
    Fmt.b64.mag (Fmt.b64.rnd (Fmt.b64.mag (970 * 2 ^ 52) * Fmt.b64.mag (971 * 2 ^ 52 - 1)) (2 ^ Fmt.b64.u))) 1 := by
  decide +kernel

theorem lit53_key : Fl.lit Fmt.b64 1 (2 ^ 53) = .num false (970 * 2 ^ 52) (by decide) := by decide +kernel
end

section
variable {m : Libm F64} {bs : BSearch} {t : Target}

theorem soft_sub (hz : t.sse2 = false) (x y : F64) : (ieeeEnv m bs t).f64p.sub x y = Fl.sub x y := by
  rw [ieee_p_sub, Fl.flush, hz]; rfl

theorem soft_mul (hz : t.sse2 = false) (x y : F64) : (ieeeEnv m bs t).f64p.mul x y = Fl.mul x y := by
  rw [ieee_p_mul, Fl.flush, hz]; rfl

/-- The software flush. -/
def soft (v : F64) : F64 := if Fl.lt (Fl.abs v) (Fl.lit Fmt.b64 1 (2 ^ 52)) then Fl.zero false else v

theorem flush_soft (hz : t.sse2 = false) (st : V5 F64) : flushState (ieeeEnv m bs t) st = st.map soft := by
  have h : (ieeeEnv m bs t).noFtz = true := by show (!t.sse2) = true; rw [hz]; rfl
  rw [flushState, if_pos h]
  obtain ⟨sse2, fused, u⟩ := t
  cases hz
  rfl

theorem soft_zero : soft (Fl.zero false) = Fl.zero false := if_pos (zero_lt_eps false)
theorem soft_small (s : Bool) : soft (small s) = Fl.zero false := if_pos (small_lt s)

/-- An impulse into a filter at rest. -/
theorem filterIn_zero (hz : t.sse2 = false) {a : V5 F64} (h1 : Fl.Finite a.v1) (h2 : Fl.Finite a.v2) (h3 : Fl.Finite a.v3)
    (h4 : Fl.Finite a.v4) {s : Bool} {k : Nat} {hk : k ≤ Fmt.b64.infK} (h0 : k ≠ 0) (v0 : F64) :
    filterIn (ieeeEnv m bs t).f64p a ⟨v0, Fl.zero false, Fl.zero false, Fl.zero false, Fl.zero false⟩ (.num s k hk) =
      .num s k hk := by
  have hmb := Fmt.ok64.mb
  obtain ⟨s1, e1⟩ := mul_zero_finite hmb h1
  obtain ⟨s2, e2⟩ := mul_zero_finite hmb h2
  obtain ⟨s3, e3⟩ := mul_zero_finite hmb h3
  obtain ⟨s4, e4⟩ := mul_zero_finite hmb h4
  simp only [filterIn, soft_sub hz, soft_mul hz, e1, e2, e3, e4, sub_zero_num hmb h0]

/-- The next value. -/
theorem filterIn_next (hz : t.sse2 = false) {a : V5 F64} {s : Bool} {k : Nat} {hk : k ≤ Fmt.b64.infK}
    (h1 : a.v1 = .num s k hk) (hlt : k < Fmt.b64.infK) (hge : 970 * 2 ^ 52 ≤ k) (h2 : Fl.Finite a.v2) (h3 : Fl.Finite a.v3)
    (h4 : Fl.Finite a.v4) (v0 : F64) :
    ∃ l, ∃ hl : l ≤ Fmt.b64.infK, 971 * 2 ^ 52 ≤ l ∧
    filterIn (ieeeEnv m bs t).f64p a ⟨v0, small (!s), Fl.zero false, Fl.zero false, Fl.zero false⟩ (small false) =
      .num false l hl := by
  have hmb := Fmt.ok64.mb
  obtain ⟨s2, e2⟩ := mul_zero_finite hmb h2
  obtain ⟨s3, e3⟩ := mul_zero_finite hmb h3
  obtain ⟨s4, e4⟩ := mul_zero_finite hmb h4
  have hsm : (971 * 2 ^ 52 - 1 : Nat) ≠ Fmt.b64.infK := by decide
  have hp : Fl.mul a.v1 (small (!s)) = .num true (Fmt.b64.rnd (Fmt.b64.mag k * Fmt.b64.mag (971 * 2 ^ 52 - 1))
      (2 ^ Fmt.b64.u)) (Fmt.b64.rnd_le_infK ..) := by
    rw [h1]
    show (if k = Fmt.b64.infK then _ else if (971 * 2 ^ 52 - 1 : Nat) = Fmt.b64.infK then _ else
      Fl.ofMag Fmt.b64 (s ^^ !s) (Fmt.b64.mag k * Fmt.b64.mag (971 * 2 ^ 52 - 1)) (2 ^ Fmt.b64.u)) = _
    rw [if_neg (by omega), if_neg hsm]
    exact Fl.ext_num (by cases s <;> rfl) rfl
  have hq : Fl.sub (small false) (Fl.mul a.v1 (small (!s))) = .num false (Fmt.b64.rnd
      (Fmt.b64.mag (971 * 2 ^ 52 - 1) + Fmt.b64.mag (Fmt.b64.rnd (Fmt.b64.mag k * Fmt.b64.mag (971 * 2 ^ 52 - 1))
      (2 ^ Fmt.b64.u))) 1) (Fmt.b64.rnd_le_infK ..) := by
    rw [hp]
    exact Fl.add_pos hmb _ _
  have hbig : 971 * 2 ^ 52 ≤ Fmt.b64.rnd
      (Fmt.b64.mag (971 * 2 ^ 52 - 1) + Fmt.b64.mag (Fmt.b64.rnd (Fmt.b64.mag k * Fmt.b64.mag (971 * 2 ^ 52 - 1))
      (2 ^ Fmt.b64.u))) 1 := by
    refine Nat.le_trans eps_reached ?_
    refine Fmt.rnd_mono _ hmb Nat.one_pos Nat.one_pos (Nat.mul_le_mul_right _ (Nat.add_le_add_left ?_ _))
    refine Fmt.mag_le _ ?_
    exact Fmt.rnd_mono _ hmb (Nat.two_pow_pos _) (Nat.two_pow_pos _)
      (Nat.mul_le_mul_right _ (Nat.mul_le_mul_right _ (Fmt.mag_le _ hge)))
  refine ⟨_, Fmt.rnd_le_infK .., hbig, ?_⟩
  simp only [filterIn, soft_sub hz, soft_mul hz, hq, e2, e3, e4]
  rw [sub_zero_num hmb (by omega), sub_zero_num hmb (by omega), sub_zero_num hmb (by omega)]

theorem chanState_one (hz : t.sse2 = false) {f : Filter F64 F32} {s : Bool} {k : Nat} {hk : k ≤ Fmt.b64.infK}
    (h1 : f.a.v1 = .num s k hk) (hlt : k < Fmt.b64.infK) (hge : 970 * 2 ^ 52 ≤ k) (h2 : Fl.Finite f.a.v2)
    (h3 : Fl.Finite f.a.v3) (h4 : Fl.Finite f.a.v4) {ch : Channel} (hu : ch ≠ .unused) :
    ∃ l, ∃ hl : l ≤ Fmt.b64.infK, l ≠ 0 ∧
      (chanState (ieeeEnv m bs t) f ch (zeroV5 (ieeeEnv m bs t)) [small (!s), small false]).v1 = .num false l hl := by
  obtain ⟨l, hl, hbig, h5⟩ := filterIn_next (m := m) (bs := bs) hz h1 hlt hge h2 h3 h4 (small (!s))
  refine ⟨l, hl, by omega, ?_⟩
  rw [chanState, if_neg hu, flush_soft hz]
  show soft (filterIn (ieeeEnv m bs t).f64p f.a (filterShift (zeroV5 (ieeeEnv m bs t))
    (filterIn (ieeeEnv m bs t).f64p f.a (zeroV5 (ieeeEnv m bs t)) (small (!s)))) (small false)) = _
  have h6 : filterIn (ieeeEnv m bs t).f64p f.a (zeroV5 (ieeeEnv m bs t)) (small (!s)) = small (!s) :=
    filterIn_zero hz ⟨_, _, _, h1, hlt.ne⟩ h2 h3 h4 (by decide) _
  rw [h6]
  show soft (filterIn (ieeeEnv m bs t).f64p f.a
    ⟨small (!s), small (!s), Fl.zero false, Fl.zero false, Fl.zero false⟩ (small false)) = _
  rw [h5, soft, if_neg]
  rw [epsilon_key]
  show ¬ Fl.lt (.num false l hl : F64) _ = true
  rw [Fl.lt_pos]
  simp only [decide_eq_true_eq]
  omega

theorem chanState_two (hz : t.sse2 = false) {f : Filter F64 F32} (h1 : Fl.Finite f.a.v1) (h2 : Fl.Finite f.a.v2)
    (h3 : Fl.Finite f.a.v3) (h4 : Fl.Finite f.a.v4) {ch : Channel} (hu : ch ≠ .unused) (s : Bool) :
    chanState (ieeeEnv m bs t) f ch (zeroV5 (ieeeEnv m bs t)) [small s] = zeroV5 (ieeeEnv m bs t) := by
  rw [chanState, if_neg hu, flush_soft hz]
  show (filterShift (zeroV5 (ieeeEnv m bs t))
    (filterIn (ieeeEnv m bs t).f64p f.a (zeroV5 (ieeeEnv m bs t)) (small s))).map soft = _
  have h6 : filterIn (ieeeEnv m bs t).f64p f.a (zeroV5 (ieeeEnv m bs t)) (small s) = small s :=
    filterIn_zero hz h1 h2 h3 h4 (by decide) _
  rw [h6]
  show (⟨soft (small s), soft (small s), soft (Fl.zero false), soft (Fl.zero false), soft (Fl.zero false)⟩ : V5 F64) = _
  rw [soft_small, soft_zero]
  rfl

theorem groups_one {α : Type} {n : Nat} (hn : 0 < n) {l : List α} (h : l.length = n) : groups n l = [l] := by
  have h1 : l.length / n = 1 := by rw [h, Nat.div_self hn]
  simp only [groups, h1, List.range_one, List.map_cons, List.map_nil, Nat.zero_mul, List.drop_zero]
  rw [List.take_of_length_le (by omega)]

/-- The filter state of a channel after fewer frames than the next block needs. -/
theorem short_state {e e' : Ebu F64 F32} (hi : e.Inv (ieeeEnv m bs t)) (hg : e.Good) {p : Nat} (hp : e.PosAt p)
    {l : List F64} {r : Except Error Unit} (hl : l.length % e.channels = 0) (hpos : 0 < l.length)
    (hlt : (groups e.channels l).length < e.neededFrames)
    (hs : Verif.step (ieeeEnv m bs t) e (.addFrames (.f64 l)) = .done (e', r)) {c : Nat} {ch : Channel} {st : V5 F64}
    (hc : e.channelMap[c]? = some ch) (hst : e.filter.filterState[c]? = some st) :
    e'.filter.filterState[c]? = some (chanState (ieeeEnv m bs t) e.filter ch st (column c (groups e.channels l))) := by
  obtain ⟨h1, -⟩ := add_step hi hg hp hs
  have hwf : WellFormed e.channels (.f64 l : Input F64 F32) := hl
  have hv : addedVals m bs t e.channels (.addFrames (.f64 l)) = (groups e.channels l).map (·.map (valD m bs t)) := by
    simp only [addedVals, if_pos hwf]
    show groups e.channels (l.map (valD m bs t)) = _
    rw [groups_map']
  rw [hv] at h1
  have hlen : (groups e.channels l).length ≠ 0 := by
    have : e.channels ≤ l.length := Nat.le_of_dvd hpos (Nat.dvd_of_mod_eq_zero hl)
    have := Nat.div_pos this hi.ch1
    simp only [groups, List.length_map, List.length_range]
    omega
  have h2 : e'.strip = e.strip.advanceC (ieeeEnv m bs t) valOps ((groups e.channels l).map (·.map (valD m bs t))) := by
    rw [h1]
    simp only [Ebu.addLoopC, List.length_map]
    rw [if_neg hlen, if_neg (show ¬ e.strip.neededFrames ≤ _ from Nat.not_le.2 hlt)]
  have h3 : e'.filter.filterState = statesP (ieeeEnv m bs t) valOps e.strip.filter
      ((groups e.channels l).map (·.map (valD m bs t))) e.channelMap :=
    congrArg (fun x : Ebu F64 F32 => x.filter.filterState) h2
  have hst' : e.strip.filter.filterState[c]? = some st := hst
  rw [h3, statesP, List.getElem?_map, List.getElem?_zipIdx, zip_some hc hst']
  simp only [Option.map_some, Option.some.injEq, Nat.zero_add]
  have h4 : colF64 valOps c ((groups e.channels l).map (·.map (valD m bs t))) = column c (groups e.channels l) := by
    rw [colF64, column_map, List.map_map]
    have : valOps.toF64 ∘ valD m bs t = id := rfl
    rw [this, List.map_id]
  rw [h4]
  rfl

/-- **C12**, the failure: without SSE2, an analyzer whose filter has finite coefficients and a first feedback
coefficient of at least 2⁻⁵³ in magnitude does depend on the cut.  For every channel in use there are two frames
which, delivered in one call or in two, leave different filter states. -/
theorem C12_differs (hz : t.sse2 = false) {e0 : Ebu F64 F32} (h : Started (ieeeEnv m bs t) e0)
    (ha : Adequate e0.mode e0.rate e0.window) {c : Nat} {ch : Channel} (hc : e0.channelMap[c]? = some ch)
    (hu : ch ≠ .unused)
    (h1 : Fl.Finite (filterCoefficients (ieeeEnv m bs t) ((ieeeEnv m bs t).f64.ofInt e0.rate)).2.v1)
    (h2 : Fl.Finite (filterCoefficients (ieeeEnv m bs t) ((ieeeEnv m bs t).f64.ofInt e0.rate)).2.v2)
    (h3 : Fl.Finite (filterCoefficients (ieeeEnv m bs t) ((ieeeEnv m bs t).f64.ofInt e0.rate)).2.v3)
    (h4 : Fl.Finite (filterCoefficients (ieeeEnv m bs t) ((ieeeEnv m bs t).f64.ofInt e0.rate)).2.v4)
    (hge : Fl.le (Fl.lit Fmt.b64 1 (2 ^ 53))
      (Fl.abs (filterCoefficients (ieeeEnv m bs t) ((ieeeEnv m bs t).f64.ofInt e0.rate)).2.v1) = true) :
    ∃ x y : List F64, x.length = e0.channels ∧ y.length = e0.channels ∧ ∃ e1 e2,
      sound e0.channels [.addFrames (.f64 (x ++ y))] = sound e0.channels [.addFrames (.f64 x), .addFrames (.f64 y)] ∧
      runOps (ieeeEnv m bs t) e0 [.addFrames (.f64 (x ++ y))] = .done e1 ∧
      runOps (ieeeEnv m bs t) e0 [.addFrames (.f64 x), .addFrames (.f64 y)] = .done e2 ∧
      e1.filter.filterState[c]? ≠ e2.filter.filterState[c]? ∧ ¬ SameButPrev e1 e2 := by
  have hi := h.reachable.inv
  have hg := hi.good_iff.2 ha
  have hp : e0.PosAt 0 := (h.blank.tracks hi).pos
  rw [← hi.coef.2] at h1 h2 h3 h4 hge
  obtain ⟨s, k, hk, hv1, hlt⟩ := id h1
  have hk' : 970 * 2 ^ 52 ≤ k := by
    rw [lit53_key, hv1] at hge
    have : Fl.le (.num false (970 * 2 ^ 52) (by decide) : F64) (.num false k hk) = true := hge
    rw [Fl.le_pos] at this
    exact of_decide_eq_true this
  have hcl : c < e0.channels := by
    rw [← hi.map]; exact (List.getElem?_eq_some_iff.1 hc).1
  have hone : ∀ v : F64, ((List.replicate e0.channels (Fl.zero false : F64)).set c v).length = e0.channels := by simp
  have hat : ∀ v : F64, ((List.replicate e0.channels (Fl.zero false : F64)).set c v)[c]? = some v := by
    intro v; rw [List.getElem?_set_self (by simpa using hcl)]
  refine ⟨(List.replicate e0.channels (Fl.zero false)).set c (small (!s)),
    (List.replicate e0.channels (Fl.zero false)).set c (small false), hone _, hone _, ?_⟩
  generalize hx : (List.replicate e0.channels (Fl.zero false : F64)).set c (small (!s)) = x
  generalize hy : (List.replicate e0.channels (Fl.zero false : F64)).set c (small false) = y
  have hxl : x.length = e0.channels := by rw [← hx]; exact hone _
  have hyl : y.length = e0.channels := by rw [← hy]; exact hone _
  have hxc : x[c]? = some (small (!s)) := by rw [← hx]; exact hat _
  have hyc : y[c]? = some (small false) := by rw [← hy]; exact hat _
  have hch := hi.ch1
  have hxm : x.length % e0.channels = 0 := by rw [hxl, Nat.mod_self]
  have hym : y.length % e0.channels = 0 := by rw [hyl, Nat.mod_self]
  have hxym : (x ++ y).length % e0.channels = 0 := by
    rw [List.length_append, hxl, hyl, ← Nat.two_mul, Nat.mul_mod_left]
  have gx : groups e0.channels x = [x] := groups_one hch hxl
  have gy : groups e0.channels y = [y] := groups_one hch hyl
  have gxy : groups e0.channels (x ++ y) = [x, y] := by rw [groups_append hch hxm, gx, gy]; rfl
  have hneed : 8 ≤ e0.neededFrames := by
    rw [h.blank.needed, hi.s100]
    have := hi.rate16
    unfold s100
    omega
  have hst : e0.filter.filterState[c]? = some (zeroV5 (ieeeEnv m bs t)) := by
    rw [h.blank.state, List.getElem?_replicate, if_pos hcl]
  obtain ⟨e1, r1⟩ := adds_run (xs := [.f64 (x ++ y)]) h.reachable.inv2 hg (by
    intro z hz'
    cases List.mem_singleton.1 hz'
    exact ⟨(wellFormed_iff hch _).2 hxym, rfl⟩)
  obtain ⟨e2, r2⟩ := adds_run (xs := [.f64 x, .f64 y]) h.reachable.inv2 hg (by
    intro z hz'
    rcases List.mem_cons.1 hz' with rfl | hz'
    · exact ⟨(wellFormed_iff hch _).2 hxm, rfl⟩
    · cases List.mem_singleton.1 hz'
      exact ⟨(wellFormed_iff hch _).2 hym, rfl⟩)
  have hdiff : e1.filter.filterState[c]? ≠ e2.filter.filterState[c]? := by
    have q1 := r1
    simp only [List.map_cons, List.map_nil, runOps, Run.bind_eq] at q1
    obtain ⟨⟨a1, u1⟩, q2, q3⟩ := Run.bind_done q1
    cases q3
    have t1 := short_state hi hg hp hxym (by rw [List.length_append]; omega) (by rw [gxy]; show 2 < _; omega) q2 hc hst
    have w1 := r2
    simp only [List.map_cons, List.map_nil, runOps, Run.bind_eq] at w1
    obtain ⟨⟨b1, v1⟩, w2, w3⟩ := Run.bind_done w1
    obtain ⟨⟨b2, v2⟩, w4, w5⟩ := Run.bind_done w3
    cases w5
    have t2 := short_state hi hg hp hxm (by omega) (by rw [gx]; show 1 < _; omega) w2 hc hst
    have hh := Heard.step hi hg ⟨0, hp⟩ (op := .addFrames (.f64 x)) trivial w2
    have hb1 : b1.PosAt 1 := by
      have := feed_pos hi hg hp (op := .addFrames (.f64 x)) trivial w2
      have h0 : adds e0.channels (.addFrames (.f64 x)) = 1 := by
        rw [← addedVals_length (m := m) (bs := bs) (t := t)]
        have hwf : WellFormed e0.channels (.f64 x : Input F64 F32) := hxm
        simp only [addedVals, if_pos hwf]
        show (groups e0.channels (x.map (valD m bs t))).length = 1
        rw [groups_map', gx]; rfl
      rwa [h0] at this
    have hcb := hh.same.channels
    have hcm : b1.channelMap = e0.channelMap := hh.same.map
    have hcoef : b1.filter.a = e0.filter.a := by
      rw [hh.inv.coef.2, hi.coef.2, hh.same.rate]
    have hn1 : 7 ≤ b1.neededFrames := by
      rw [hb1.needed, hh.inv.s100]
      have := hh.inv.rate16
      unfold needAt s100
      rw [if_pos (by omega)]
      omega
    have c1 : column c (groups e0.channels x) = [small (!s)] := by rw [gx]; simp [column, hxc]
    have c2 : column c (groups e0.channels y) = [small false] := by rw [gy]; simp [column, hyc]
    have c12 : column c (groups e0.channels (x ++ y)) = [small (!s), small false] := by rw [gxy]; simp [column, hxc, hyc]
    rw [c1, chanState_two hz h1 h2 h3 h4 hu] at t2
    have t3 := short_state hh.inv (hg.of_same hh.same) hb1 (by rw [hcb]; exact hym) (by omega)
      (by rw [hcb, gy]; show 1 < _; omega) w4 (by rw [hcm]; exact hc) t2
    rw [hcb, c2, chanState_two hz (by rw [hcoef]; exact h1) (by rw [hcoef]; exact h2) (by rw [hcoef]; exact h3)
      (by rw [hcoef]; exact h4) hu] at t3
    rw [c12] at t1
    obtain ⟨l, hl, hl0, t4⟩ := chanState_one (m := m) (bs := bs) hz hv1 (by omega) hk' h2 h3 h4 hu
    rw [t1, t3]
    intro heq
    have t5 := congrArg V5.v1 (Option.some.inj heq)
    rw [t4] at t5
    have t6 : (.num false l hl : F64) = .num false 0 (Nat.zero_le _) := t5
    injection t6 with _ t7
    exact hl0 t7
  refine ⟨e1, e2, ?_, r1, r2, hdiff, ?_⟩
  · have w0 : WellFormed e0.channels (.f64 (x ++ y) : Input F64 F32) := hxym
    have w1 : WellFormed e0.channels (.f64 x : Input F64 F32) := hxm
    have w2 : WellFormed e0.channels (.f64 y : Input F64 F32) := hym
    simp only [sound, List.flatMap_cons, List.flatMap_nil, List.append_nil, deliveredBy, if_pos w0, if_pos w1, if_pos w2]
    rw [← List.map_append]
    congr 1
    show groups e0.channels ((x ++ y).map Sample.f64) = groups e0.channels (x.map Sample.f64) ++
      groups e0.channels (y.map Sample.f64)
    rw [List.map_append, groups_append hch (by rw [List.length_map]; exact hxm)]
  · rintro ⟨u, v, rfl⟩
    exact hdiff rfl
end

/-! ## Concrete cases -/

/-- A 64-bit target without SSE2, with the realistic libm. -/
def Demo.envSoft : Env F64 F32 := ieeeEnv Demo.series Demo.bsearch ⟨false, false, 2 ^ 64 - 1⟩

/-- Whether a number is finite. -/
def Demo.finite (x : F64) : Bool :=
  match x with
  | .nan => false
  | .num _ k _ => decide (k < Fmt.b64.infK)

theorem Demo.finite_spec {x : F64} (h : Demo.finite x = true) : Fl.Finite x := by
  cases x with
  | nan => cases h
  | num s k hk => exact ⟨s, k, hk, rfl, Nat.ne_of_lt (of_decide_eq_true h)⟩

/-- The coefficients at 48 kHz (and at the other usual rates) are finite, and the first one is large. -/
theorem Demo.softCoef : ([44100, 48000, 96000, 192000].all fun r =>
    let a := (filterCoefficients Demo.envSoft (Demo.envSoft.f64.ofInt r)).2
    Demo.finite a.v1 && Demo.finite a.v2 && Demo.finite a.v3 && Demo.finite a.v4 &&
      Fl.le (Fl.lit Fmt.b64 1 (2 ^ 53)) (Fl.abs a.v1)) = true := by decide +kernel

/-- So a stereo analyzer at 48 kHz depends on the cut. -/
example : ∃ e0 : Ebu F64 F32, Started Demo.envSoft e0 ∧ e0.rate = 48000 ∧ e0.channels = 2 ∧
    ∃ x y : List F64, ∃ e1 e2,
      runOps Demo.envSoft e0 [.addFrames (.f64 (x ++ y))] = .done e1 ∧
      runOps Demo.envSoft e0 [.addFrames (.f64 x), .addFrames (.f64 y)] = .done e2 ∧
      e1.filter.filterState[1]? ≠ e2.filter.filterState[1]? := by
  obtain ⟨e0, he⟩ := (C01_new_64 Demo.envSoft (Nat.le_refl _) 2 48000 Mode.M).1.2 ⟨⟨by decide, by decide, by decide, by decide⟩, by decide⟩
  have hs : Started Demo.envSoft e0 := .new he
  have hc := Demo.softCoef
  simp only [List.all_cons, List.all_nil, Bool.and_eq_true, Bool.and_true] at hc
  obtain ⟨⟨⟨⟨h1, h2⟩, h3⟩, h4⟩, h5⟩ := hc.2.1
  obtain ⟨rfl, -⟩ := Ebu.new_ok he
  obtain ⟨x, y, -, -, e1, e2, -, r1, r2, hd, -⟩ := C12_differs (m := Demo.series) (bs := Demo.bsearch)
    (t := ⟨false, false, 2 ^ 64 - 1⟩) rfl hs (c := 1) (ch := .right) (by decide) rfl (by decide)
    (Demo.finite_spec h1) (Demo.finite_spec h2) (Demo.finite_spec h3) (Demo.finite_spec h4) h5
  exact ⟨_, hs, rfl, rfl, x, y, e1, e2, r1, r2, hd⟩

/-- Momentary loudness and first feedback value of the filter. -/
def Demo.softReport (ops : List (Op F64 F32)) : Option (Option Nat × List Nat) :=
  (Demo.afterN Demo.envSoft 1 18 Mode.M ops).map fun e =>
    (Demo.bitsOf (ask Demo.envSoft e .loudnessMomentary), e.filter.filterState.map fun st => st.v1.bits)

def Demo.zeros (n : Nat) : List F64 := List.replicate n (Fl.zero false)

/-- The cut shows in the momentary loudness; cuts at 100 ms do not matter; seeding and adding differ. -/
theorem Demo.soft_report :
    let x := small false
    (Demo.softReport [.addFrames (.f64 ([x, x] ++ Demo.zeros 6))]).isSome = true ∧
    (Demo.softReport [.addFrames (.f64 ([x, x] ++ Demo.zeros 6))]).map Prod.fst ≠
      (Demo.softReport [.addFrames (.f64 [x]), .addFrames (.f64 ([x] ++ Demo.zeros 6))]).map Prod.fst ∧
    Demo.softReport [.addFrames (.f64 ([x, x] ++ Demo.zeros 6 ++ [x, x, x]))] =
      Demo.softReport [.addFrames (.f64 ([x, x] ++ Demo.zeros 6)), .addFrames (.f64 [x, x]), .addFrames (.f64 [x])] ∧
    (Demo.softReport [.addFrames (.f64 (Demo.zeros 7 ++ [small true, x]))]).map Prod.snd ≠
      (Demo.softReport [.seedFrames (.f64 (Demo.zeros 7 ++ [small true, x]))]).map Prod.snd ∧
    BlockCuts 2 0 [8, 2, 1] := by
  refine ⟨by decide +kernel, by decide +kernel, by decide +kernel, by decide +kernel, ?_⟩
  simp [BlockCuts]

end Verif
