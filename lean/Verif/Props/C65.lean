import Mathlib.Tactic.Set
import Verif.Model.Heap
import Verif.Props.C48_C49
/-!
# C65: the C interface manages its memory correctly, and analyzers are independent

A C program keeps pointers from `ebur128_init` in variables and passes them to the interface.  Seen through the results
of the calls, every variable then behaves as if it held an analyzer of its own, whatever addresses the allocator hands
out, and no block is freed twice, used after it was freed or forgotten.
-/

namespace Verif
open Spec
variable {D S : Type} {E : Env D S} {alloc : List Nat → Nat}

/-! ## Statement -/

/-- An allocator hands out an address that is neither null nor in use. -/
def Spec.Allocates (alloc : List Nat → Nat) : Prop := ∀ live, alloc live ≠ 0 ∧ alloc live ∉ live

/-- One action where every variable is empty or holds an analyzer of its own: no addresses, no heap. -/
def Spec.valueAct (E : Env D S) (st : Nat → Option (CState D S)) :
    Act D S → Run ((Nat → Option (CState D S)) × Seen D)
  | .init v channels samplerate mode => do
    let s ← cInit E channels.toNat samplerate mode
    Run.done (setVar st v s, .created s.isSome)
  | .destroy v => Run.done (setVar st v none, .nothing)
  | .destroyNull => Run.done (st, .nothing)
  | .call v op =>
    match st v with
    | none => if op.early then Run.done (st, .code 1) else Run.panic
    | some s => do
      let (s, code) ← cstep E s op
      Run.done (setVar st v (some s), .code code)
  | .ask v q out =>
    match st v with
    | none => Run.panic
    | some s => do
      let (x, code) ← cAsk E s out q
      Run.done (st, .value code x)
  | .askWindow v w out =>
    match st v with
    | none => Run.panic
    | some s => do
      let (x, code) ← cLoudnessWindow E s w out
      Run.done (st, .value code x)
  | .multiple range vs out =>
    match vs.mapM st with
    | none => Run.panic
    | some ss => do
      let (x, code) ← if range then cLoudnessRangeMultiple E ss out else cLoudnessGlobalMultiple E ss out
      Run.done (st, .value code x)
  | .copy _ _ => Run.panic

/-- A program where variables hold analyzers. -/
def Spec.valueRun (E : Env D S) :
    (Nat → Option (CState D S)) → List (Act D S) → Run ((Nat → Option (CState D S)) × List (Seen D))
  | st, [] => Run.done (st, [])
  | st, a :: as => do
    let (st, x) ← Spec.valueAct E st a
    let (st, xs) ← Spec.valueRun E st as
    Run.done (st, x :: xs)

/-- The program does not copy pointers between variables. -/
def Spec.Act.Copies : Act D S → Prop
  | .copy _ _ => True
  | _ => False

/-- `v = ebur128_init(...)` while `v` still holds an analyzer: the pointer to it is lost. -/
def Spec.Act.Forgets (st : Nat → Option (CState D S)) : Act D S → Prop
  | .init v _ _ _ => (st v).isSome
  | _ => False

/-- At no point does the program lose a pointer. -/
def Spec.KeepsTrack (E : Env D S) (prog : List (Act D S)) : Prop :=
  ∀ before a after, prog = before ++ a :: after → ∀ st seen, Spec.valueRun E (fun _ => none) before = .done (st, seen) →
    ¬ Spec.Act.Forgets st a

/-! ## The heap -/

namespace Heap
variable {h : Heap D S} {p q : Nat} {b : Block D S}

theorem get_box : ((h.box alloc b).1).get p = if p = alloc h.live then some b else h.get p := rfl

theorem get_free : (h.free q).get p = if p = q then none else h.get p := by
  induction h with
  | nil => simp [free, get]
  | cons x h ih =>
    obtain ⟨r, c⟩ := x
    unfold free at ih ⊢
    rw [List.filter_cons]
    by_cases hr : r = q
    · subst hr
      simp only [ne_eq, not_true_eq_false, decide_false, Bool.false_eq_true, if_false, ih, get]
      split <;> rfl
    · simp only [ne_eq, hr, not_false_eq_true, decide_true, if_true, get, ih]
      by_cases hp : p = r
      · subst hp; simp [hr]
      · simp [hp]

theorem get_write : (h.write q b).get p = if p = q then (h.get p).map fun _ => b else h.get p := by
  induction h with
  | nil => simp [write, get]
  | cons x h ih =>
    obtain ⟨r, c⟩ := x
    unfold write at ih ⊢
    rw [List.map_cons]
    by_cases hr : r = q
    · subst hr
      simp only [if_true, get, ih]
      by_cases hp : p = r <;> simp [hp]
    · simp only [hr, if_false, get, ih]
      by_cases hp : p = r
      · subst hp; simp [hr]
      · simp [hp]

theorem live_write : (h.write q b).live = h.live := by
  unfold live write
  rw [List.map_map]
  refine List.map_congr_left fun x _ => ?_
  simp only [Function.comp_apply]
  split
  · next h => exact h.symm
  · rfl

theorem mem_free : p ∈ (h.free q).live ↔ p ∈ h.live ∧ p ≠ q := by
  unfold live free
  simp only [List.mem_map, List.mem_filter, decide_eq_true_eq]
  constructor
  · rintro ⟨x, ⟨h1, h2⟩, rfl⟩; exact ⟨⟨x, h1, rfl⟩, h2⟩
  · rintro ⟨⟨x, h1, rfl⟩, h2⟩; exact ⟨x, ⟨h1, h2⟩, rfl⟩

theorem get_none : h.get p = none ↔ p ∉ h.live := by
  induction h with
  | nil => simp [get, live]
  | cons x h ih =>
    obtain ⟨r, c⟩ := x
    unfold live at ih ⊢
    rw [List.map_cons, List.mem_cons, get]
    by_cases hp : p = r
    · simp [hp]
    · rw [if_neg hp, ih]; simp only [hp, false_or]

end Heap

/-! ## The correspondence -/

/-- The heap and the variables of the program hold the analyzers `st`; `own v` is where the analyzer of `v` is. -/
structure Linked (h : Heap D S) (vars own : Nat → Nat) (st : Nat → Option (CState D S)) : Prop where
  null : h.get 0 = none
  empty : ∀ v, st v = none → vars v = 0
  state : ∀ v s, st v = some s → h.get (vars v) = some (.state s.mode s.channels s.samplerate (own v))
  analyzer : ∀ v s, st v = some s → h.get (own v) = some (.analyzer s.internal)
  apart : ∀ v w s s', v ≠ w → st v = some s → st w = some s' → vars v ≠ vars w ∧ own v ≠ own w

/-- Every live block belongs to a variable. -/
def Tidy (h : Heap D S) (vars own : Nat → Nat) (st : Nat → Option (CState D S)) : Prop :=
  ∀ p ∈ h.live, ∃ v s, st v = some s ∧ (p = vars v ∨ p = own v)

/-- Both programs stop in the same way, or both carry on. -/
def Together {α β γ : Type} (R : α → β → Prop) (x : Run (α × γ)) (y : Run (β × γ)) : Prop :=
  (∃ a b c, x = .done (a, c) ∧ y = .done (b, c) ∧ R a b) ∨ (x = .panic ∧ y = .panic) ∨ (x = .hang ∧ y = .hang)

section
variable {h : Heap D S} {vars own : Nat → Nat} {st : Nat → Option (CState D S)}

theorem Linked.deref_some (hl : Linked h vars own st) {v : Nat} {s : CState D S} (hs : st v = some s) :
    h.deref (vars v) = .done (own v, s) := by
  unfold Heap.deref
  rw [hl.state v s hs]
  dsimp only
  rw [hl.analyzer v s hs]

theorem Linked.deref_none (hl : Linked h vars own st) {v : Nat} (hs : st v = none) : h.deref (vars v) = .panic := by
  unfold Heap.deref
  rw [hl.empty v hs, hl.null]

theorem Linked.ne_zero (hl : Linked h vars own st) {v : Nat} {s : CState D S} (hs : st v = some s) : vars v ≠ 0 := by
  intro h0
  have := hl.state v s hs
  rw [h0, hl.null] at this
  cases this

theorem early_step {op : COp D S} (h : op.early = true) (s : CState D S) : cstep E s op = .done (s, 1) := by
  cases op <;> simp only [COp.early, Bool.false_eq_true, decide_eq_true_eq] at h
  · simp only [cstep, cSetMaxWindow, h, if_true]; rfl
  · simp only [cstep, cSetMaxHistory, h, if_true]; rfl

theorem Linked.multiple (hl : Linked h vars own st) (vs : List Nat) :
    (Run.forL h.deref (vs.map vars)) = match vs.mapM st with
      | none => .panic
      | some ss => .done ((vs.map own).zip ss) := by
  induction vs with
  | nil => rfl
  | cons v vs ih =>
    rw [List.map_cons, Run.forL, List.mapM_cons]
    cases hs : st v with
    | none => rw [hl.deref_none hs]; rfl
    | some s =>
      rw [hl.deref_some hs, Run.done_bind, ih]
      cases vs.mapM st with
      | none => rfl
      | some ss => rfl

theorem mapM_length {α β : Type} {f : α → Option β} : ∀ {l : List α} {r : List β}, l.mapM f = some r → r.length = l.length := by
  intro l
  induction l with
  | nil => intro r h; cases h; rfl
  | cons a l ih =>
    intro r h
    rw [List.mapM_cons] at h
    cases ha : f a with
    | none => rw [ha] at h; cases h
    | some b =>
      rw [ha] at h
      cases hr : l.mapM f with
      | none => rw [hr] at h; cases h
      | some r' =>
        rw [hr] at h
        cases h
        simp [ih hr]

/-- One action. -/
theorem Linked.act (ha : Allocates alloc) (hl : Linked h vars own st) {a : Act D S} (hc : ¬ Spec.Act.Copies a) :
    Together (fun hv st' => ∃ own', Linked hv.1 hv.2 own' st' ∧
        (Tidy h vars own st → ¬ Spec.Act.Forgets st a → Tidy hv.1 hv.2 own' st'))
      (heapAct E alloc (h, vars) a) (valueAct E st a) := by
  cases a with
  | copy v w => exact absurd trivial hc
  | destroyNull => exact Or.inl ⟨_, _, _, rfl, rfl, own, hl, fun h _ => h⟩
  | ask v q out =>
    simp only [heapAct, valueAct, heapAsk, Run.bind_eq]
    cases hs : st v with
    | none => rw [hl.deref_none hs]; exact Or.inr (Or.inl ⟨rfl, rfl⟩)
    | some s =>
      rw [hl.deref_some hs]
      simp only [Run.done_bind]
      cases cAsk E s out q with
      | done r => exact Or.inl ⟨_, _, _, rfl, rfl, own, hl, fun h _ => h⟩
      | panic => exact Or.inr (Or.inl ⟨rfl, rfl⟩)
      | hang => exact Or.inr (Or.inr ⟨rfl, rfl⟩)
  | askWindow v w out =>
    simp only [heapAct, valueAct, heapAskWindow, Run.bind_eq]
    cases hs : st v with
    | none => rw [hl.deref_none hs]; exact Or.inr (Or.inl ⟨rfl, rfl⟩)
    | some s =>
      rw [hl.deref_some hs]
      simp only [Run.done_bind]
      cases cLoudnessWindow E s w out with
      | done r => exact Or.inl ⟨_, _, _, rfl, rfl, own, hl, fun h _ => h⟩
      | panic => exact Or.inr (Or.inl ⟨rfl, rfl⟩)
      | hang => exact Or.inr (Or.inr ⟨rfl, rfl⟩)
  | multiple range vs out =>
    simp only [heapAct, valueAct, heapMultiple, Run.bind_eq, hl.multiple vs]
    cases hs : vs.mapM st with
    | none => exact Or.inr (Or.inl ⟨rfl, rfl⟩)
    | some ss =>
      have hz : ((vs.map own).zip ss).map Prod.snd = ss := by
        rw [List.map_snd_zip]
        simp [mapM_length hs]
      simp only [Run.done_bind, hz]
      cases range with
      | true =>
        simp only [if_true]
        cases cLoudnessRangeMultiple E ss out with
        | done r => exact Or.inl ⟨_, _, _, rfl, rfl, own, hl, fun h _ => h⟩
        | panic => exact Or.inr (Or.inl ⟨rfl, rfl⟩)
        | hang => exact Or.inr (Or.inr ⟨rfl, rfl⟩)
      | false =>
        simp only [Bool.false_eq_true, if_false]
        cases cLoudnessGlobalMultiple E ss out with
        | done r => exact Or.inl ⟨_, _, _, rfl, rfl, own, hl, fun h _ => h⟩
        | panic => exact Or.inr (Or.inl ⟨rfl, rfl⟩)
        | hang => exact Or.inr (Or.inr ⟨rfl, rfl⟩)
  | init v channels samplerate mode =>
    simp only [heapAct, valueAct, heapInit, Run.bind_eq]
    cases cInit E channels.toNat samplerate mode with
    | panic => exact Or.inr (Or.inl ⟨rfl, rfl⟩)
    | hang => exact Or.inr (Or.inr ⟨rfl, rfl⟩)
    | done o =>
      cases o with
      | none =>
        refine Or.inl ⟨(h, setVar vars v 0), setVar st v none, .created false, rfl, rfl, own,
          ⟨hl.null, ?_, ?_, ?_, ?_⟩, ?_⟩
        · intro w hw
          simp only [setVar] at hw ⊢
          split
          · rfl
          · next hv => rw [if_neg hv] at hw; exact hl.empty w hw
        · intro w s hw
          simp only [setVar] at hw ⊢
          split at hw
          · cases hw
          · next hv => rw [if_neg hv]; exact hl.state w s hw
        · intro w s hw
          simp only [setVar] at hw
          split at hw
          · cases hw
          · exact hl.analyzer w s hw
        · intro w w' s s' hne hw hw'
          simp only [setVar] at hw hw' ⊢
          split at hw
          · cases hw
          · split at hw'
            · cases hw'
            · next h1 h2 => rw [if_neg h1, if_neg h2]; exact hl.apart w w' s s' hne hw hw'
        · intro ht hf p hp
          obtain ⟨w, s, h1, h2⟩ := ht p hp
          have hwv : w ≠ v := by
            rintro rfl
            exact hf (by simp only [Spec.Act.Forgets, h1]; rfl)
          exact ⟨w, s, by simp only [setVar, if_neg hwv, h1], by simpa only [setVar, if_neg hwv] using h2⟩
      | some s =>
        have hq := ha h.live
        have hp := ha (h.box alloc (.analyzer s.internal)).1.live
        set q := alloc h.live with hqd
        set p := alloc (h.box alloc (.analyzer s.internal)).1.live with hpd
        have hpq : p ≠ q := by
          intro hpq
          apply hp.2
          rw [hpq]
          exact List.mem_cons_self
        have hph : p ∉ h.live := fun hm => hp.2 (List.mem_cons_of_mem _ hm)
        have hqn := Heap.get_none.2 hq.2
        have hpn := Heap.get_none.2 hph
        have hget : ∀ r, Heap.get ((p, Block.state s.mode s.channels s.samplerate q) :: (q, .analyzer s.internal) :: h) r =
            if r = p then some (.state s.mode s.channels s.samplerate q) else if r = q then some (.analyzer s.internal)
              else h.get r := fun r => rfl
        have hkeep : ∀ r b, h.get r = some b → r ≠ p ∧ r ≠ q := by
          intro r b hr
          constructor
          · rintro rfl; rw [hpn] at hr; cases hr
          · rintro rfl; rw [hqn] at hr; cases hr
        refine Or.inl ⟨((p, Block.state s.mode s.channels s.samplerate q) :: (q, .analyzer s.internal) :: h, setVar vars v p),
          setVar st v (some s), .created true, ?_, rfl, setVar own v q, ⟨?_, ?_, ?_, ?_, ?_⟩, ?_⟩
        · simp only [Run.done_bind, ← hqd, Heap.box]
          have : (decide (p ≠ 0)) = true := by simpa using hp.1
          have hpd' : alloc (Heap.live ((q, Block.analyzer s.internal) :: h)) = p := rfl
          rw [hpd', this]
        · rw [hget, if_neg hp.1.symm, if_neg hq.1.symm, hl.null]
        · intro w hw
          simp only [setVar] at hw ⊢
          split at hw
          · cases hw
          · next hv => rw [if_neg hv]; exact hl.empty w hw
        · intro w s' hw
          simp only [setVar] at hw ⊢
          rw [hget]
          by_cases hv : w = v
          · rw [if_pos hv] at hw
            cases hw
            simp only [if_pos hv, if_true]
          · rw [if_neg hv] at hw
            have := hl.state w s' hw
            obtain ⟨k1, k2⟩ := hkeep _ _ this
            simp only [if_neg hv, if_neg k1, if_neg k2, this]
        · intro w s' hw
          simp only [setVar] at hw ⊢
          rw [hget]
          by_cases hv : w = v
          · rw [if_pos hv] at hw
            cases hw
            simp only [if_pos hv, if_neg hpq.symm, if_true]
          · rw [if_neg hv] at hw
            have := hl.analyzer w s' hw
            obtain ⟨k1, k2⟩ := hkeep _ _ this
            simp only [if_neg hv, if_neg k1, if_neg k2, this]
        · intro w w' s1 s2 hne hw hw'
          simp only [setVar] at hw hw' ⊢
          by_cases hv : w = v
          · have hv' : w' ≠ v := fun h => hne (hv.trans h.symm)
            rw [if_neg hv'] at hw'
            obtain ⟨k1, -⟩ := hkeep _ _ (hl.state w' s2 hw')
            obtain ⟨-, k2⟩ := hkeep _ _ (hl.analyzer w' s2 hw')
            simp only [if_pos hv, if_neg hv']
            exact ⟨k1.symm, k2.symm⟩
          · rw [if_neg hv] at hw
            by_cases hv' : w' = v
            · obtain ⟨k1, -⟩ := hkeep _ _ (hl.state w s1 hw)
              obtain ⟨-, k2⟩ := hkeep _ _ (hl.analyzer w s1 hw)
              simp only [if_neg hv, if_pos hv']
              exact ⟨k1, k2⟩
            · rw [if_neg hv'] at hw'
              simp only [if_neg hv, if_neg hv']
              exact hl.apart w w' s1 s2 hne hw hw'
        · intro ht hf r hr
          simp only [Heap.live, List.map_cons, List.mem_cons] at hr
          rcases hr with rfl | rfl | hr
          · exact ⟨v, s, by simp [setVar], Or.inl (by simp [setVar])⟩
          · exact ⟨v, s, by simp [setVar], Or.inr (by simp [setVar])⟩
          · obtain ⟨w, s', h1, h2⟩ := ht r hr
            have hwv : w ≠ v := by
              rintro rfl
              exact hf (by simp only [Spec.Act.Forgets, h1]; rfl)
            exact ⟨w, s', by simp only [setVar, if_neg hwv, h1], by simpa only [setVar, if_neg hwv] using h2⟩
  | destroy v =>
    simp only [heapAct, valueAct, heapDestroy, Run.bind_eq]
    cases hs : st v with
    | none =>
      have hv := hl.empty v hs
      refine Or.inl ⟨(h, vars), st, .nothing, ?_, ?_, own, hl, fun h _ => h⟩
      · simp only [hv, if_true, Run.done_bind, Option.getD_some]
        congr 3
        funext w
        simp only [setVar]
        split
        · next hw => rw [hw, hv]
        · rfl
      · congr 2
        funext w
        simp only [setVar]
        split
        · next hw => rw [hw, hs]
        · rfl
    | some s =>
      have hst := hl.state v s hs
      have han := hl.analyzer v s hs
      have hne : vars v ≠ own v := by
        intro h'
        rw [h', han] at hst
        cases hst
      have hget : ∀ r, Heap.get ((h.free (own v)).free (vars v)) r = if r = vars v then none else if r = own v then none
          else h.get r := fun r => by rw [Heap.get_free, Heap.get_free]
      refine Or.inl ⟨((h.free (own v)).free (vars v), setVar vars v 0), setVar st v none, .nothing, ?_, rfl, own,
        ⟨?_, ?_, ?_, ?_, ?_⟩, ?_⟩
      · simp only [if_neg (hl.ne_zero hs), hst, han, Run.done_bind, Option.getD_some]
      · rw [hget]
        split
        · rfl
        · split
          · rfl
          · exact hl.null
      · intro w hw
        simp only [setVar] at hw ⊢
        split
        · rfl
        · next hv => rw [if_neg hv] at hw; exact hl.empty w hw
      · intro w s' hw
        simp only [setVar] at hw ⊢
        split at hw
        · cases hw
        · next hv =>
          rw [if_neg hv, hget, if_neg (hl.apart w v s' s hv hw hs).1, if_neg, hl.state w s' hw]
          intro h'
          have := hl.state w s' hw
          rw [h', han] at this
          cases this
      · intro w s' hw
        simp only [setVar] at hw
        split at hw
        · cases hw
        · next hv =>
          rw [hget, if_neg, if_neg (hl.apart w v s' s hv hw hs).2, hl.analyzer w s' hw]
          intro h'
          have := hl.analyzer w s' hw
          rw [h', hst] at this
          cases this
      · intro w w' s1 s2 hne' hw hw'
        simp only [setVar] at hw hw' ⊢
        split at hw
        · cases hw
        · split at hw'
          · cases hw'
          · next h1 h2 => rw [if_neg h1, if_neg h2]; exact hl.apart w w' s1 s2 hne' hw hw'
      · intro ht _ r hr
        rw [Heap.mem_free, Heap.mem_free] at hr
        obtain ⟨w, s', h1, h2⟩ := ht r hr.1.1
        have hwv : w ≠ v := by
          rintro rfl
          rcases h2 with h2 | h2
          · exact hr.2 h2
          · exact hr.1.2 h2
        exact ⟨w, s', by simp only [setVar, if_neg hwv, h1], by simpa only [setVar, if_neg hwv] using h2⟩
  | call v op =>
    simp only [heapAct, valueAct, heapCall, Run.bind_eq]
    by_cases he : op.early = true
    · cases hs : st v with
      | none =>
        simp only [he, if_true, Run.done_bind]
        exact Or.inl ⟨_, _, _, rfl, rfl, own, hl, fun h _ => h⟩
      | some s =>
        simp only [he, if_true, Run.done_bind, early_step he s]
        refine Or.inl ⟨(h, vars), st, .code 1, rfl, ?_, own, hl, fun h _ => h⟩
        congr 2
        funext w
        simp only [setVar]
        split
        · next hw => rw [hw, hs]
        · rfl
    · cases hs : st v with
      | none =>
        simp only [he, hl.deref_none hs]
        exact Or.inr (Or.inl ⟨rfl, rfl⟩)
      | some s =>
        simp only [he, hl.deref_some hs, Run.done_bind]
        cases cstep E s op with
        | panic => exact Or.inr (Or.inl ⟨rfl, rfl⟩)
        | hang => exact Or.inr (Or.inr ⟨rfl, rfl⟩)
        | done r =>
          obtain ⟨s', code⟩ := r
          have hst := hl.state v s hs
          have han := hl.analyzer v s hs
          have hne : vars v ≠ own v := by
            intro h'
            rw [h', han] at hst
            cases hst
          have hget : ∀ r, Heap.get ((h.write (vars v) (.state s'.mode s'.channels s'.samplerate (own v))).write (own v)
              (.analyzer s'.internal)) r = if r = vars v then some (.state s'.mode s'.channels s'.samplerate (own v))
              else if r = own v then some (.analyzer s'.internal) else h.get r := by
            intro r
            rw [Heap.get_write, Heap.get_write]
            by_cases h1 : r = vars v
            · subst h1
              rw [if_neg hne, if_pos rfl, if_pos rfl, hst]
              rfl
            · rw [if_neg h1, if_neg h1]
              by_cases h2 : r = own v
              · subst h2
                rw [if_pos rfl, if_pos rfl, han]
                rfl
              · rw [if_neg h2, if_neg h2]
          refine Or.inl ⟨(_, vars), setVar st v (some s'), .code code, rfl, rfl, own, ⟨?_, ?_, ?_, ?_, ?_⟩, ?_⟩
          · rw [hget, if_neg (hl.ne_zero hs).symm, if_neg, hl.null]
            intro h0
            rw [← h0, hl.null] at han
            cases han
          · intro w hw
            simp only [setVar] at hw
            split at hw
            · cases hw
            · exact hl.empty w hw
          · intro w s1 hw
            simp only [setVar] at hw
            rw [hget]
            split at hw
            · next hv => cases hw; rw [hv, if_pos rfl]
            · next hv =>
              rw [if_neg (hl.apart w v s1 s hv hw hs).1, if_neg, hl.state w s1 hw]
              intro h'
              have := hl.state w s1 hw
              dsimp only at h'
              rw [h', han] at this
              cases this
          · intro w s1 hw
            simp only [setVar] at hw
            rw [hget]
            split at hw
            · next hv => cases hw; rw [hv, if_neg hne.symm, if_pos rfl]
            · next hv =>
              rw [if_neg, if_neg (hl.apart w v s1 s hv hw hs).2, hl.analyzer w s1 hw]
              intro h'
              have := hl.analyzer w s1 hw
              rw [h', hst] at this
              cases this
          · intro w w' s1 s2 hne' hw hw'
            have some_of : ∀ {x s1}, setVar st v (some s') x = some s1 → ∃ s2, st x = some s2 := by
              intro x s1 hx
              simp only [setVar] at hx
              split at hx
              · next hv => exact ⟨s, hv ▸ hs⟩
              · exact ⟨_, hx⟩
            obtain ⟨t1, k1⟩ := some_of hw
            obtain ⟨t2, k2⟩ := some_of hw'
            exact hl.apart w w' t1 t2 hne' k1 k2
          · intro ht _ r hr
            rw [Heap.live_write, Heap.live_write] at hr
            obtain ⟨w, s1, h1, h2⟩ := ht r hr
            by_cases hv : w = v
            · exact ⟨w, s', by simp only [setVar, if_pos hv], h2⟩
            · exact ⟨w, s1, by simp only [setVar, if_neg hv, h1], h2⟩

end

/-! ## Programs -/

theorem linked_start : Linked ([] : Heap D S) (fun _ => 0) (fun _ => 0) (fun _ => none) :=
  ⟨rfl, fun _ _ => rfl, fun _ _ h => by simp at h, fun _ _ h => by simp at h, fun _ _ _ _ _ h => by simp at h⟩

theorem Linked.run (ha : Allocates alloc) (prog : List (Act D S)) : ∀ {h : Heap D S} {vars own : Nat → Nat}
    {st : Nat → Option (CState D S)}, Linked h vars own st → (∀ a ∈ prog, ¬ Spec.Act.Copies a) →
    Together (fun hv st' => ∃ own', Linked hv.1 hv.2 own' st' ∧
        (Tidy h vars own st → (∀ before a after, prog = before ++ a :: after → ∀ st' seen,
          Spec.valueRun E st before = .done (st', seen) → ¬ Spec.Act.Forgets st' a) → Tidy hv.1 hv.2 own' st'))
      (heapRun E alloc (h, vars) prog) (valueRun E st prog) := by
  induction prog with
  | nil =>
    intro h vars own st hl _
    exact Or.inl ⟨_, _, _, rfl, rfl, own, hl, fun h _ => h⟩
  | cons a prog ih =>
    intro h vars own st hl hc
    rw [List.forall_mem_cons] at hc
    rcases hl.act (E := E) ha hc.1 with ⟨⟨h1, vars1⟩, st1, x, e1, e2, own1, hl1, ht1⟩ | ⟨e1, e2⟩ | ⟨e1, e2⟩
    · rcases ih hl1 hc.2 with ⟨⟨h2, vars2⟩, st2, xs, f1, f2, own2, hl2, ht2⟩ | ⟨f1, f2⟩ | ⟨f1, f2⟩
      · refine Or.inl ⟨(h2, vars2), st2, x :: xs, ?_, ?_, own2, hl2, ?_⟩
        · simp only [heapRun, Run.bind_eq, e1, Run.done_bind, f1]
        · simp only [valueRun, Run.bind_eq, e2, Run.done_bind, f2]
        · intro ht hf
          refine ht2 (ht1 ht (hf [] a prog rfl st [] rfl)) fun before b after hp st' seen hs => ?_
          refine hf (a :: before) b after (by rw [hp]; rfl) st' (x :: seen) ?_
          simp only [valueRun, Run.bind_eq, e2, Run.done_bind, hs]
      · refine Or.inr (Or.inl ⟨?_, ?_⟩)
        · simp only [heapRun, Run.bind_eq, e1, Run.done_bind, f1]; rfl
        · simp only [valueRun, Run.bind_eq, e2, Run.done_bind, f2]; rfl
      · refine Or.inr (Or.inr ⟨?_, ?_⟩)
        · simp only [heapRun, Run.bind_eq, e1, Run.done_bind, f1]; rfl
        · simp only [valueRun, Run.bind_eq, e2, Run.done_bind, f2]; rfl
    · refine Or.inr (Or.inl ⟨?_, ?_⟩)
      · simp only [heapRun, Run.bind_eq, e1]; rfl
      · simp only [valueRun, Run.bind_eq, e2]; rfl
    · refine Or.inr (Or.inr ⟨?_, ?_⟩)
      · simp only [heapRun, Run.bind_eq, e1]; rfl
      · simp only [valueRun, Run.bind_eq, e2]; rfl

/-- **C65, values.** What a program sees does not depend on the allocator and is what it would see if every variable held
an analyzer of its own; it runs into undefined behaviour only where that program faults, in particular never because of
a block that was freed or belongs to another variable. -/
theorem C65_values (ha : Allocates alloc) {prog : List (Act D S)} (hc : ∀ a ∈ prog, ¬ Spec.Act.Copies a) :
    Run.bind (heapRun E alloc ([], fun _ => 0) prog) (fun r => .done r.2) =
      Run.bind (valueRun E (fun _ => none) prog) (fun r => .done r.2) := by
  rcases Linked.run (E := E) ha prog linked_start hc with ⟨_, _, _, e1, e2, -⟩ | ⟨e1, e2⟩ | ⟨e1, e2⟩ <;> rw [e1, e2] <;> rfl

/-- **C65, leaks.** If the program never overwrites a variable that holds an analyzer, then at the end, and so at every
point, every live block belongs to a variable that is not null; when all are destroyed the heap is empty. -/
theorem C65_leaks (ha : Allocates alloc) {prog : List (Act D S)} (hc : ∀ a ∈ prog, ¬ Spec.Act.Copies a)
    (hk : KeepsTrack E prog) {h : Heap D S} {vars : Nat → Nat} {seen : List (Seen D)}
    (hr : heapRun E alloc ([], fun _ => 0) prog = .done ((h, vars), seen)) :
    (∀ p ∈ h.live, ∃ v q mode channels samplerate e, vars v ≠ 0 ∧ h.get (vars v) = some (.state mode channels samplerate q) ∧
      h.get q = some (.analyzer e) ∧ (p = vars v ∨ p = q)) ∧
    ((∀ v, vars v = 0) → h = []) := by
  have key : ∀ p ∈ h.live, ∃ v q mode channels samplerate e, vars v ≠ 0 ∧
      h.get (vars v) = some (.state mode channels samplerate q) ∧ h.get q = some (.analyzer e) ∧ (p = vars v ∨ p = q) := by
    intro p hp
    rcases Linked.run (E := E) ha prog linked_start hc with ⟨hv, st, xs, e1, -, own, hl, ht⟩ | ⟨e1, -⟩ | ⟨e1, -⟩
    · rw [hr] at e1
      cases e1
      obtain ⟨v, s, h1, h2⟩ := ht (fun p hp => by cases hp) hk p hp
      exact ⟨v, own v, _, _, _, _, hl.ne_zero h1, hl.state v s h1, hl.analyzer v s h1, h2⟩
    · rw [hr] at e1; cases e1
    · rw [hr] at e1; cases e1
  refine ⟨key, fun h0 => ?_⟩
  cases h with
  | nil => rfl
  | cons x h =>
    obtain ⟨v, -, -, -, -, -, h1, -⟩ := key x.1 List.mem_cons_self
    exact absurd (h0 v) h1

/-! ## Independence -/

/-- The action is about this variable and no other. -/
def Spec.Act.About (v : Nat) : Act D S → Prop
  | .init w _ _ _ | .destroy w | .call w _ | .ask w _ _ | .askWindow w _ _ => w = v
  | .destroyNull | .multiple _ _ _ | .copy _ _ => False

instance (v : Nat) (a : Act D S) : Decidable (Spec.Act.About v a) := by
  cases a <;> unfold Spec.Act.About <;> infer_instance

/-- What a program sees of its actions about one variable. -/
def Spec.seenOf (v : Nat) : List (Act D S) → List (Seen D) → List (Seen D)
  | a :: as, x :: xs => if Spec.Act.About v a then x :: Spec.seenOf v as xs else Spec.seenOf v as xs
  | _, _ => []

theorem act_about {v : Nat} {a : Act D S} (h : Spec.Act.About v a) {st st' : Nat → Option (CState D S)}
    {o : Option (CState D S)} {x : Seen D} (ho : st v = o) (hr : valueAct E st a = .done (st', x)) :
    ∀ {st1 : Nat → Option (CState D S)}, st1 v = o → ∃ st1', valueAct E st1 a = .done (st1', x) ∧ st1' v = st' v := by
  intro st1 h1
  cases a with
  | init w c r m =>
    obtain rfl : w = v := h
    simp only [valueAct, Run.bind_eq] at hr ⊢
    cases hi : cInit E c.toNat r m with
    | done s =>
      rw [hi] at hr
      cases hr
      exact ⟨_, rfl, by simp [setVar]⟩
    | panic => rw [hi] at hr; cases hr
    | hang => rw [hi] at hr; cases hr
  | destroy w =>
    obtain rfl : w = v := h
    cases hr
    exact ⟨_, rfl, by simp [setVar]⟩
  | call w op =>
    obtain rfl : w = v := h
    simp only [valueAct, Run.bind_eq, h1, ho] at hr ⊢
    cases o with
    | none =>
      dsimp only at hr ⊢
      split at hr
      · next he =>
        cases hr
        exact ⟨st1, by simp only [he, if_true], by rw [h1, ho]⟩
      · cases hr
    | some s =>
      dsimp only at hr ⊢
      cases hi : cstep E s op with
      | done r =>
        rw [hi] at hr
        cases hr
        exact ⟨_, rfl, by simp [setVar]⟩
      | panic => rw [hi] at hr; cases hr
      | hang => rw [hi] at hr; cases hr
  | ask w q out =>
    obtain rfl : w = v := h
    simp only [valueAct, Run.bind_eq, h1, ho] at hr ⊢
    cases o with
    | none => cases hr
    | some s =>
      dsimp only at hr ⊢
      cases hi : cAsk E s out q with
      | done r =>
        rw [hi] at hr
        cases hr
        exact ⟨_, rfl, by rw [h1, ho]⟩
      | panic => rw [hi] at hr; cases hr
      | hang => rw [hi] at hr; cases hr
  | askWindow w q out =>
    obtain rfl : w = v := h
    simp only [valueAct, Run.bind_eq, h1, ho] at hr ⊢
    cases o with
    | none => cases hr
    | some s =>
      dsimp only at hr ⊢
      cases hi : cLoudnessWindow E s q out with
      | done r =>
        rw [hi] at hr
        cases hr
        exact ⟨_, rfl, by rw [h1, ho]⟩
      | panic => rw [hi] at hr; cases hr
      | hang => rw [hi] at hr; cases hr
  | destroyNull => exact absurd h id
  | multiple range vs out => exact absurd h id
  | copy v w => exact absurd h id

theorem act_other {v : Nat} {a : Act D S} (h : ¬ Spec.Act.About v a) {st st' : Nat → Option (CState D S)} {x : Seen D}
    (hr : valueAct E st a = .done (st', x)) : st' v = st v := by
  have set : ∀ {w : Nat} (o : Option (CState D S)), ¬ w = v → setVar st w o v = st v := by
    intro w o hw
    simp only [setVar, if_neg (fun e : v = w => hw e.symm)]
  cases a with
  | init w c r m =>
    simp only [valueAct, Run.bind_eq] at hr
    obtain ⟨s, -, hr⟩ := Run.bind_done hr
    cases hr
    exact set _ h
  | destroy w => cases hr; exact set _ h
  | call w op =>
    simp only [valueAct, Run.bind_eq] at hr
    split at hr
    · split at hr
      · cases hr; rfl
      · cases hr
    · obtain ⟨s, -, hr⟩ := Run.bind_done hr
      cases hr
      exact set _ h
  | ask w q out =>
    simp only [valueAct, Run.bind_eq] at hr
    split at hr
    · cases hr
    · obtain ⟨s, -, hr⟩ := Run.bind_done hr
      cases hr
      rfl
  | askWindow w q out =>
    simp only [valueAct, Run.bind_eq] at hr
    split at hr
    · cases hr
    · obtain ⟨s, -, hr⟩ := Run.bind_done hr
      cases hr
      rfl
  | destroyNull => cases hr; rfl
  | multiple range vs out =>
    simp only [valueAct, Run.bind_eq] at hr
    split at hr
    · cases hr
    · split at hr
      · obtain ⟨s, -, hr⟩ := Run.bind_done hr
        cases hr
        rfl
      · obtain ⟨s, -, hr⟩ := Run.bind_done hr
        cases hr
        rfl
  | copy v w => cases hr

theorem run_about {v : Nat} (prog : List (Act D S)) : ∀ {st st1 st' : Nat → Option (CState D S)} {xs : List (Seen D)},
    st1 v = st v → valueRun E st prog = .done (st', xs) →
    ∃ st1', valueRun E st1 (prog.filter fun a => Spec.Act.About v a) = .done (st1', Spec.seenOf v prog xs) := by
  induction prog with
  | nil => intro st st1 st' xs _ hr; cases hr; exact ⟨_, rfl⟩
  | cons a prog ih =>
    intro st st1 st' xs h1 hr
    simp only [valueRun, Run.bind_eq] at hr
    obtain ⟨⟨st2, x⟩, e1, hr⟩ := Run.bind_done hr
    obtain ⟨⟨st3, ys⟩, e2, hr⟩ := Run.bind_done hr
    cases hr
    rw [List.filter_cons]
    by_cases ha : Spec.Act.About v a
    · obtain ⟨st4, f1, f2⟩ := act_about ha rfl e1 h1
      obtain ⟨st5, g⟩ := ih f2 e2
      refine ⟨st5, ?_⟩
      simp only [ha, decide_true, if_true, valueRun, Run.bind_eq, f1, Run.done_bind, g, Spec.seenOf]
    · obtain ⟨st5, g⟩ := ih (h1.trans (act_other ha e1).symm) e2
      refine ⟨st5, ?_⟩
      simp only [ha, decide_false, Bool.false_eq_true, if_false, Spec.seenOf, g]

/-- **C65, independence.** What a program sees of one variable is what it would see if it left out everything about the
others: analyzers do not influence each other. -/
theorem C65_independent (ha : Allocates alloc) {prog : List (Act D S)} (hc : ∀ a ∈ prog, ¬ Spec.Act.Copies a)
    {hv : Heap D S × (Nat → Nat)} {seen : List (Seen D)} (hr : heapRun E alloc ([], fun _ => 0) prog = .done (hv, seen))
    (v : Nat) : ∃ hv', heapRun E alloc ([], fun _ => 0) (prog.filter fun a => Spec.Act.About v a) =
      .done (hv', Spec.seenOf v prog seen) := by
  rcases Linked.run (E := E) ha prog linked_start hc with ⟨_, st, xs, e1, e2, -⟩ | ⟨e1, -⟩ | ⟨e1, -⟩
  · rw [hr] at e1
    cases e1
    obtain ⟨st1, f⟩ := run_about (v := v) (st1 := fun _ => none) prog rfl e2
    have hc' : ∀ a ∈ prog.filter (fun a => Spec.Act.About v a), ¬ Spec.Act.Copies a := fun a h => hc a (List.mem_filter.1 h).1
    rcases Linked.run (E := E) ha _ linked_start hc' with ⟨hv', st', ys, g1, g2, -⟩ | ⟨-, g2⟩ | ⟨-, g2⟩
    · rw [f] at g2
      cases g2
      exact ⟨hv', g1⟩
    · rw [f] at g2; cases g2
    · rw [f] at g2; cases g2
  · rw [hr] at e1; cases e1
  · rw [hr] at e1; cases e1

/-! ## What goes wrong with copies -/

/-- **C65, dangling pointers.** After `w = v; ebur128_destroy(&v)` the variable `w` dangles: destroying it is a double free,
every query and every call that looks at the state a use after free. So the restriction to programs that do not copy
pointers cannot be dropped. -/
theorem C65_dangling (ha : Allocates alloc) {prog : List (Act D S)} (hc : ∀ a ∈ prog, ¬ Spec.Act.Copies a)
    {h : Heap D S} {vars : Nat → Nat} {seen : List (Seen D)}
    (hr : heapRun E alloc ([], fun _ => 0) prog = .done ((h, vars), seen)) {v w : Nat} (hv : vars v ≠ 0) (hw : w ≠ v)
    {last : Act D S} (hlast : last = .destroy w ∨ (∃ op, op.early = false ∧ last = .call w op) ∨
      (∃ q out, last = .ask w q out) ∨ ∃ n out, last = .askWindow w n out) :
    heapRun E alloc (h, vars) [.copy w v, .destroy v, last] = .panic := by
  rcases Linked.run (E := E) ha prog linked_start hc with ⟨_, st, xs, e1, -, own, hl, -⟩ | ⟨e1, -⟩ | ⟨e1, -⟩
  · rw [hr] at e1
    cases e1
    dsimp only at hl
    obtain ⟨s, hs⟩ : ∃ s, st v = some s := by
      cases hs : st v with
      | none => exact absurd (hl.empty v hs) hv
      | some s => exact ⟨s, rfl⟩
    have hst := hl.state v s hs
    have han := hl.analyzer v s hs
    have hwv : ¬ v = w := fun h => hw h.symm
    have hg : Heap.get ((h.free (own v)).free (vars v)) (vars v) = none := by rw [Heap.get_free, if_pos rfl]
    have hd : Heap.deref ((h.free (own v)).free (vars v)) (vars v) = .panic := by
      unfold Heap.deref
      rw [hg]
    have first : heapAct E alloc (h, setVar vars w (vars v)) (.destroy v) =
        .done (((h.free (own v)).free (vars v), setVar (setVar vars w (vars v)) v 0), .nothing) := by
      simp only [heapAct, heapDestroy, setVar, if_neg hwv, if_neg hv, hst, han, Run.bind_eq, Run.done_bind,
        Option.getD_some]
    have hval : setVar (setVar vars w (vars v)) v 0 w = vars v := by simp [setVar, hw]
    have second : heapAct E alloc ((h.free (own v)).free (vars v), setVar (setVar vars w (vars v)) v 0) last = .panic := by
      rcases hlast with rfl | ⟨op, ho, rfl⟩ | ⟨q, out, rfl⟩ | ⟨n, out, rfl⟩
      · simp only [heapAct, heapDestroy, hval, if_neg hv, hg, Run.bind_eq]; rfl
      · simp only [heapAct, heapCall, hval, ho, Bool.false_eq_true, if_false, hd, Run.bind_eq]; rfl
      · simp only [heapAct, heapAsk, hval, hd, Run.bind_eq]; rfl
      · simp only [heapAct, heapAskWindow, hval, hd, Run.bind_eq]; rfl
    have zero : heapAct E alloc (h, vars) (.copy w v) = .done ((h, setVar vars w (vars v)), .nothing) := rfl
    simp only [heapRun, Run.bind_eq, zero, Run.done_bind, first, second]
    rfl
  · rw [hr] at e1; cases e1
  · rw [hr] at e1; cases e1

/-- **C65, null.** After a failed `ebur128_init`, or `ebur128_destroy`, the variable is null: destroying it does nothing, and
everything that looks at the state faults. -/
theorem C65_null {h : Heap D S} {vars : Nat → Nat} (h0 : h.get 0 = none) {v : Nat} (hv : vars v = 0) :
    heapAct E alloc (h, vars) (.destroy v) = .done ((h, vars), .nothing) ∧
    (∀ op, op.early = false → heapAct E alloc (h, vars) (.call v op) = .panic) ∧
    (∀ q out, heapAct E alloc (h, vars) (.ask v q out) = .panic) := by
  have hd : h.deref 0 = .panic := by
    unfold Heap.deref
    rw [h0]
  refine ⟨?_, fun op ho => ?_, fun q out => ?_⟩
  · simp only [heapAct, heapDestroy, hv, if_true, Run.bind_eq, Run.done_bind, Option.getD_some]
    congr 3
    funext w
    simp only [setVar]
    split
    · next hw => rw [hw, hv]
    · rfl
  · simp only [heapAct, heapCall, hv, ho, Bool.false_eq_true, if_false, hd, Run.bind_eq]; rfl
  · simp only [heapAct, heapAsk, hv, hd, Run.bind_eq]; rfl

/-! ## Examples -/

/-- An allocator that hands out the smallest free address, so freed ones again. -/
def Demo.lowest (live : List Nat) : Nat :=
  ((List.range (live.foldl max 0)).map (· + 1)).find? (fun p => p ∉ live) |>.getD (live.foldl max 0 + 1)

theorem Demo.le_foldl_max (l : List Nat) : ∀ (a : Nat), a ≤ l.foldl max a ∧ ∀ x ∈ l, x ≤ l.foldl max a := by
  induction l with
  | nil => intro a; simp
  | cons y l ih =>
    intro a
    obtain ⟨h1, h2⟩ := ih (max a y)
    rw [List.foldl_cons]
    refine ⟨by omega, fun x hx => ?_⟩
    rcases List.mem_cons.1 hx with rfl | hx
    · omega
    · exact h2 x hx

example : Allocates Demo.lowest := by
  intro live
  unfold Demo.lowest
  cases h : ((List.range (live.foldl max 0)).map (· + 1)).find? (fun p => decide (p ∉ live)) with
  | none =>
    refine ⟨by simp, fun hm => ?_⟩
    have := (Demo.le_foldl_max live 0).2 _ hm
    simp at this
    omega
  | some p =>
    have h1 := List.find?_some h
    have h2 := List.mem_of_find?_eq_some h
    simp only [List.mem_map] at h2
    obtain ⟨x, -, rfl⟩ := h2
    exact ⟨by simp, by simpa using h1⟩

/-- Another one: an address above all that are in use. -/
example : Allocates fun live => live.foldl max 0 + 1 := by
  intro live
  refine ⟨by simp, fun hm => ?_⟩
  have := (Demo.le_foldl_max live 0).2 _ hm
  simp at this
  omega

/-- What is seen, with the value reduced to whether it is a number of positive sign. -/
def Demo.outline : Seen F64 → Nat × Nat
  | .nothing => (0, 0)
  | .created ok => (1, ok.toNat)
  | .code n => (2, n)
  | .value n x => (3, 2 * n + (Fl.lt (Fl.zero false) x).toNat)

def Demo.outlines (prog : List (Act F64 F32)) : Option (List (Nat × Nat) × List Nat) :=
  match heapRun Demo.env Demo.lowest ([], fun _ => 0) prog with
  | .done r => some (r.2.map Demo.outline, r.1.1.live)
  | _ => none

/-- Two analyzers; the first is destroyed, twice, and its variable used for a new one, which gets the old addresses and
does not see the old peak. -/
def Demo.client : List (Act F64 F32) :=
  [.init 0 1 16 0x11, .init 1 1 16 0x11, .call 0 (.addShort [100, -200] 2), .ask 0 (.samplePeak 0) (Fl.zero false),
   .ask 1 (.samplePeak 0) (Fl.zero false), .destroy 0, .destroy 0, .init 0 1 16 0x11,
   .ask 0 (.samplePeak 0) (Fl.zero false), .init 2 0 16 0x11]

example : ∀ a ∈ Demo.client, ¬ Spec.Act.Copies a := by
  simp [Demo.client, Spec.Act.Copies]

example : Demo.outlines Demo.client = some ([(1, 1), (1, 1), (2, 0), (3, 1), (3, 0), (0, 0), (0, 0), (1, 1), (3, 0), (1, 0)],
    [2, 1, 4, 3]) := by
  decide +kernel

/-- All destroyed: nothing is left. -/
example : (Demo.outlines (Demo.client ++ [.destroy 0, .destroy 1, .destroy 2])).map Prod.snd = some [] := by
  decide +kernel

/-- An analyzer forgotten: two blocks are left. -/
example : (Demo.outlines [.init 0 1 16 0x11, .init 0 1 16 0x11, .destroy 0]).map Prod.snd = some [2, 1] := by
  decide +kernel

/-- A dangling copy that goes unnoticed: the allocator has handed out the addresses again, and the samples meant for the
old analyzer end up in the new one. -/
example : (Demo.outlines [.init 0 1 16 0x11, .copy 1 0, .destroy 0, .init 2 1 16 0x11, .call 1 (.addShort [100, -200] 2),
    .ask 2 (.samplePeak 0) (Fl.zero false)]).map Prod.fst = some [(1, 1), (0, 0), (0, 0), (1, 1), (2, 0), (3, 1)] := by
  decide +kernel

end Verif
