import Verif.Props.C04_C07
import Verif.Proofs.Grown
/-! # C08: the history limit

The full property (after any calls, at most `limit / 100` blocks are retained, the oldest dropped first, and
nothing is retained that was not measured) is **false** for the code; see `C08_padding` and
`C08_no_truncation`.  What holds: the full property on analyzers on which `set_max_history` was never called
(`C08_partial`), or not since the last reset (`C08_reset`); for all call histories, that everything retained was
measured or is padding (`C08_content_partial`); and what exactly the queues hold after `set_max_history`
(`C08_after`). -/

namespace Verif
variable {D S : Type}

/-- The last `n` elements. -/
def Spec.newest {α : Type} (n : Nat) (l : List α) : List α := l.drop (l.length - n)

/-- `x` is the energy measured for some block and not below the absolute gate. -/
def Spec.Kept (E : Env D S) (x : D) : Prop :=
  Measured E x ∧ ∃ g, (boundaries E)[0]? = some g ∧ E.f64.lt x g = false

theorem newest_add {α : Type} {n : Nat} (hn : 1 ≤ n) (xs : List α) (x : α) :
    (if n = (Spec.newest n xs).length then (Spec.newest n xs).drop 1 else Spec.newest n xs) ++ [x] =
      Spec.newest n (xs ++ [x]) := by
  unfold Spec.newest
  rw [List.length_drop, List.length_append, List.length_singleton]
  by_cases h : n ≤ xs.length
  · rw [if_pos (by omega), List.drop_drop, List.drop_append_of_le_length (by omega)]
    congr 2; omega
  · rw [if_neg (by omega), List.drop_append_of_le_length (by omega)]
    congr 2; omega

theorem History.add_cases {E : Env D S} {h h' : History D} {x : D} (ha : h.add E x = .done h') :
    (h' = h) ∨ (E.f64.lt x (gate0 E) = false ∧
      ((∃ q m, h = .queue q m ∧ h' = .queue (queueAdd q m x) m) ∨
       ∃ b b', h = .histogram b ∧ h' = .histogram b')) := by
  simp only [History.add, Run.bind_eq, index_b0, Run.done_bind] at ha
  split at ha
  · cases ha; exact .inl rfl
  · next hl =>
    right
    refine ⟨by simpa using hl, ?_⟩
    cases h with
    | queue q m => cases ha; exact .inl ⟨q, m, rfl, rfl⟩
    | histogram b =>
      obtain ⟨b', -, ha⟩ := Run.bind_done ha
      cases ha; exact .inr ⟨b, b', rfl, rfl⟩

theorem kept_of {E : Env D S} {x : D} (hm : Measured E x) (hl : E.f64.lt x (gate0 E) = false) :
    Spec.Kept E x :=
  ⟨hm, gate0 E, Run.index_done (index_b0 E), hl⟩

/-- FIFO shape of a queue. -/
def IsFifo (E : Env D S) (k m : Nat) (h : History D) : Prop :=
  ∀ q mx, h = .queue q mx → mx = m / k ∧ ∃ xs, (∀ x ∈ xs, Spec.Kept E x) ∧ q = Spec.newest mx xs

theorem isFifo_add {E : Env D S} {k m : Nat} (hk : 1 ≤ m / k) {h h' : History D} {x : D}
    (hf : IsFifo E k m h) (ha : h.add E x = .done h') (hm : Measured E x) : IsFifo E k m h' := by
  rcases History.add_cases ha with rfl | ⟨hl, ⟨q, mx, rfl, rfl⟩ | ⟨b, b', rfl, rfl⟩⟩
  · exact hf
  · intro q' mx' he
    cases he
    obtain ⟨h1, xs, h2, h3⟩ := hf _ _ rfl
    refine ⟨h1, xs ++ [x], ?_, ?_⟩
    · intro y hy
      rcases List.mem_append.1 hy with hy | hy
      · exact h2 y hy
      · rw [List.mem_singleton.1 hy]; exact kept_of hm hl
    · rw [queueAdd, h3, newest_add (by omega)]
  · intro q' mx' he; cases he

theorem isFifo_reset {E : Env D S} {k m : Nat} {h : History D} (hf : IsFifo E k m h) :
    IsFifo E k m h.reset := by
  cases h with
  | histogram b => intro q' mx' he; cases he
  | queue q mx =>
    intro q' mx' he
    cases he
    exact ⟨(hf _ _ rfl).1, [], by simp, by simp [Spec.newest]⟩

/-- **C08** for analyzers on which `set_max_history` is never called: along any sequence of other calls the
queues hold the last `usize::MAX / 100` (`usize::MAX / 3000`) of a sequence of measured energies, oldest
dropped first.  Missing for the full property: call histories with `set_max_history`, for which it fails. -/
theorem C08_partial {E : Env D S} (hu : 3000 ≤ E.usizeMax) {channels rate : Nat} {mode : Mode}
    {e0 e : Ebu D S} {ops : List (Op D S)} (h0 : Ebu.new E channels rate mode = .done (.ok e0))
    (hq : mode.contains Mode.HISTOGRAM = false)
    (hops : ∀ h, Op.setMaxHistory h ∉ ops) (h : runOps E e0 ops = .done e) :
    (∃ xs, (∀ x ∈ xs, Spec.Kept E x) ∧ e.blockEnergyHistory =
      .queue (Spec.newest (E.usizeMax / 100) xs) (E.usizeMax / 100)) ∧
    (∃ ys, (∀ y ∈ ys, Spec.Kept E y) ∧ e.shortTermBlockEnergyHistory =
      .queue (Spec.newest (E.usizeMax / 3000) ys) (E.usizeMax / 3000)) := by
  have hinv := Ebu.new_inv2 h0
  obtain ⟨rfl, -⟩ := Ebu.new_ok h0
  have hk : ∀ {m h h' x} (k : Nat), 1 ≤ k → k ≤ 3000 →
      (m = E.usizeMax ∧ h.isHist = false ∧ IsFifo E k m h) → h.add E x = .done h' → Measured E x →
      (m = E.usizeMax ∧ h'.isHist = false ∧ IsFifo E k m h') := by
    rintro m h h' x k hk1 hk ⟨rfl, hh, hf⟩ ha hm
    refine ⟨rfl, ?_, isFifo_add ((Nat.le_div_iff_mul_le (by omega)).2 (by omega)) hf ha hm⟩
    rcases History.add_cases ha with rfl | ⟨-, ⟨q, mx, rfl, rfl⟩ | ⟨b, b', rfl, rfl⟩⟩
    · exact hh
    · rfl
    · cases hh
  have hr : ∀ {m h k}, (m = E.usizeMax ∧ h.isHist = false ∧ IsFifo E k m h) →
      (m = E.usizeMax ∧ h.reset.isHist = false ∧ IsFifo E k m h.reset) := by
    rintro m h k ⟨rfl, hh, hf⟩
    refine ⟨rfl, ?_, isFifo_reset hf⟩
    cases h
    · rfl
    · cases hh
  have hi : ∀ k, (History.new (mode.contains Mode.HISTOGRAM) (E.usizeMax / k) : History D).isHist = false ∧
      IsFifo E k E.usizeMax (History.new (mode.contains Mode.HISTOGRAM) (E.usizeMax / k)) := by
    intro k
    rw [hq]
    refine ⟨rfl, fun q mx he => ?_⟩
    cases he
    exact ⟨rfl, [], by simp, by simp [Spec.newest]⟩
  have key := runOps_hist
    (fun m h => m = E.usizeMax ∧ h.isHist = false ∧ IsFifo E 100 m h)
    (fun m h => m = E.usizeMax ∧ h.isHist = false ∧ IsFifo E 3000 m h)
    (fun m h h' x => hk 100 (by omega) (by omega)) (fun m h h' x => hk 3000 (by omega) (by omega))
    hinv ⟨rfl, hi 100⟩ ⟨rfl, hi 3000⟩ ops (.inl ⟨fun _ _ => hr, fun _ _ => hr⟩) (.inr hops) h
  have fin : ∀ {h : History D} {k m}, (m = E.usizeMax ∧ h.isHist = false ∧ IsFifo E k m h) →
      ∃ xs, (∀ x ∈ xs, Spec.Kept E x) ∧ h =
        .queue (Spec.newest (E.usizeMax / k) xs) (E.usizeMax / k) := by
    rintro h k m ⟨rfl, hh, hf⟩
    cases h with
    | histogram b => cases hh
    | queue q mx =>
      obtain ⟨rfl, xs, h1, rfl⟩ := hf _ _ rfl
      exact ⟨xs, h1, rfl⟩
  exact ⟨fin key.1, fin key.2⟩

/-- Contents of a queue after arbitrary calls. -/
def IsPadded (E : Env D S) (k m : Nat) (h : History D) : Prop :=
  ∀ q mx, h = .queue q mx → mx = m / k ∧ ∀ x ∈ q, Spec.Kept E x ∨ x = E.f64.zero

/-- **C08** for all call histories, weakened to what the code does: the limits in force are those of
`set_max_history`, and every retained value is a measured energy or zero padding.  Missing: the bound on
the number retained and the absence of padding, both of which fail. -/
theorem C08_content_partial {E : Env D S} {e : Ebu D S} (hr : Reachable E e) {q : List D} {mx : Nat} :
    (e.blockEnergyHistory = .queue q mx → mx = e.history / 100 ∧
      ∀ x ∈ q, Spec.Kept E x ∨ x = E.f64.zero) ∧
    (e.shortTermBlockEnergyHistory = .queue q mx → mx = e.history / 3000 ∧
      ∀ x ∈ q, Spec.Kept E x ∨ x = E.f64.zero) := by
  obtain ⟨c, r, mode, e0, ops, h0, h⟩ := hr
  have hinv := Ebu.new_inv2 h0
  obtain ⟨rfl, -⟩ := Ebu.new_ok h0
  have hadd : ∀ {k m h h' x}, IsPadded E k m h → h.add E x = .done h' → Measured E x →
      IsPadded E k m h' := by
    intro k m h h' x hf ha hm
    rcases History.add_cases ha with rfl | ⟨hl, ⟨q, mx, rfl, rfl⟩ | ⟨b, b', rfl, rfl⟩⟩
    · exact hf
    · intro q' mx' he
      cases he
      obtain ⟨h1, h2⟩ := hf _ _ rfl
      refine ⟨h1, fun y hy => ?_⟩
      rw [queueAdd, List.mem_append, List.mem_singleton] at hy
      rcases hy with hy | rfl
      · refine h2 y ?_
        split at hy
        · exact List.mem_of_mem_drop hy
        · exact hy
      · exact .inl (kept_of hm hl)
    · intro q' mx' he; cases he
  have hreset : ∀ {k m h}, IsPadded E k m h → IsPadded E k m h.reset := by
    intro k m h hf
    cases h with
    | histogram b => intro q' mx' he; cases he
    | queue q mx =>
      intro q' mx' he
      cases he
      exact ⟨(hf _ _ rfl).1, by simp⟩
  have hset : ∀ {k m m' h}, IsPadded E k m h → IsPadded E k m' (h.setMaxSize E (m' / k)) := by
    intro k m m' h hf
    cases h with
    | histogram b => intro q' mx' he; cases he
    | queue q mx =>
      intro q' mx' he
      simp only [History.setMaxSize] at he
      split at he
      · cases he
        refine ⟨rfl, fun x hx => ?_⟩
        rcases List.mem_append.1 hx with hx | hx
        · exact (hf _ _ rfl).2 x hx
        · exact .inr (List.eq_of_mem_replicate hx)
      · cases he; exact ⟨rfl, (hf _ _ rfl).2⟩
  have hi : ∀ k, IsPadded E k E.usizeMax
      (History.new (mode.contains Mode.HISTOGRAM) (E.usizeMax / k) : History D) := by
    intro k q mx he
    unfold History.new at he
    split at he
    · cases he
    · cases he; exact ⟨rfl, by simp⟩
  obtain ⟨h1, h2⟩ := runOps_hist (IsPadded E 100) (IsPadded E 3000) (fun _ _ _ _ => hadd)
    (fun _ _ _ _ => hadd) hinv (hi 100) (hi 3000) ops (.inl ⟨fun _ _ => hreset, fun _ _ => hreset⟩)
    (.inl ⟨fun _ _ _ h _ => hset h, fun _ _ _ h _ => hset h⟩) h
  exact ⟨h1 q mx, h2 q mx⟩

/-! ## What `set_max_history` does, exactly -/

/-- The limit in milliseconds that a request for `h` sets: at least 3 s with short-term loudness, else 400 ms. -/
def Spec.limitMs (mode : Mode) (h : Nat) : Nat := max h (if mode.contains Mode.S then 3000 else 400)

/-- The limit changes only by `set_max_history`. -/
theorem step_history {E : Env D S} {e e' : Ebu D S} (hi : e.Inv2 E) {op : Op D S} {r : Except Error Unit}
    (hs : step E e op = .done (e', r)) :
    e'.mode = e.mode ∧ (e'.history = e.history ∨ ∃ h, op = .setMaxHistory h ∧ e'.history = Spec.limitMs e.mode h.toNat) := by
  rcases step_inv2 hi op with h3 | ⟨e2, r2, h3, -, h5⟩
  · rw [h3] at hs; cases hs
  rw [h3] at hs
  cases hs
  refine ⟨h5, ?_⟩
  cases op with
  | setChannel i v =>
    simp only [step, Ebu.setChannel] at h3
    split at h3
    · cases h3; exact .inl rfl
    · split at h3
      · cases h3; exact .inl rfl
      · split at h3 <;> cases h3
        exact .inl rfl
  | setChannelMap m =>
    simp only [step, Ebu.setChannelMap] at h3
    split at h3
    · cases h3; exact .inl rfl
    · split at h3
      · cases h3; exact .inl rfl
      · split at h3 <;> cases h3
        exact .inl rfl
  | changeParameters c r =>
    simp only [step, Ebu.changeParameters_eq hi.inv] at h3
    split at h3
    · cases h3; exact .inl rfl
    · split at h3
      · cases h3; exact .inl rfl
      · obtain ⟨a, -, h3⟩ := Run.bind_done h3
        cases a <;> (cases h3; exact .inl rfl)
  | setMaxWindow w =>
    simp only [step, Ebu.setMaxWindow] at h3
    by_cases hc : clampMs e.mode w.toNat = e.window
    · simp only [hc, if_true] at h3; cases h3; exact .inl rfl
    · simp only [hc, if_false, Run.bind_eq] at h3
      obtain ⟨a, -, h3⟩ := Run.bind_done h3
      cases a <;> (cases h3; exact .inl rfl)
  | setMaxHistory x =>
    simp only [step, Ebu.setMaxHistory] at h3
    split at h3
    · cases h3; exact .inl rfl
    · cases h3
      refine .inr ⟨x, rfl, ?_⟩
      show clampMs e.mode x.toNat = _
      unfold clampMs Spec.limitMs
      rw [hi.inv.modeM]
      split <;> rfl
  | reset =>
    simp only [step, Run.bind_eq, (Ebu.reset_eq hi.inv).1, Run.done_bind] at h3
    cases h3
    exact .inl rfl
  | addFrames x =>
    rcases Ebu.addInput_cases hi.inv x with h6 | ⟨e3, r3, h6, -, h7⟩
    · simp only [step, h6] at h3; cases h3
    · simp only [step, h6] at h3; cases h3
      exact .inl h7.history
  | seedFrames x =>
    have := Ebu.seedInput_hist h3
    rw [this]
    exact .inl rfl

/-- The limit in force is never below 400 ms, and 3 s with short-term loudness. -/
theorem limit_bounds {E : Env D S} (hu : 3000 ≤ E.usizeMax) {e : Ebu D S} (hr : Reachable E e) :
    Spec.limitMs e.mode 0 ≤ e.history := by
  obtain ⟨c, r, mode, e0, ops, h0, h⟩ := hr
  have hi := Ebu.new_inv2 h0
  obtain ⟨rfl, -⟩ := Ebu.new_ok h0
  have h1 : Spec.limitMs (Ebu.init E c r mode).mode 0 ≤ (Ebu.init E c r mode).history := by
    unfold Spec.limitMs
    show _ ≤ E.usizeMax
    split <;> omega
  clear h0
  generalize Ebu.init E c r mode = e0 at *
  induction ops generalizing e0 with
  | nil => cases h; exact h1
  | cons op ops ih =>
    simp only [runOps, Run.bind_eq] at h
    obtain ⟨⟨e1, r⟩, hs, h⟩ := Run.bind_done h
    rcases step_inv2 hi op with h3 | ⟨e2, r2, h3, h4, -⟩
    · rw [h3] at hs; cases hs
    have h4' : e1.Inv2 E := by rw [h3] at hs; cases hs; exact h4
    obtain ⟨k1, k2⟩ := step_history hi hs
    refine ih e1 h h4' ?_
    rw [k1]
    rcases k2 with k2 | ⟨x, -, k2⟩
    · rw [k2]; exact h1
    · rw [k2]; unfold Spec.limitMs; omega

/-- Energies `xs` arriving at a queue `q` with limit `n`: the oldest go if the queue is within its limit, and nothing
goes if it is above. -/
def Spec.arrive {α : Type} (n : Nat) (q xs : List α) : List α := if q.length ≤ n then Spec.newest n (q ++ xs) else q ++ xs

theorem arrive_add {α : Type} {n : Nat} (hn : 1 ≤ n) (q xs : List α) (x : α) :
    queueAdd (Spec.arrive n q xs) n x = Spec.arrive n q (xs ++ [x]) := by
  unfold Spec.arrive queueAdd
  split
  · rw [newest_add hn, List.append_assoc]
  · next h =>
    rw [if_neg (by rw [List.length_append]; omega), List.append_assoc]

theorem arrive_nil {α : Type} (n : Nat) (q : List α) : Spec.arrive n q [] = q := by
  unfold Spec.arrive Spec.newest
  split
  · next h => rw [List.append_nil, Nat.sub_eq_zero_of_le h, List.drop_zero]
  · rw [List.append_nil]

/-- Queue with energies `xs` measured since it was `q`. -/
def IsArrived (E : Env D S) (n : Nat) (q : List D) (h : History D) : Prop :=
  ∃ xs, (∀ x ∈ xs, Spec.Kept E x) ∧ h = .queue (Spec.arrive n q xs) n

theorem isArrived_add {E : Env D S} {n : Nat} (hn : 1 ≤ n) {q : List D} {h h' : History D} {x : D}
    (hf : IsArrived E n q h) (ha : h.add E x = .done h') (hm : Measured E x) : IsArrived E n q h' := by
  obtain ⟨xs, h1, rfl⟩ := hf
  rcases History.add_cases ha with rfl | ⟨hl, ⟨q', mx, he, rfl⟩ | ⟨b, b', he, -⟩⟩
  · exact ⟨xs, h1, rfl⟩
  · cases he
    refine ⟨xs ++ [x], fun y hy => ?_, by rw [arrive_add hn]⟩
    rcases List.mem_append.1 hy with hy | hy
    · exact h1 y hy
    · rw [List.mem_singleton.1 hy]; exact kept_of hm hl
  · cases he

/-- The histories along calls that neither reset nor change the limit. -/
theorem runOps_arrive {E : Env D S} {e e' : Ebu D S} (hi : e.Inv2 E) {ops : List (Op D S)}
    (hops : ∀ h, Op.setMaxHistory h ∉ ops) (hreset : Op.reset ∉ ops) (hr : runOps E e ops = .done e') {q : List D} {n : Nat}
    (hn : 1 ≤ n) :
    (e.blockEnergyHistory = .queue q n → IsArrived E n q e'.blockEnergyHistory) ∧
    (e.shortTermBlockEnergyHistory = .queue q n → IsArrived E n q e'.shortTermBlockEnergyHistory) := by
  have h0 : ∀ {h : History D}, h = .queue q n → IsArrived E n q h := fun he => ⟨[], by simp, by rw [he, arrive_nil]⟩
  constructor
  · intro he
    exact (runOps_hist (fun _ h => IsArrived E n q h) (fun _ _ => True) (fun _ _ _ _ => isArrived_add hn)
      (fun _ _ _ _ _ _ _ => trivial) hi (h0 he) trivial ops (.inr hreset) (.inr hops) hr).1
  · intro he
    exact (runOps_hist (fun _ _ => True) (fun _ h => IsArrived E n q h) (fun _ _ _ _ _ _ _ => trivial)
      (fun _ _ _ _ => isArrived_add hn) hi trivial (h0 he) ops (.inr hreset) (.inr hops) hr).2

/-- **C08**, exactly what the code does. Changing the limit pads a shorter queue with zero energies up to the new limit.
From then on a queue that was not longer than the limit drops its oldest entries, one that was longer drops nothing. -/
theorem C08_after {E : Env D S} {e0 e1 e : Ebu D S} (hr : Reachable E e0) {h : UInt32} {r : Except Error Unit}
    (hs : step E e0 (.setMaxHistory h) = .done (e1, r)) (hne : e0.history ≠ Spec.limitMs e0.mode h.toNat)
    {ops : List (Op D S)} (hops : ∀ h, Op.setMaxHistory h ∉ ops) (hreset : Op.reset ∉ ops)
    (hrun : runOps E e1 ops = .done e) {q : List D} {mx : Nat} :
    (e0.blockEnergyHistory = .queue q mx → let n := Spec.limitMs e0.mode h.toNat / 100
      ∃ xs, (∀ x ∈ xs, Spec.Kept E x) ∧
        e.blockEnergyHistory = .queue (Spec.arrive n (q ++ List.replicate (n - q.length) E.f64.zero) xs) n) ∧
    (e0.shortTermBlockEnergyHistory = .queue q mx → e0.mode.contains Mode.S = true →
      let n := Spec.limitMs e0.mode h.toNat / 3000
      ∃ xs, (∀ x ∈ xs, Spec.Kept E x) ∧
        e.shortTermBlockEnergyHistory = .queue (Spec.arrive n (q ++ List.replicate (n - q.length) E.f64.zero) xs) n) := by
  have hc : clampMs e0.mode h.toNat = Spec.limitMs e0.mode h.toNat := by
    unfold clampMs Spec.limitMs
    rw [hr.inv.modeM]
    split <;> rfl
  have hi := (hr.step hs).inv2
  simp only [step, Ebu.setMaxHistory, hc, if_neg hne] at hs
  cases hs
  have set : ∀ n, (History.queue q mx).setMaxSize E n = .queue (q ++ List.replicate (n - q.length) E.f64.zero) n := by
    intro n
    simp only [History.setMaxSize]
    split
    · rfl
    · next h => rw [Nat.sub_eq_zero_of_le (by omega), List.replicate_zero, List.append_nil]
  have h400 : 400 ≤ Spec.limitMs e0.mode h.toNat := by unfold Spec.limitMs; split <;> omega
  constructor
  · intro he n
    refine (runOps_arrive hi hops hreset hrun (n := n) (show 1 ≤ Spec.limitMs e0.mode h.toNat / 100 by omega)).1 ?_
    show e0.blockEnergyHistory.setMaxSize E n = _
    rw [he, set]
  · intro he hS n
    have : 3000 ≤ Spec.limitMs e0.mode h.toNat := by unfold Spec.limitMs; rw [if_pos hS]; omega
    refine (runOps_arrive hi hops hreset hrun (n := n) (show 1 ≤ Spec.limitMs e0.mode h.toNat / 3000 by omega)).2 ?_
    show e0.shortTermBlockEnergyHistory.setMaxSize E n = _
    rw [he, set]

/-- Reading `Spec.arrive`: within the limit the queue stays within it and, once `n` energies have arrived, holds the last
`n` of them, so that the padding is gone. Above the limit it grows with every energy. -/
theorem C08_arrive {α : Type} (n : Nat) (q xs : List α) :
    (q.length ≤ n → (Spec.arrive n q xs).length ≤ n ∧ (n ≤ xs.length → Spec.arrive n q xs = Spec.newest n xs)) ∧
    (n < q.length → (Spec.arrive n q xs).length = q.length + xs.length) := by
  unfold Spec.arrive Spec.newest
  refine ⟨fun h => ?_, fun h => ?_⟩
  · rw [if_pos h, List.length_drop, List.length_append]
    refine ⟨by omega, fun h' => ?_⟩
    rw [List.drop_append, List.drop_of_length_le (by omega), List.nil_append]
    congr 1
    omega
  · rw [if_neg (by omega), List.length_append]

/-- **C08** after a reset: whatever was done before, `set_max_history` included, from a reset on the queues hold the last
`limit / 100` (`limit / 3000`) of a sequence of measured energies, until the limit is changed again. So the property holds
for an analyzer that is reset after `set_max_history`. -/
theorem C08_reset {E : Env D S} (hu : 3000 ≤ E.usizeMax) {e0 e1 e : Ebu D S} (hr : Reachable E e0)
    (hq : e0.mode.contains Mode.HISTOGRAM = false) {r : Except Error Unit} (hs : step E e0 .reset = .done (e1, r))
    {ops : List (Op D S)} (hops : ∀ h, Op.setMaxHistory h ∉ ops) (hrun : runOps E e1 ops = .done e) :
    e.history = e0.history ∧
    (∃ xs, (∀ x ∈ xs, Spec.Kept E x) ∧ e.blockEnergyHistory =
      .queue (Spec.newest (e0.history / 100) xs) (e0.history / 100)) ∧
    (e0.mode.contains Mode.S = true → ∃ ys, (∀ y ∈ ys, Spec.Kept E y) ∧ e.shortTermBlockEnergyHistory =
      .queue (Spec.newest (e0.history / 3000) ys) (e0.history / 3000)) := by
  have hl := limit_bounds hu hr
  have hi := (hr.step hs).inv2
  have hold := fun q mx => C08_content_partial hr (q := q) (mx := mx)
  have kind : ∀ {h : History D}, h.isHist = e0.mode.contains Mode.HISTOGRAM → ∃ q mx, h = .queue q mx := by
    intro h hk
    rw [hq] at hk
    cases h with
    | histogram b => cases hk
    | queue q mx => exact ⟨q, mx, rfl⟩
  obtain ⟨q, mx, hb⟩ := kind hr.inv.histKind
  obtain ⟨q', mx', hb'⟩ := kind hr.inv.stHistKind
  simp only [step, Run.bind_eq, (Ebu.reset_eq hr.inv).1, Run.done_bind] at hs
  cases hs
  have hadd : ∀ (k : Nat), 1 ≤ e0.history / k → ∀ m h h' x,
      (m = e0.history ∧ h.isHist = false ∧ IsFifo E k m h) → h.add E x = .done h' → Measured E x →
      (m = e0.history ∧ h'.isHist = false ∧ IsFifo E k m h') := by
    rintro k hk m h h' x ⟨rfl, hh, hf⟩ ha hm
    refine ⟨rfl, ?_, isFifo_add hk hf ha hm⟩
    rcases History.add_cases ha with rfl | ⟨-, ⟨q, mx, rfl, rfl⟩ | ⟨b, b', rfl, rfl⟩⟩
    · exact hh
    · rfl
    · cases hh
  have hrs : ∀ k, ∀ m h, (m = e0.history ∧ h.isHist = false ∧ IsFifo E k m h) →
      (m = e0.history ∧ h.reset.isHist = false ∧ IsFifo E k m h.reset) := by
    rintro k m h ⟨rfl, hh, hf⟩
    refine ⟨rfl, ?_, isFifo_reset hf⟩
    cases h
    · rfl
    · cases hh
  have fin : ∀ {h : History D} {k m}, (m = e0.history ∧ h.isHist = false ∧ IsFifo E k m h) →
      ∃ xs, (∀ x ∈ xs, Spec.Kept E x) ∧ h = .queue (Spec.newest (e0.history / k) xs) (e0.history / k) := by
    rintro h k m ⟨rfl, hh, hf⟩
    cases h with
    | histogram b => cases hh
    | queue q mx =>
      obtain ⟨rfl, xs, h1, rfl⟩ := hf _ _ rfl
      exact ⟨xs, h1, rfl⟩
  have h400 : 400 ≤ e0.history := by
    refine Nat.le_trans ?_ hl
    unfold Spec.limitMs
    split <;> omega
  have k1 := runOps_hist (fun m h => m = e0.history ∧ h.isHist = false ∧ IsFifo E 100 m h) (fun _ _ => True)
    (hadd 100 (by omega)) (fun _ _ _ _ _ _ _ => trivial) hi
    (by
      refine ⟨rfl, ?_⟩
      show e0.blockEnergyHistory.reset.isHist = false ∧ IsFifo E 100 e0.history e0.blockEnergyHistory.reset
      rw [hb]
      refine ⟨rfl, fun q2 m2 he => ?_⟩
      cases he
      exact ⟨((hold _ _).1 hb).1, [], by simp, by simp [Spec.newest]⟩)
    trivial ops (.inl ⟨hrs 100, fun _ _ _ => trivial⟩) (.inr hops) hrun
  refine ⟨k1.1.1, fin k1.1, fun hS => ?_⟩
  have h3000 : 3000 ≤ e0.history := by
    refine Nat.le_trans ?_ hl
    unfold Spec.limitMs
    rw [if_pos hS]
    omega
  have k2 := runOps_hist (fun _ _ => True) (fun m h => m = e0.history ∧ h.isHist = false ∧ IsFifo E 3000 m h)
    (fun _ _ _ _ _ _ _ => trivial) (hadd 3000 (by omega)) hi trivial
    (by
      refine ⟨rfl, ?_⟩
      show e0.shortTermBlockEnergyHistory.reset.isHist = false ∧ IsFifo E 3000 e0.history e0.shortTermBlockEnergyHistory.reset
      rw [hb']
      refine ⟨rfl, fun q2 m2 he => ?_⟩
      cases he
      exact ⟨((hold _ _).2 hb').1, [], by simp, by simp [Spec.newest]⟩)
    ops (.inl ⟨fun _ _ _ => trivial, hrs 3000⟩) (.inr hops) hrun
  exact fin k2.2

/-- The full property fails, part 1: on an analyzer that has measured nothing, `set_max_history(5000)`
makes 50 gating blocks of energy zero appear, and `gating_block_count_and_energy` counts them. -/
theorem C08_padding :
    ∃ e e' : Ebu F64 F32, Ebu.new Demo.env 1 48000 Mode.I = .done (.ok e) ∧
      e.gatingBlockCountAndEnergy Demo.env = .done none ∧
      step Demo.env e (.setMaxHistory 5000) = .done (e', .ok ()) ∧
      e'.gatingBlockCountAndEnergy Demo.env = .done (some (50, Fl.zero false)) := by
  obtain ⟨e, he, -⟩ := demo_new (channels := 1) (rate := 48000) (mode := Mode.I) (by omega) (by decide)
  obtain ⟨rfl, -⟩ := Ebu.new_ok he
  refine ⟨_, _, he, rfl, rfl, ?_⟩
  show Ebu.gatingBlockCountAndEnergy Demo.env
    (Ebu.setMaxHistory Demo.env (Ebu.init Demo.env 1 48000 Mode.I) 5000).1 = _
  have h1 : (Ebu.setMaxHistory Demo.env (Ebu.init Demo.env 1 48000 Mode.I) 5000).1.blockEnergyHistory =
      .queue (List.replicate 50 (Fl.zero false)) 50 := rfl
  unfold Ebu.gatingBlockCountAndEnergy
  rw [h1]
  decide +kernel

/-- The full property fails, part 2: lowering the limit does not drop anything, and a queue that is longer
than its limit grows by one with every further block. -/
theorem C08_no_truncation (E : Env D S) (q : List D) {mx max : Nat} (h : max < q.length) :
    (History.queue q mx).setMaxSize E max = .queue q max ∧
    ∀ x, (queueAdd q max x).length = q.length + 1 := by
  refine ⟨?_, fun x => ?_⟩
  · simp only [History.setMaxSize, if_neg (by omega : ¬ q.length < max)]
  · rw [queueAdd, if_neg (by omega)]; simp

/-- Part 2 on an analyzer: limit 10 s, then 5 s; 100 blocks stay although the limit is 50. -/
example : ∃ e e' : Ebu F64 F32, Ebu.new Demo.env 1 48000 Mode.I = .done (.ok e) ∧
    runOps Demo.env e [.setMaxHistory 10000, .setMaxHistory 5000] = .done e' ∧
    e'.history = 5000 ∧ ∃ q, e'.blockEnergyHistory = .queue q 50 ∧ q.length = 100 := by
  obtain ⟨e, he, -⟩ := demo_new (channels := 1) (rate := 48000) (mode := Mode.I) (by omega) (by decide)
  obtain ⟨rfl, -⟩ := Ebu.new_ok he
  exact ⟨_, _, he, rfl, rfl, _, rfl, rfl⟩

/-- Set the limit to 5 s and reset: whatever happens afterwards, at most 50 blocks, all of them measured. -/
example : ∃ e0 e1 e2 : Ebu F64 F32, Ebu.new Demo.env 1 48000 Mode.I = .done (.ok e0) ∧
    step Demo.env e0 (.setMaxHistory 5000) = .done (e1, .ok ()) ∧ step Demo.env e1 .reset = .done (e2, .ok ()) ∧
    ∀ ops e, (∀ h, Op.setMaxHistory h ∉ ops) → runOps Demo.env e2 ops = .done e →
      ∃ q, e.blockEnergyHistory = .queue q 50 ∧ q.length ≤ 50 ∧ ∀ x ∈ q, Spec.Kept Demo.env x := by
  obtain ⟨e, he, -⟩ := demo_new (channels := 1) (rate := 48000) (mode := Mode.I) (by omega) (by decide)
  have hr := reachable_new he
  obtain ⟨rfl, -⟩ := Ebu.new_ok he
  have h1 : step Demo.env (Ebu.init Demo.env 1 48000 Mode.I) (.setMaxHistory 5000) =
    .done ((Ebu.setMaxHistory Demo.env (Ebu.init Demo.env 1 48000 Mode.I) 5000).1, .ok ()) := rfl
  have hr1 := hr.step h1
  obtain ⟨e2, h2⟩ : ∃ e2, step Demo.env (Ebu.setMaxHistory Demo.env (Ebu.init Demo.env 1 48000 Mode.I) 5000).1 .reset =
      .done (e2, .ok ()) := by
    simp only [step, Run.bind_eq, (Ebu.reset_eq hr1.inv).1, Run.done_bind]
    exact ⟨_, rfl⟩
  refine ⟨_, _, e2, he, h1, h2, fun ops e hops h3 => ?_⟩
  obtain ⟨-, ⟨xs, k1, k2⟩, -⟩ := C08_reset (by decide) hr1 rfl h2 hops h3
  refine ⟨_, k2, ?_, fun x hx => k1 x (List.mem_of_mem_drop hx)⟩
  show (Spec.newest 50 xs).length ≤ 50
  rw [Spec.newest, List.length_drop]
  omega

/-- `C08_partial` is about something: a new analyzer in mode `I` with its map set. -/
example : ∃ e0 e : Ebu F64 F32, Ebu.new Demo.env 1 48000 Mode.I = .done (.ok e0) ∧
    runOps Demo.env e0 [.setChannel 0 .left] = .done e ∧
    (∀ h, Op.setMaxHistory h ∉ ([.setChannel 0 .left] : List (Op F64 F32))) := by
  obtain ⟨e, he, -⟩ := demo_new (channels := 1) (rate := 48000) (mode := Mode.I) (by omega) (by decide)
  obtain ⟨rfl, -⟩ := Ebu.new_ok he
  exact ⟨_, _, he, rfl, by simp⟩

end Verif
