import Verif.Proofs.Run
/-! # Sample layouts as lists of frames -/

set_option linter.unusedSimpArgs false

namespace Verif
variable {T : Type}

/-- The samples of channel `c` of a list of frames. -/
def column (c : Nat) (fs : List (List T)) : List T := fs.filterMap (·[c]?)

theorem column_append (c : Nat) (fs gs : List (List T)) :
    column c (fs ++ gs) = column c fs ++ column c gs := by simp [column]

theorem column_length {c n : Nat} {fs : List (List T)} (h : ∀ f ∈ fs, f.length = n) (hc : c < n) :
    (column c fs).length = fs.length := by
  induction fs with
  | nil => rfl
  | cons f fs ih =>
    rw [List.forall_mem_cons] at h
    have : f[c]? = some (f[c]'(by omega)) := List.getElem?_eq_getElem _
    simp only [column, List.filterMap_cons, this, List.length_cons]
    have := ih h.2
    simp only [column] at this
    omega

theorem column_getElem? {c n : Nat} {fs : List (List T)} (h : ∀ f ∈ fs, f.length = n) (hc : c < n)
    (i : Nat) : (column c fs)[i]? = fs[i]? >>= (·[c]?) := by
  induction fs generalizing i with
  | nil => rfl
  | cons f fs ih =>
    rw [List.forall_mem_cons] at h
    have hf : f[c]? = some (f[c]'(by omega)) := List.getElem?_eq_getElem _
    simp only [column, List.filterMap_cons, hf]
    cases i with
    | zero => simp [hf]
    | succ i =>
      have := ih h.2 i
      simp only [column] at this
      simpa using this

theorem chunksExact_nil (n : Nat) : chunksExact n ([] : List T) = [] := by
  rw [chunksExact]
  split
  · rfl
  · next h => simp at h

theorem chunksExact_cons {n : Nat} (hn : n ≠ 0) (f l : List T) (hf : f.length = n) :
    chunksExact n (f ++ l) = f :: chunksExact n l := by
  rw [chunksExact]
  have : ¬(n = 0 ∨ (f ++ l).length < n) := by simp; omega
  rw [dif_neg this]
  simp [← hf]

theorem chunksExact_flatten {n : Nat} (hn : n ≠ 0) {fs : List (List T)}
    (h : ∀ f ∈ fs, f.length = n) : chunksExact n fs.flatten = fs := by
  induction fs with
  | nil => exact chunksExact_nil n
  | cons f fs ih =>
    rw [List.forall_mem_cons] at h
    rw [List.flatten_cons, chunksExact_cons hn _ _ h.1, ih h.2]

theorem length_flatten_of {n : Nat} {fs : List (List T)} (h : ∀ f ∈ fs, f.length = n) :
    fs.flatten.length = fs.length * n := by
  induction fs with
  | nil => simp
  | cons f fs ih =>
    rw [List.forall_mem_cons] at h
    simp [ih h.2, h.1, Nat.succ_mul, Nat.add_comm]

/-- Every list whose length is a multiple of `n` is a concatenation of frames of length `n`. -/
theorem exists_frames {n : Nat} (_hn : n ≠ 0) (l : List T) (h : l.length % n = 0) :
    ∃ fs : List (List T), (∀ f ∈ fs, f.length = n) ∧ l = fs.flatten := by
  obtain ⟨k, hk⟩ := Nat.dvd_of_mod_eq_zero h
  induction k generalizing l with
  | zero =>
    refine ⟨[], by simp, ?_⟩
    have : l.length = 0 := by simpa using hk
    simpa using this
  | succ k ih =>
    have hle : n ≤ l.length := by rw [hk, Nat.mul_succ]; omega
    have hd : (l.drop n).length = n * k := by rw [List.length_drop, hk, Nat.mul_succ]; omega
    obtain ⟨fs, h1, h2⟩ := ih (l.drop n) (by rw [hd]; simp) hd
    refine ⟨l.take n :: fs, ?_, ?_⟩
    · simp only [List.forall_mem_cons]
      exact ⟨by simp [hle], h1⟩
    · rw [List.flatten_cons, ← h2, List.take_append_drop]

theorem chunksExact_rect {n : Nat} (hn : n ≠ 0) (l : List T) (h : l.length % n = 0) :
    (∀ f ∈ chunksExact n l, f.length = n) ∧ (chunksExact n l).flatten = l ∧
      (chunksExact n l).length = l.length / n := by
  obtain ⟨fs, h1, rfl⟩ := exists_frames hn l h
  rw [chunksExact_flatten hn h1]
  refine ⟨h1, rfl, ?_⟩
  rw [length_flatten_of h1, Nat.mul_div_cancel _ (Nat.pos_of_ne_zero hn)]

/-- A layout whose iteration methods agree with a list of frames. -/
class LawfulSamples (Sm : Type → Type) [Samples Sm] where
  /-- Well-formed sources (as produced by the constructors and `split_at`). -/
  WF : {T : Type} → Sm T → Prop
  toFrames : {T : Type} → Sm T → List (List T)
  frames_eq : ∀ {T : Type} {s : Sm T}, WF s → Samples.frames s = (toFrames s).length
  rect : ∀ {T : Type} {s : Sm T}, WF s → ∀ f ∈ toFrames s, f.length = Samples.channels s
  sample_eq : ∀ {T : Type} {s : Sm T}, WF s → ∀ c, c < Samples.channels s →
    Samples.foreachSample s c = .done (column c (toFrames s))
  frame_eq : ∀ {T : Type} {s : Sm T}, WF s →
    Samples.foreachFrame s (Samples.channels s) = .done (toFrames s)
  split_eq : ∀ {T : Type} {s : Sm T}, WF s → ∀ k, k ≤ (toFrames s).length →
    ∃ a b, Samples.splitAt s k = .done (a, b) ∧ WF a ∧ WF b ∧
      Samples.channels a = Samples.channels s ∧ Samples.channels b = Samples.channels s ∧
      toFrames a = (toFrames s).take k ∧ toFrames b = (toFrames s).drop k

theorem filterMap_eq_map_of {α β : Type} {f : α → Option β} {g : α → β} {l : List α}
    (h : ∀ x ∈ l, f x = some (g x)) : l.filterMap f = l.map g := by
  induction l with
  | nil => rfl
  | cons x xs ih =>
    rw [List.forall_mem_cons] at h
    simp [h.1, ih h.2]

instance : LawfulSamples Interleaved where
  WF s := s.channels ≠ 0 ∧ s.data.length % s.channels = 0
  toFrames s := chunksExact s.channels s.data
  frames_eq h := (chunksExact_rect h.1 _ h.2).2.2.symm
  rect h := (chunksExact_rect h.1 _ h.2).1
  sample_eq {T s} h c hc := by
    have hr := (chunksExact_rect h.1 s.data h.2).1
    have hc' : c < s.channels := hc
    simp only [Samples.foreachSample, Run.bind_eq, Run.assert_true hc', Run.done_bind]
    generalize chunksExact s.channels s.data = fs at hr
    induction fs with
    | nil => rfl
    | cons f fs ih =>
      rw [List.forall_mem_cons] at hr
      have hf : f[c]? = some (f[c]'(by omega)) := List.getElem?_eq_getElem _
      simp [Run.forL, Run.index_some hf, ih hr.2, column, List.filterMap_cons, hf]
  frame_eq {T s} h := by
    have : s.channels = s.channels := rfl
    simp [Samples.foreachFrame, Samples.channels]
  split_eq {T s} h k hk := by
    obtain ⟨fs, h1, h2⟩ := exists_frames h.1 s.data h.2
    simp only [h2, chunksExact_flatten h.1 h1] at hk ⊢
    have hlen : k * s.channels ≤ fs.flatten.length := by
      rw [length_flatten_of h1]; exact Nat.mul_le_mul_right _ hk
    have ht : ∀ f ∈ fs.take k, f.length = s.channels := fun f hf => h1 f (List.mem_of_mem_take hf)
    have hd : ∀ f ∈ fs.drop k, f.length = s.channels := fun f hf => h1 f (List.mem_of_mem_drop hf)
    have hlt : (fs.take k).flatten.length = k * s.channels := by
      rw [length_flatten_of ht, List.length_take, Nat.min_eq_left hk]
    have hsplit : fs.flatten = (fs.take k).flatten ++ (fs.drop k).flatten := by
      rw [← List.flatten_append, List.take_append_drop]
    have htake : fs.flatten.take (k * s.channels) = (fs.take k).flatten := by
      rw [hsplit, ← hlt, List.take_left]
    have hdrop : fs.flatten.drop (k * s.channels) = (fs.drop k).flatten := by
      rw [hsplit, ← hlt, List.drop_left]
    refine ⟨⟨(fs.take k).flatten, s.channels⟩, ⟨(fs.drop k).flatten, s.channels⟩, ?_, ?_, ?_, rfl, rfl,
      ?_, ?_⟩
    · have : k * s.channels ≤ s.data.length := by rw [h2]; exact hlen
      simp only [Samples.splitAt, Run.bind_eq, Run.assert_true this, Run.done_bind]
      rw [h2, htake, hdrop]
    · exact ⟨h.1, by simp only; rw [length_flatten_of ht]; simp⟩
    · exact ⟨h.1, by simp only; rw [length_flatten_of hd]; simp⟩
    · exact chunksExact_flatten h.1 ht
    · exact chunksExact_flatten h.1 hd

/-- Frame `i` of planar data. -/
def planarFrame (data : List (List T)) (i : Nat) : List T := data.filterMap (·[i]?)

theorem planarFrame_length {data : List (List T)} {i : Nat} (h : ∀ ch ∈ data, i < ch.length) :
    (planarFrame data i).length = data.length := by
  induction data with
  | nil => rfl
  | cons d ds ih =>
    rw [List.forall_mem_cons] at h
    have hd : d[i]? = some d[i] := List.getElem?_eq_getElem h.1
    have := ih h.2
    simp only [planarFrame] at this ⊢
    simp [List.filterMap_cons, hd, this]

theorem planarFrame_getElem? {data : List (List T)} {i : Nat} (h : ∀ ch ∈ data, i < ch.length)
    (c : Nat) : (planarFrame data i)[c]? = data[c]? >>= (·[i]?) := by
  induction data generalizing c with
  | nil => rfl
  | cons d ds ih =>
    rw [List.forall_mem_cons] at h
    have hd : d[i]? = some d[i] := List.getElem?_eq_getElem h.1
    simp only [planarFrame, List.filterMap_cons, hd]
    cases c with
    | zero => simp [hd]
    | succ c =>
      have := ih h.2 c
      simp only [planarFrame] at this
      simpa using this

theorem planar_forL {data : List (List T)} {i : Nat} (h : ∀ ch ∈ data, i < ch.length) :
    Run.forL (fun ch => Run.index ch i) data = .done (planarFrame data i) := by
  induction data with
  | nil => rfl
  | cons d ds ih =>
    rw [List.forall_mem_cons] at h
    have hd : d[i]? = some d[i] := List.getElem?_eq_getElem h.1
    simp [Run.forL, Run.index_some hd, ih h.2, planarFrame, List.filterMap_cons, hd]

theorem column_planar {data : List (List T)} {start n : Nat} {ch : List T} {c : Nat}
    (h : ∀ ch ∈ data, start + n ≤ ch.length) (hc : data[c]? = some ch) :
    column c ((List.range n).map fun i => planarFrame data (start + i)) =
      (ch.drop start).take n := by
  have hch : start + n ≤ ch.length := h ch (List.mem_of_getElem? hc)
  induction n with
  | zero => rfl
  | succ n ih =>
    have h' : ∀ ch ∈ data, start + n < ch.length := fun x hx => by have := h x hx; omega
    rw [List.range_succ, List.map_append, column_append, ih (fun x hx => by have := h x hx; omega)
      (by omega), List.take_add_one]
    congr 1
    have hx : ch[start + n]? = some (ch[start + n]'(by omega)) := List.getElem?_eq_getElem _
    simp only [column, List.map_cons, List.map_nil, List.filterMap_cons, List.filterMap_nil,
      planarFrame_getElem? h', hc, Option.bind_eq_bind, Option.bind_some, hx, List.getElem?_drop]
    rfl

instance : LawfulSamples Planar where
  WF s := s.data ≠ [] ∧ s.start ≤ s.stop ∧ ∀ ch ∈ s.data, s.stop ≤ ch.length
  toFrames s := (List.range (s.stop - s.start)).map fun i => planarFrame s.data (s.start + i)
  frames_eq _ := by simp [Samples.frames]
  rect {T s} h f hf := by
    obtain ⟨i, hi, rfl⟩ := List.mem_map.1 hf
    have hi := List.mem_range.1 hi
    exact planarFrame_length fun ch hch => by have := h.2.2 ch hch; omega
  sample_eq {T s} h c hc := by
    have hc' : c < s.data.length := hc
    have hget : s.data[c]? = some s.data[c] := List.getElem?_eq_getElem hc'
    have hmem := List.mem_of_getElem? hget
    simp only [Samples.foreachSample, Run.bind_eq, Run.assert_true hc', Run.done_bind,
      Run.index_some hget]
    rw [column_planar (fun ch hch => by have := h.2.2 ch hch; omega) hget, Run.slice,
      if_pos ⟨h.2.1, h.2.2 _ hmem⟩]
  frame_eq {T s} h := by
    have : s.data.length = s.data.length := rfl
    simp only [Samples.foreachFrame, Run.bind_eq, Samples.channels, Run.assert_true this,
      Run.done_bind]
    apply Run.forL_done
    intro i hi
    have hi := List.mem_range.1 hi
    exact planar_forL fun ch hch => by have := h.2.2 ch hch; omega
  split_eq {T s} h k hk := by
    simp only [List.length_map, List.length_range] at hk
    have hst := h.2.1
    refine ⟨⟨s.data, s.start, s.start + k⟩, ⟨s.data, s.start + k, s.stop⟩, ?_, ?_, ?_, rfl, rfl, ?_, ?_⟩
    · have : s.start + k ≤ s.stop := by omega
      simp only [Samples.splitAt, Run.bind_eq, Run.assert_true this, Run.done_bind]
    · exact ⟨h.1, by simp, fun ch hch => by have := h.2.2 ch hch; simp only; omega⟩
    · exact ⟨h.1, by simp only; omega, h.2.2⟩
    · simp only [← List.map_take, List.take_range]
      congr 2
      omega
    · simp only [← List.map_drop]
      apply List.ext_getElem?
      intro i
      simp only [List.getElem?_map, List.getElem?_drop, List.getElem?_range]
      by_cases hi : i < s.stop - (s.start + k)
      · rw [List.getElem?_range hi, List.getElem?_range (by omega)]
        simp only [Option.map_some]
        congr 2
        omega
      · rw [List.getElem?_eq_none (by simp; omega), List.getElem?_eq_none (by simp; omega)]
        rfl

theorem interleaved_new_ok {data : List T} {n : Nat} {s : Interleaved T}
    (h : Interleaved.new data n = .ok s) : LawfulSamples.WF s ∧ s = ⟨data, n⟩ ∧ n ≠ 0 := by
  unfold Interleaved.new at h
  split at h
  · cases h
  · split at h
    · cases h
    · cases h
      next h1 h2 => exact ⟨⟨h1, by simpa using h2⟩, rfl, h1⟩

theorem planar_new_ok {data : List (List T)} {s : Planar T}
    (h : Planar.new data = .ok s) :
    LawfulSamples.WF s ∧ s.data = data ∧ data ≠ [] ∧ s.start = 0 ∧ ∀ d ∈ data, d.length = s.stop := by
  unfold Planar.new at h
  split at h
  · cases h
  · next d0 rest =>
    split at h
    · cases h
    · next h1 =>
      cases h
      simp only [Bool.not_eq_true, List.any_eq_false, decide_eq_true_eq, ne_eq,
        Decidable.not_not] at h1
      have h1' : ∀ d ∈ d0 :: rest, d.length = d0.length := fun d hd => (h1 d hd).symm
      exact ⟨⟨by simp, by simp, fun ch hch => by simp only; rw [h1' ch hch]; omega⟩, rfl, by simp, rfl, h1'⟩

end Verif
