import Verif.Proofs.Tick
import Verif.Spec.Meter
/-! # The analyzer follows the specified meter -/

set_option linter.unusedSimpArgs false

namespace Verif
variable {D S T : Type} {Sm : Type → Type}
open Spec

/-! ## Lists -/

theorem Spec.internal_snoc (A : Arith D) (a : V5 D) (z : D) (xs : List D) (x : D) :
    internal A a z (xs ++ [x]) =
      A.sub (A.sub (A.sub (A.sub x (A.mul a.v1 (past z (internal A a z xs) 0)))
        (A.mul a.v2 (past z (internal A a z xs) 1))) (A.mul a.v3 (past z (internal A a z xs) 2)))
        (A.mul a.v4 (past z (internal A a z xs) 3)) :: internal A a z xs := by
  unfold internal
  rw [List.foldl_append]
  rfl

theorem Spec.filtered_length (A : Arith D) (b a : V5 D) (z : D) (xs : List D) :
    (filtered A b a z xs).length = xs.length := by simp [filtered]

theorem Spec.filtered_snoc (A : Arith D) (b a : V5 D) (z : D) (xs : List D) (x : D) :
    filtered A b a z (xs ++ [x]) = filtered A b a z xs ++ [response A b z (internal A a z (xs ++ [x]))] := by
  simp only [filtered, List.length_append, List.length_singleton, List.range_succ, List.map_append,
    List.map_cons, List.map_nil]
  congr 1
  · apply List.map_congr_left
    intro k hk
    rw [List.mem_range] at hk
    rw [List.take_append_of_le_length (by omega)]
  · rw [List.take_of_length_le (by simp)]

theorem Spec.chan_append (z : D) (c : Nat) (evs evs' : List (Event D)) :
    chan z c (evs ++ evs') = chan z c evs ++ chan z c evs' := by simp [chan]

theorem Spec.chan_length (z : D) (c : Nat) (evs : List (Event D)) : (chan z c evs).length = evs.length := by
  simp [chan]

theorem Spec.outs_snoc (A : Arith D) (b a : V5 D) (z : D) (evs : List (Event D)) (ev : Event D) (c : Nat) :
    outs A b a z (evs ++ [ev]) c = outs A b a z evs c ++
      if ev.measured then [response A b z (internal A a z (chan z c (evs ++ [ev])))] else [] := by
  unfold outs
  rw [chan_append]
  show List.filterMap _ ((filtered A b a z (chan z c evs ++ [ev.frame.getD c z])).zip _) = _
  rw [filtered_snoc, List.zip_append (by rw [filtered_length, chan_length]), List.filterMap_append]
  congr 1
  simp only [List.zip_cons_cons, List.zip_nil_right, List.filterMap_cons, List.filterMap_nil]
  cases ev.measured <;> rfl

theorem Spec.outs_length (A : Arith D) (b a : V5 D) (z : D) (evs : List (Event D)) (c : Nat) :
    (outs A b a z evs c).length = count evs := by
  unfold outs count
  have : ∀ (l : List D) (evs : List (Event D)), l.length = evs.length →
      ((List.zip l evs).filterMap fun p => if p.2.measured then some p.1 else none).length =
        (evs.filter (·.measured)).length := by
    intro l evs
    induction evs generalizing l with
    | nil => intro _; simp
    | cons ev evs ih =>
      intro h
      cases l with
      | nil => simp at h
      | cons x l =>
        have := ih l (by simpa using h)
        simp only [List.zip_cons_cons, List.filterMap_cons, List.filter_cons]
        cases ev.measured
        · simpa using this
        · simpa using this
  exact this _ _ (by rw [filtered_length, chan_length])

theorem Spec.outs_prefix (A : Arith D) (b a : V5 D) (z : D) (evs evs' : List (Event D)) (c : Nat) :
    ∃ l, outs A b a z (evs ++ evs') c = outs A b a z evs c ++ l := by
  induction evs' generalizing evs with
  | nil => exact ⟨[], by simp⟩
  | cons ev evs' ih =>
    obtain ⟨l, hl⟩ := ih (evs ++ [ev])
    rw [List.append_assoc, outs_snoc, List.append_assoc] at hl
    exact ⟨_, hl⟩

theorem Spec.count_append (evs evs' : List (Event D)) : count (evs ++ evs') = count evs + count evs' := by
  simp [count]

theorem Spec.lastN_length (z : D) (N : Nat) (ys : List D) : (lastN z N ys).length = N := by
  simp [lastN]

theorem Spec.lastN_snoc (z : D) {N : Nat} (hN : 0 < N) (ys : List D) (y : D) :
    lastN z N (ys ++ [y]) = (lastN z N ys).drop 1 ++ [y] := by
  simp only [lastN, List.length_append, List.length_singleton, List.drop_drop]
  rw [← List.append_assoc, List.drop_append_of_le_length (by simp; omega)]

theorem Spec.lastN_le (z : D) {M N : Nat} (h : M ≤ N) (ys : List D) :
    lastN z M ys = (lastN z N ys).drop (N - M) := by
  obtain ⟨k, rfl⟩ : ∃ k, N = k + M := ⟨N - M, by omega⟩
  simp only [lastN, List.drop_drop]
  rw [← List.replicate_append_replicate, Nat.add_sub_cancel, List.append_assoc,
    Nat.add_comm ys.length k, ← List.drop_drop (j := k), List.drop_left' (List.length_replicate ..)]

/-! ## The ring -/

/-- The ring row holding the last values `w`, next write at `r`. -/
def ringOf (r : Nat) (w : List D) : List D := w.drop (w.length - r) ++ w.take (w.length - r)

theorem ringOf_length (r : Nat) (w : List D) : (ringOf r w).length = w.length := by
  simp only [ringOf, List.length_append, List.length_drop, List.length_take]; omega

theorem ringOf_zero (w : List D) : ringOf 0 w = w := by simp [ringOf]

theorem ringOf_full (w : List D) : ringOf w.length w = w := by simp [ringOf]

theorem ringOf_append (B A : List D) : ringOf A.length (B ++ A) = A ++ B := by
  unfold ringOf
  rw [List.length_append, Nat.add_sub_cancel, List.drop_left' rfl, List.take_left' rfl]

theorem ringOf_write {r : Nat} {w : List D} (h : r < w.length) (y : D) :
    writeAt (ringOf r w) r [y] = ringOf (r + 1) (w.drop 1 ++ [y]) := by
  obtain ⟨B, A, rfl, hA⟩ : ∃ B A, w = B ++ A ∧ A.length = r :=
    ⟨w.take (w.length - r), w.drop (w.length - r), (List.take_append_drop _ _).symm,
      by rw [List.length_drop]; omega⟩
  subst hA
  cases B with
  | nil => simp at h
  | cons b B =>
    have h1 : ringOf A.length (b :: B ++ A) = A ++ (b :: B) := ringOf_append _ _
    have h2 : ringOf (A.length + 1) ((b :: B ++ A).drop 1 ++ [y]) = A ++ y :: B := by
      have := ringOf_append B (A ++ [y])
      simpa using this
    rw [h1, h2]
    simp [writeAt]

theorem ringOf_window {r N n L : Nat} {w : List D} (hL : w.length = L) (hN : N ≤ L) (hr : r ≤ L)
    (hn : r = n % L ∨ (r = L ∧ n % L = 0)) :
    ringWindow N r (ringOf r w) = readOrder L n (w.drop (L - N)) := by
  obtain ⟨B, A, rfl, hA⟩ : ∃ B A, w = B ++ A ∧ A.length = r :=
    ⟨w.take (w.length - r), w.drop (w.length - r), (List.take_append_drop _ _).symm,
      by rw [List.length_drop]; omega⟩
  subst hA
  have h1 : ringOf A.length (B ++ A) = A ++ B := ringOf_append _ _
  have hlen : B.length + A.length = L := by simpa using hL
  have hwl : ((B ++ A).drop (L - N)).length = N := by simp; omega
  rw [h1]
  unfold ringWindow readOrder
  rw [hwl]
  by_cases hlt : A.length < N
  · rw [if_pos hlt]
    have hnm : n % L = A.length := by
      rcases hn with h | ⟨h, -⟩
      · exact h.symm
      · omega
    have hd : (B.drop (L - N)).length = N - A.length := by rw [List.length_drop]; omega
    rw [if_pos (by omega), hnm, List.take_left' rfl, List.length_append,
      List.drop_append_of_le_length (l₁ := B) (by omega), List.drop_left' hd, List.take_left' hd,
      show A.length + B.length - N + A.length = A.length + (L - N) by omega, ← List.drop_drop,
      List.drop_left' rfl]
  · rw [if_neg hlt, List.take_left' rfl]
    have e1 : (B ++ A).drop (L - N) = A.drop (A.length - N) := by
      rw [List.drop_append, List.drop_eq_nil_of_le (by omega), List.nil_append]
      congr 1; omega
    rw [e1]
    rcases hn with h | ⟨h, h0⟩
    · rw [if_neg (by omega)]
    · rw [h0]
      split
      · rw [e1] at hwl
        rw [Nat.sub_zero, List.drop_of_length_le (Nat.le_of_eq hwl), List.take_of_length_le (Nat.le_of_eq hwl),
          List.nil_append]
      · rfl

/-! ## Entries of the rows and states -/

theorem statesP_get (E : Env D S) (ops : SampleOps D S T) (f : Filter D S) (fs : List (List T))
    (cm : List Channel) {c : Nat} {ch : Channel} {st : V5 D} (h1 : cm[c]? = some ch)
    (h2 : f.filterState[c]? = some st) :
    (statesP E ops f fs cm)[c]? = some (chanState E f ch st (colF64 ops c fs)) := by
  unfold statesP
  rw [List.getElem?_map, List.getElem?_zipIdx, zip_some h1 h2]
  simp

theorem rowsP_get (E : Env D S) (ops : SampleOps D S T) (f : Filter D S) (fs : List (List T))
    (rows : List (List D)) (idx : Nat) (cm : List Channel) {c : Nat} {ch : Channel} {st : V5 D}
    {row : List D} (h1 : cm[c]? = some ch) (h2 : f.filterState[c]? = some st)
    (h3 : rows[c]? = some row) :
    (rowsP E ops f fs rows idx cm)[c]? = some (chanRow E f ch st row idx (colF64 ops c fs)) := by
  unfold rowsP
  rw [List.getElem?_map, List.getElem?_zipIdx, zip_some (zip_some h1 h2) h3]
  simp

/-! ## The energy of a block -/

theorem weightChannel_eq (A : Arith D) (ch : Channel) (s : D) :
    weightChannel A ch s = weighted A ch s := by
  cases ch <;> rfl

theorem energyP_spec {E : Env D S} {N idx : Nat} {rows : List (List D)} {cm : List Channel}
    {f : Nat → D} (hlen : rows.length = cm.length)
    (h : ∀ (c : Nat) (ch : Channel) (row : List D), cm[c]? = some ch → ch ≠ .unused → rows[c]? = some row →
      sumSquares E.f64 E.f64.zero (ringWindow N idx row) = f c) :
    gatingP E N rows idx cm = E.f64.div (channelSum E.f64 cm f) (E.f64.ofInt N) := by
  unfold gatingP channelSum
  congr 1
  have key : ∀ (cm : List Channel) (rows : List (List D)) (k : Nat) (s : D), rows.length = cm.length →
      (∀ (c : Nat) (ch : Channel) (row : List D), cm[c]? = some ch → ch ≠ .unused → rows[c]? = some row →
        sumSquares E.f64 E.f64.zero (ringWindow N idx row) = f (k + c)) →
      (List.zip cm rows).foldl (addChan E.f64 N idx) s =
        (cm.zipIdx k).foldl (fun s x => if x.1 = .unused then s
          else E.f64.add s (weighted E.f64 x.1 (f x.2))) s := by
    intro cm
    induction cm with
    | nil => intro rows k s _ _; simp
    | cons ch cm ih =>
      intro rows k s hl hh
      cases rows with
      | nil => simp at hl
      | cons row rows =>
        simp only [List.zip_cons_cons, List.foldl_cons, List.zipIdx_cons]
        rw [ih rows (k + 1) _ (by simpa using hl) (fun c ch' row' h1 h2 h3 => by
          have := hh (c + 1) ch' row' (by simpa using h1) h2 (by simpa using h3)
          rw [this]; congr 1; omega)]
        congr 1
        unfold addChan
        split
        · rfl
        · next hu =>
          have := hh 0 ch row (by simp) hu (by simp)
          rw [chanEnergyP, this, weightChannel_eq]
          rfl
  exact key cm rows 0 _ hlen (fun c ch row h1 h2 h3 => by rw [Nat.zero_add]; exact h c ch row h1 h2 h3)

/-! ## Block times -/

theorem Spec.blockEnds_succ {s : Nat} (hs : 0 < s) (n : Nat) :
    blockEnds s (n + 1) = blockEnds s n ++ if (n + 1) % s = 0 ∧ 4 * s ≤ n + 1 then [n + 1] else [] := by
  unfold blockEnds
  by_cases h : (n + 1) % s = 0
  · have hd : (n + 1) / s = n / s + 1 := by
      rw [Nat.succ_div, if_pos (Nat.dvd_of_mod_eq_zero h)]
    have hm : (n / s + 1) * s = n + 1 := by
      rw [← hd]; exact Nat.div_mul_cancel (Nat.dvd_of_mod_eq_zero h)
    rw [hd, List.range_succ (n := n / s + 1), List.filter_append, List.map_append]
    congr 1
    by_cases h4 : 4 ≤ n / s + 1
    · have : 4 * s ≤ n + 1 := by rw [← hm]; exact Nat.mul_le_mul_right s h4
      rw [if_pos ⟨h, this⟩]
      simp [h4, hm]
    · have : ¬ 4 * s ≤ n + 1 := by
        rw [← hm]; intro hh; exact h4 (Nat.le_of_mul_le_mul_right hh hs)
      rw [if_neg (fun hh => this hh.2)]
      simp [h4]
  · rw [if_neg (fun hh => h hh.1), List.append_nil, Nat.succ_div, if_neg (fun hh => h (Nat.mod_eq_zero_of_dvd hh))]

theorem Spec.shortEnds_succ {s : Nat} (hs : 0 < s) (n : Nat) :
    shortEnds s (n + 1) = shortEnds s n ++
      if (n + 1) % (10 * s) = 0 ∧ 30 * s ≤ n + 1 then [n + 1] else [] := by
  unfold shortEnds
  by_cases h : (n + 1) % s = 0
  · have hd : (n + 1) / s = n / s + 1 := by
      rw [Nat.succ_div, if_pos (Nat.dvd_of_mod_eq_zero h)]
    have hm : (n / s + 1) * s = n + 1 := by
      rw [← hd]; exact Nat.div_mul_cancel (Nat.dvd_of_mod_eq_zero h)
    rw [hd, List.range_succ (n := n / s + 1), List.filter_append, List.map_append]
    congr 1
    have e1 : (n + 1) % (10 * s) = 0 ↔ (n / s + 1) % 10 = 0 := by
      rw [← hm, Nat.mul_mod_mul_right]
      constructor
      · intro hh; rcases Nat.mul_eq_zero.1 hh with h' | h'
        · exact h'
        · omega
      · intro hh; rw [hh, Nat.zero_mul]
    have e2 : 30 * s ≤ n + 1 ↔ 30 ≤ n / s + 1 := by
      rw [← hm]
      exact ⟨fun hh => Nat.le_of_mul_le_mul_right hh hs, Nat.mul_le_mul_right s⟩
    by_cases h4 : 30 ≤ n / s + 1 ∧ (n / s + 1) % 10 = 0
    · rw [if_pos ⟨e1.2 h4.2, e2.2 h4.1⟩]
      simp [h4, hm]
    · rw [if_neg (fun hh => h4 ⟨e2.1 hh.2, e1.1 hh.1⟩)]
      simp only [List.filter_cons, List.filter_nil]
      rw [if_neg (by simpa using h4)]
      rfl
  · have h' : ¬ (n + 1) % (10 * s) = 0 := fun hh => h (by
      have := Nat.dvd_of_mod_eq_zero hh
      exact Nat.mod_eq_zero_of_dvd (Nat.dvd_trans (Nat.dvd_mul_left s 10) this))
    rw [if_neg (fun hh => h' hh.1), List.append_nil, Nat.succ_div, if_neg (fun hh => h (Nat.mod_eq_zero_of_dvd hh))]

theorem Spec.mem_blockEnds {s n m : Nat} (hs : 0 < s) :
    m ∈ blockEnds s n ↔ m % s = 0 ∧ 4 * s ≤ m ∧ m ≤ n := by
  simp only [blockEnds, List.mem_map, List.mem_filter, List.mem_range, decide_eq_true_eq]
  constructor
  · rintro ⟨j, ⟨h1, h2⟩, rfl⟩
    refine ⟨Nat.mul_mod_left j s, Nat.mul_le_mul_right s h2, ?_⟩
    exact Nat.le_trans (Nat.mul_le_mul_right s (Nat.lt_succ_iff.1 h1)) (Nat.div_mul_le_self n s)
  · rintro ⟨h1, h2, h3⟩
    refine ⟨m / s, ⟨Nat.lt_succ_of_le (Nat.div_le_div_right h3), ?_⟩,
      Nat.div_mul_cancel (Nat.dvd_of_mod_eq_zero h1)⟩
    exact (Nat.le_div_iff_mul_le hs).2 h2

theorem Spec.mem_shortEnds {s n m : Nat} (hs : 0 < s) :
    m ∈ shortEnds s n ↔ m % (10 * s) = 0 ∧ 30 * s ≤ m ∧ m ≤ n := by
  simp only [shortEnds, List.mem_map, List.mem_filter, List.mem_range, decide_eq_true_eq]
  constructor
  · rintro ⟨j, ⟨h1, h2, h2'⟩, rfl⟩
    refine ⟨?_, Nat.mul_le_mul_right s h2, ?_⟩
    · rw [Nat.mul_mod_mul_right, h2', Nat.zero_mul]
    · exact Nat.le_trans (Nat.mul_le_mul_right s (Nat.lt_succ_iff.1 h1)) (Nat.div_mul_le_self n s)
  · rintro ⟨h1, h2, h3⟩
    have hd : s ∣ m := Nat.dvd_trans (Nat.dvd_mul_left s 10) (Nat.dvd_of_mod_eq_zero h1)
    refine ⟨m / s, ⟨Nat.lt_succ_of_le (Nat.div_le_div_right h3), ?_, ?_⟩, Nat.div_mul_cancel hd⟩
    · exact (Nat.le_div_iff_mul_le hs).2 h2
    · obtain ⟨j, rfl⟩ := Nat.dvd_of_mod_eq_zero h1
      rw [show 10 * s * j = (10 * j) * s by rw [Nat.mul_assoc, Nat.mul_comm s j, ← Nat.mul_assoc],
        Nat.mul_div_cancel _ hs]
      exact Nat.mul_mod_right 10 j

end Verif
