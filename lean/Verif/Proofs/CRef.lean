import Verif.Spec.CRef
import Verif.Proofs.Gating
import Verif.Proofs.FilterCore
import Mathlib.Tactic.IntervalCases
import Mathlib.Data.List.Forall2
/-! # The loops of the C reference -/

namespace Verif.CRef
open Spec
variable {D S T σ β : Type}

theorem foldL_range' {f : σ → Nat → Run σ} {g : σ → β → σ} (l : List β) (k : Nat) (s : σ)
    (h : ∀ s c x, l[c]? = some x → f s (k + c) = .done (g s x)) :
    Run.foldL f s (List.range' k l.length) = .done (l.foldl g s) := by
  induction l generalizing k s with
  | nil => rfl
  | cons x xs ih =>
    have hx := h s 0 x (by simp)
    simp only [List.length_cons, List.range'_succ, Run.foldL, List.foldl_cons]
    rw [Nat.add_zero] at hx
    rw [hx, Run.done_bind]
    exact ih (k + 1) (g s x) fun s c y hy => by
      have := h s (c + 1) y (by simpa using hy)
      rwa [show k + 1 + c = k + (c + 1) by omega]

/-- A loop over the indices of a list. -/
theorem loop_list {f : σ → Nat → Run σ} {g : σ → β → σ} (l : List β) {n : Nat} (hn : l.length = n) (s : σ)
    (h : ∀ s c x, l[c]? = some x → f s c = .done (g s x)) : loop 0 n s f = .done (l.foldl g s) := by
  subst hn
  unfold loop
  exact foldL_range' l 0 s fun s c x hx => by rw [Nat.zero_add]; exact h s c x hx

/-- A loop over the indices of a part of a list. -/
theorem loop_part {f : σ → Nat → Run σ} {g : σ → β → σ} (l : List β) {lo hi : Nat} (hlo : lo ≤ hi)
    (hhi : hi ≤ l.length) (s : σ) (h : ∀ s c x, c < hi → l[c]? = some x → f s c = .done (g s x)) :
    loop lo hi s f = .done (((l.take hi).drop lo).foldl g s) := by
  unfold loop
  have hl : ((l.take hi).drop lo).length = hi - lo := by simp; omega
  rw [← hl]
  refine foldL_range' _ lo s fun s c x hx => ?_
  rw [List.getElem?_drop, List.getElem?_take] at hx
  split at hx
  · exact h s _ x (by omega) hx
  · cases hx

/-! ### The block energy -/

theorem sumRange_eq (A : Arith D) {data row : List D} {n c lo hi : Nat} (hlo : lo ≤ hi)
    (hhi : hi ≤ row.length) (h : ∀ i, i < row.length → data[i * n + c]? = row[i]?) (acc : D) :
    sumRange A data n c lo hi acc = .done (sumSquares A acc ((row.take hi).drop lo)) := by
  unfold sumRange sumSquares
  refine loop_part row hlo hhi acc fun s i x hi' hx => ?_
  have hd : data[i * n + c]? = some x := by rw [h i (by omega), hx]
  simp [Run.index_some hd]

theorem code_zero {ch : Channel} {m : Nat} (h : IsCode ch m) : m = 0 ↔ ch = .unused := by
  have hl : m < 32 := (List.getElem?_eq_some_iff.1 h).1
  unfold IsCode at h
  interval_cases m <;> simp_all [channelTable] <;> subst h <;> decide

theorem code_weight (A : Arith D) {ch : Channel} {m : Nat} (h : IsCode ch m) (s : D) :
    (if m = 4 ∨ m = 5 ∨ m = 9 ∨ m = 10 ∨ m = 11 ∨ m = 12 then A.mul s (A.lit 141 100)
      else if m = 6 then A.mul s (A.lit 2 1) else s) = weightChannel A ch s := by
  have hl : m < 32 := (List.getElem?_eq_some_iff.1 h).1
  unfold IsCode at h
  interval_cases m <;> simp [channelTable] at h <;> subst h <;> rfl

theorem blockChannel_eq (A : Arith D) {fpb L idx n c m : Nat} {data row : List D} {map : List Nat}
    {ch : Channel} (hn : 0 < n) (hrow : row.length = L) (hi : idx ≤ L) (hf : fpb ≤ L)
    (hm : map[c]? = some m) (hch : IsCode ch m)
    (h : ∀ i, i < row.length → data[i * n + c]? = row[i]?) (sum : D) :
    blockChannel A fpb data L (idx * n) map n sum c = .done (addChan A fpb idx sum (ch, row)) := by
  unfold blockChannel addChan
  simp only [Run.bind_eq, Run.index_some hm, Run.done_bind, code_zero hch]
  split
  · rfl
  · rw [Nat.mul_div_cancel _ hn]
    by_cases hlt : idx < fpb
    · rw [if_pos (Nat.mul_lt_mul_of_pos_right hlt hn)]
      rw [sumRange_eq A (Nat.zero_le _) (by omega) h, Run.done_bind, if_neg (by omega),
        sumRange_eq A (by omega) (by omega) h, Run.done_bind, code_weight A hch]
      simp only [chanEnergyP, ringWindow, if_pos hlt, sumSquares_append, List.drop_zero]
      rw [List.take_of_length_le (l := row) (i := L) (by omega), hrow,
        show L - (fpb - idx) = L - fpb + idx by omega]
    · rw [if_neg (by intro hh; exact hlt (Nat.lt_of_mul_lt_mul_right hh))]
      rw [sumRange_eq A (by omega) (by omega) h, Run.done_bind, code_weight A hch]
      simp only [chanEnergyP, ringWindow, if_neg hlt]

/-! ### The filter -/

/-- A loop that keeps an invariant. -/
theorem loop_inv {f : σ → Nat → Run σ} (P : Nat → σ → Prop) {n : Nat} {s : σ} (h0 : P 0 s)
    (h : ∀ k s, k < n → P k s → ∃ s', f s k = .done s' ∧ P (k + 1) s') :
    ∃ s', loop 0 n s f = .done s' ∧ P n s' := by
  unfold loop
  rw [Nat.sub_zero]
  induction n with
  | zero => exact ⟨s, rfl, h0⟩
  | succ n ih =>
    obtain ⟨s', h1, h2⟩ := ih fun k s hk => h k s (by omega)
    obtain ⟨s'', h3, h4⟩ := h n s' (by omega) h2
    refine ⟨s'', ?_, h4⟩
    rw [List.range'_concat, Run.foldL_append, h1, Run.done_bind]
    simp [Run.foldL, h3]

theorem flatten_getElem? {n : Nat} {fs : List (List T)} (h : ∀ f ∈ fs, f.length = n) {c : Nat} (hc : c < n)
    (i : Nat) : fs.flatten[i * n + c]? = fs[i]? >>= (·[c]?) := by
  induction fs generalizing i with
  | nil => simp
  | cons f fs ih =>
    rw [List.forall_mem_cons] at h
    rw [List.flatten_cons]
    cases i with
    | zero =>
      rw [Nat.zero_mul, Nat.zero_add, List.getElem?_append_left (by omega)]
      simp
    | succ i =>
      rw [List.getElem?_append_right (by rw [h.1, Nat.succ_mul]; omega), h.1,
        show (i + 1) * n + c - n = i * n + c by rw [Nat.succ_mul]; omega, ih h.2]
      simp

/-- The samples of a channel of an interleaved array. -/
theorem column_data {n : Nat} (hn : n ≠ 0) {data : List T} (h : data.length % n = 0) {c : Nat} (hc : c < n)
    (i : Nat) : data[i * n + c]? = (column c (chunksExact n data))[i]? := by
  obtain ⟨h1, h2, _⟩ := chunksExact_rect hn data h
  rw [column_getElem? h1 hc]
  conv_lhs => rw [← h2]
  exact flatten_getElem? h1 hc i

theorem runFilter_get (A : Arith D) (b a st : V5 D) (ys : List D) {k : Nat} {y : D} (hy : ys[k]? = some y) :
    (runFilter A b a st (ys.take (k + 1))).1 =
        filterShift (runFilter A b a st (ys.take k)).1
          (filterIn A a (runFilter A b a st (ys.take k)).1 y) ∧
      (runFilter A b a st ys).2[k]? = some (filterOut A b (runFilter A b a st (ys.take k)).1
        (filterIn A a (runFilter A b a st (ys.take k)).1 y)) := by
  have hk : k < ys.length := (List.getElem?_eq_some_iff.1 hy).1
  have h1 : ys.take (k + 1) = ys.take k ++ [y] := by
    rw [List.take_add_one, hy]; rfl
  have h2 : ys = ys.take k ++ (y :: ys.drop (k + 1)) := by
    conv_lhs => rw [← List.take_append_drop (k + 1) ys, h1]
    simp
  refine ⟨by rw [h1, runFilter_append]; rfl, ?_⟩
  conv_lhs => rw [h2, runFilter_append]
  have hl : (runFilter A b a st (ys.take k)).2.length = k := by
    rw [runFilter_length, List.length_take]; omega
  simp only
  rw [List.getElem?_append_right (by omega), hl]
  simp [runFilter]

theorem div_mod_of {i n c : Nat} (hc : c < n) : (i * n + c) / n = i ∧ (i * n + c) % n = c := by
  have hn : 0 < n := by omega
  constructor
  · rw [Nat.mul_comm, Nat.mul_add_div hn, Nat.div_eq_of_lt hc, Nat.add_zero]
  · rw [Nat.mul_comm, Nat.mul_add_mod, Nat.mod_eq_of_lt hc]

theorem set_get (l : List D) {i : Nat} (hi : i < l.length) (y : D) (p : Nat) :
    (l.set i y)[p]? = if p = i then some y else l[p]? := by
  by_cases h : p = i
  · subst h; simp [hi]
  · simp [List.getElem?_set_ne (Ne.symm h), h]

/-- The sample loop of one channel. -/
theorem filterSamples {E : Env D S} {ops : SampleOps D S T} {cs : CSample D T} {f : Filter D S} {n c : Nat}
    (hch : f.channels = n) (hc : c < n) {data : List T} {xs : List T}
    (hx : ∀ i, i < xs.length → data[i * n + c]? = xs[i]?)
    (hop : ∀ x ∈ xs, ops.toF64 x = E.f64p.div (cs.toDouble x) cs.scale)
    (v : V5 D) {audio : List D} (ha : xs.length * n ≤ audio.length) :
    ∃ audio', loop 0 xs.length (v, audio) (filterSample E cs f data c) =
        .done ((runFilter E.f64p f.b f.a v (xs.map ops.toF64)).1, audio') ∧
      audio'.length = audio.length ∧
      ∀ p, audio'[p]? = if p % n = c ∧ p / n < xs.length then
        (runFilter E.f64p f.b f.a v (xs.map ops.toF64)).2[p / n]? else audio[p]? := by
  set ys := xs.map ops.toF64 with hys
  have hn : 0 < n := by omega
  have key := loop_inv (f := filterSample E cs f data c)
    (n := xs.length) (s := (v, audio))
    (fun k (s : V5 D × List D) => s.1 = (runFilter E.f64p f.b f.a v (ys.take k)).1 ∧
      s.2.length = audio.length ∧
      ∀ p, s.2[p]? = if p % n = c ∧ p / n < k then (runFilter E.f64p f.b f.a v ys).2[p / n]?
        else audio[p]?)
    ⟨by simp [runFilter], rfl, by simp⟩ ?_
  · obtain ⟨⟨v', audio'⟩, h1, h2, h3, h4⟩ := key
    refine ⟨audio', ?_, h3, h4⟩
    rw [h1]
    simp only at h2
    rw [h2, List.take_of_length_le (by simp [hys])]
  · rintro k ⟨w, au⟩ hk ⟨e1, e2, e3⟩
    simp only at e1 e2 e3
    have hxk : xs[k]? = some xs[k] := List.getElem?_eq_getElem hk
    have hd : data[k * n + c]? = some xs[k] := by rw [hx k hk, hxk]
    have hyk : ys[k]? = some (E.f64p.div (cs.toDouble xs[k]) cs.scale) := by
      rw [hys, List.getElem?_map, hxk, Option.map_some, hop _ (List.getElem_mem hk)]
    obtain ⟨r1, r2⟩ := runFilter_get E.f64p f.b f.a v ys hyk
    have hp : k * n + c < au.length := by
      have : (k + 1) * n ≤ xs.length * n := Nat.mul_le_mul_right n hk
      rw [Nat.succ_mul] at this
      omega
    refine ⟨(filterShift w (filterIn E.f64p f.a w (E.f64p.div (cs.toDouble xs[k]) cs.scale)),
      au.set (k * n + c) (filterOut E.f64p f.b w
        (filterIn E.f64p f.a w (E.f64p.div (cs.toDouble xs[k]) cs.scale)))), ?_, ?_, ?_, ?_⟩
    · simp [filterSample, hch, Run.index_some hd, setUnchecked, hp, filterIn, filterOut, filterShift]
    · simp only
      rw [r1, ← e1]
    · simp [e2]
    · intro p
      simp only
      rw [set_get au hp]
      obtain ⟨d1, d2⟩ := div_mod_of (i := k) hc
      split
      · next heq =>
        subst heq
        rw [d1, d2, if_pos ⟨rfl, by omega⟩, r2, e1]
      · next hne =>
        rw [e3 p]
        by_cases hpc : p % n = c
        · have hpk : p / n ≠ k := by
            intro hh
            apply hne
            rw [← hh, ← hpc, Nat.mul_comm]
            exact (Nat.div_add_mod p n).symm
          have : (p / n < k) ↔ (p / n < k + 1) := by omega
          simp only [this]
        · simp [hpc]

/-- The channel loop of the filter. -/
theorem filterChannels {E : Env D S} {ops : SampleOps D S T} {cs : CSample D T} {g : Filter D S} {n : Nat}
    (hn : 0 < n) (hch : g.channels = n) (hv : g.v.length = n) {data : List T} (hdata : data.length % n = 0)
    (hop : ∀ x ∈ data, ops.toF64 x = E.f64p.div (cs.toDouble x) cs.scale)
    {cm : List Channel} {codes : List Nat} (hcm : cm.length = n) (hcodes : List.Forall₂ IsCode cm codes)
    {audio : List D} (ha : data.length ≤ audio.length) :
    ∃ vs' audio', loop 0 n (g.v, audio) (filterChannel E cs g (data.length / n) data codes) =
        .done (vs', audio') ∧ vs'.length = n ∧ audio'.length = audio.length ∧
      ∀ c ch v, cm[c]? = some ch → g.v[c]? = some v →
        vs'[c]? = some (if ch = .unused then v else flushManually E
          (runFilter E.f64p g.b g.a v (colF64 ops c (chunksExact n data))).1) ∧
        ∀ i, audio'[i * n + c]? = if ch ≠ .unused ∧ i < data.length / n then
          (runFilter E.f64p g.b g.a v (colF64 ops c (chunksExact n data))).2[i]? else audio[i * n + c]? := by
  have hn' : n ≠ 0 := by omega
  obtain ⟨hr, hfl, hlen⟩ := chunksExact_rect hn' data hdata
  have key := loop_inv (f := filterChannel E cs g (data.length / n) data codes) (n := n)
    (s := (g.v, audio))
    (fun k (s : List (V5 D) × List D) => s.1.length = n ∧ s.2.length = audio.length ∧
      ∀ c ch v, cm[c]? = some ch → g.v[c]? = some v →
        s.1[c]? = some (if ch = .unused ∨ k ≤ c then v else flushManually E
          (runFilter E.f64p g.b g.a v (colF64 ops c (chunksExact n data))).1) ∧
        ∀ i, s.2[i * n + c]? = if (ch ≠ .unused ∧ c < k) ∧ i < data.length / n then
          (runFilter E.f64p g.b g.a v (colF64 ops c (chunksExact n data))).2[i]? else audio[i * n + c]?)
    ⟨hv, rfl, fun c ch v h1 h2 => ⟨by simpa using h2, by simp⟩⟩ ?_
  · obtain ⟨⟨vs', audio'⟩, h1, h2, h3, h4⟩ := key
    refine ⟨vs', audio', h1, h2, h3, fun c ch v e1 e2 => ?_⟩
    have hc : c < n := by rw [← hcm]; exact (List.getElem?_eq_some_iff.1 e1).1
    have := h4 c ch v e1 e2
    simpa [hc, Nat.not_le.2 hc] using this
  · rintro k ⟨vs, au⟩ hk ⟨e1, e2, e3⟩
    simp only at e1 e2 e3
    have hcmk : cm[k]? = some (cm[k]'(by omega)) := List.getElem?_eq_getElem _
    have hgk : g.v[k]? = some (g.v[k]'(by omega)) := List.getElem?_eq_getElem _
    have hclen := hcodes.length_eq
    have hcode : codes[k]? = some (codes[k]'(by omega)) := List.getElem?_eq_getElem _
    have hic : IsCode (cm[k]'(by omega)) (codes[k]'(by omega)) := hcodes.get (by omega) (by omega)
    set ch := cm[k]'(by omega) with hch'
    set v := g.v[k]'(by omega) with hv'
    set m := codes[k]'(by omega) with hm'
    by_cases hu : ch = .unused
    · refine ⟨(vs, au), ?_, e1, e2, ?_⟩
      · simp [filterChannel, Run.index_some hcode, (code_zero hic).2 hu]
      · intro c ch2 v2 f1 f2
        have := e3 c ch2 v2 f1 f2
        by_cases hck : c = k
        · subst hck
          obtain rfl : ch = ch2 := Option.some.inj (hcmk.symm.trans f1)
          simpa [hu] using this
        · have h1 : k ≤ c ↔ k + 1 ≤ c := by omega
          have h2 : c < k ↔ c < k + 1 := by omega
          simpa only [h1, h2] using this
    · have hm0 : m ≠ 0 := fun h => hu ((code_zero hic).1 h)
      have hvk : vs[k]? = some v := by
        have := (e3 k ch v hcmk hgk).1
        simpa using this
      set xs := column k (chunksExact n data) with hxs
      have hxl : xs.length = data.length / n := by rw [hxs, column_length hr hk, hlen]
      have hxd : ∀ i, i < xs.length → data[i * n + k]? = xs[i]? := fun i _ => column_data hn' hdata hk i
      have hxm : ∀ x ∈ xs, ops.toF64 x = E.f64p.div (cs.toDouble x) cs.scale := by
        intro x hx
        obtain ⟨i, hi, rfl⟩ := List.mem_iff_getElem.1 hx
        have := hxd i hi
        rw [List.getElem?_eq_getElem hi] at this
        exact hop _ (List.mem_of_getElem? this)
      have hal : xs.length * n ≤ au.length := by
        rw [e2, hxl]
        exact Nat.le_trans (Nat.div_mul_le_self _ _) ha
      obtain ⟨au', g1, g2, g3⟩ := filterSamples (E := E) (ops := ops) (cs := cs) (f := g) hch hk hxd hxm v
        hal
      rw [hxl] at g1 g3
      refine ⟨(vs.set k (flushManually E (runFilter E.f64p g.b g.a v (xs.map ops.toF64)).1), au'),
        ?_, by simp [e1], by rw [g2, e2], ?_⟩
      · simp only [filterChannel, Run.bind_eq, Run.index_some hcode, Run.done_bind, if_neg hm0,
          Run.index_some hvk]
        rw [g1, Run.done_bind]
        simp [setUnchecked, e1, hk]
      · intro c ch2 v2 f1 f2
        have hcn : c < n := by rw [← hcm]; exact (List.getElem?_eq_some_iff.1 f1).1
        have hold := e3 c ch2 v2 f1 f2
        by_cases hck : c = k
        · subst hck
          obtain rfl : ch = ch2 := Option.some.inj (hcmk.symm.trans f1)
          obtain rfl : v = v2 := Option.some.inj (hgk.symm.trans f2)
          refine ⟨?_, fun i => ?_⟩
          · rw [List.getElem?_set_self (by omega)]
            simp [hu, hxs, colF64]
          · obtain ⟨d1, d2⟩ := div_mod_of (i := i) hcn
            simp only
            rw [g3, d1, d2, hold.2 i]
            simp [hu, hxs, colF64]
        · refine ⟨?_, fun i => ?_⟩
          · have h1 : k ≤ c ↔ k + 1 ≤ c := by omega
            rw [List.getElem?_set_ne (Ne.symm hck), hold.1]
            simp only [h1]
          · obtain ⟨d1, d2⟩ := div_mod_of (i := i) hcn
            have h2 : c < k ↔ c < k + 1 := by omega
            simp only
            rw [g3, d2, if_neg (by simp [hck]), hold.2 i]
            simp only [h2]

/-! ### The sample peak -/

theorem keepMax_fold {E : Env D S} {ops : SampleOps D S T} {cs : CSample D T} {ok : D → Prop}
    (h0 : ok E.f64p.zero)
    (hmax : ∀ m x, ok m → keepMax E.f64p m x = maxBy E.f64p.lt m (E.f64p.abs x) ∧
      ok (maxBy E.f64p.lt m (E.f64p.abs x)))
    (hraw : ∀ x, ops.raw x = cs.toDouble x) (xs : List T) :
    xs.foldl (fun m x => keepMax E.f64p m (cs.toDouble x)) E.f64p.zero = chanMax E ops xs := by
  unfold chanMax
  generalize E.f64p.zero = z at h0
  induction xs generalizing z with
  | nil => rfl
  | cons x xs ih =>
    obtain ⟨h1, h2⟩ := hmax z (cs.toDouble x) h0
    simp only [List.foldl_cons, hraw]
    rw [h1]
    simp only [hraw] at ih
    exact ih _ h2

/-- The sample peak loop. -/
theorem samplePeaks {E : Env D S} {ops : SampleOps D S T} {cs : CSample D T} {n : Nat} (hn : 0 < n)
    {data : List T} (hdata : data.length % n = 0)
    {ok : D → Prop} (h0 : ok E.f64p.zero)
    (hmax : ∀ m x, ok m → keepMax E.f64p m x = maxBy E.f64p.lt m (E.f64p.abs x) ∧
      ok (maxBy E.f64p.lt m (E.f64p.abs x)))
    (hraw : ∀ x, ops.raw x = cs.toDouble x) (hscale : ops.maxAmp = cs.scale) {sp : List D}
    (hsp : sp.length = n) :
    loop 0 n sp (samplePeakChannel E cs n (data.length / n) data) =
      .done (sp.zipIdx.map fun x => maxBy E.f64p.lt x.1
        (E.f64p.div (chanMax E ops (column x.2 (chunksExact n data))) ops.maxAmp)) := by
  have hn' : n ≠ 0 := by omega
  obtain ⟨hr, hfl, hlen⟩ := chunksExact_rect hn' data hdata
  have key := loop_inv (f := samplePeakChannel E cs n (data.length / n) data) (n := n) (s := sp)
    (fun k (s : List D) => s = sp.zipIdx.map fun x => if x.2 < k then maxBy E.f64p.lt x.1
        (E.f64p.div (chanMax E ops (column x.2 (chunksExact n data))) ops.maxAmp) else x.1)
    (by simp) ?_
  · obtain ⟨s, h1, rfl⟩ := key
    rw [h1]
    refine congrArg _ (List.map_congr_left ?_)
    rintro ⟨x, c⟩ hx
    have : c < n := by rw [← hsp]; simpa using List.snd_lt_of_mem_zipIdx hx
    simp [this]
  · rintro k s hk rfl
    have hxl : (column k (chunksExact n data)).length = data.length / n := by rw [column_length hr hk, hlen]
    refine ⟨_, ?_, rfl⟩
    have hin : loop 0 (data.length / n) E.f64p.zero (fun max i => do
        let s ← Run.index data (i * n + k)
        let cur := cs.toDouble s
        Run.done (if E.f64p.lt max (cmax E.f64p cur (E.f64p.neg cur)) then
          cmax E.f64p cur (E.f64p.neg cur) else max)) =
        .done (chanMax E ops (column k (chunksExact n data))) := by
      rw [← keepMax_fold h0 hmax hraw]
      refine loop_list (g := fun m x => keepMax E.f64p m (cs.toDouble x)) _ hxl _ fun m i x hx => ?_
      have hd : data[i * n + k]? = some x := by rw [column_data hn' hdata hk i, hx]
      simp only [Run.bind_eq, Run.index_some hd, Run.done_bind, keepMax]
    have hspk : sp[k]? = some (sp[k]'(by omega)) := List.getElem?_eq_getElem _
    set L := (sp.zipIdx.map fun x => if x.2 < k then maxBy E.f64p.lt x.1
        (E.f64p.div (chanMax E ops (column x.2 (chunksExact n data))) ops.maxAmp) else x.1) with hL
    have hLk : L[k]? = some (sp[k]'(by omega)) := by simp [hL, hspk]
    have hLl : L.length = n := by simp [hL, hsp]
    simp only [samplePeakChannel]
    rw [hin]
    simp only [Run.bind_eq, Run.done_bind, Run.index_some hLk, setUnchecked, hLl, hk, if_true]
    have hset : ∀ y : D, y = maxBy E.f64p.lt (sp[k]'(by omega))
        (E.f64p.div (chanMax E ops (column k (chunksExact n data))) ops.maxAmp) →
        L.set k y = sp.zipIdx.map fun x => if x.2 < k + 1 then maxBy E.f64p.lt x.1
          (E.f64p.div (chanMax E ops (column x.2 (chunksExact n data))) ops.maxAmp) else x.1 := by
      rintro y rfl
      apply List.ext_getElem?
      intro p
      rw [set_get L (by omega)]
      split
      · next h => subst h; simp [hspk]
      · next h =>
        have h1 : p < k ↔ p < k + 1 := by omega
        simp only [hL, List.getElem?_map, List.getElem?_zipIdx]
        cases sp[p]? with
        | none => rfl
        | some y => simp [h1]
    rw [← hscale]
    split
    · next h => rw [hset]; simp [maxBy, h]
    · next h =>
      have : L.set k (sp[k]'(by omega)) = L := by
        apply List.ext_getElem?
        intro p
        rw [set_get L (by omega)]
        split
        · next h => subst h; exact hLk.symm
        · rfl
      rw [← this, hset]
      simp [maxBy, h]

/-! ### The interpolator runs -/

/-- The shape of an interpolator for `n` channels. -/
structure Interp.Inv (ip : Interp D S) (n : Nat) : Prop where
  channels : ip.channels = n
  pos : ip.zi < ip.delay
  z : ip.z.length = n
  rows : ∀ r ∈ ip.z, r.length = ip.delay
  index : ∀ sub ∈ ip.filter, ∀ t ∈ sub, t.1 < ip.delay

/-- The accumulation of one output sample. -/
def dotP (E : Env D S) (z : List S) (zi delay : Nat) (sub : List (Nat × D)) : S :=
  E.narrowP (sub.foldl (fun acc t => E.f64p.add acc (E.f64p.mul
    (E.widen (z.getD (if zi < t.1 then zi + delay - t.1 else zi - t.1) E.f32p.zero)) t.2)) E.f64p.zero)

theorem dot_eq (E : Env D S) {z : List S} {zi delay : Nat} {sub : List (Nat × D)} (hz : z.length = delay)
    (hzi : zi < delay) (hs : ∀ t ∈ sub, t.1 < delay) :
    Interp.dot E z zi delay sub = .done (dotP E z zi delay sub) := by
  unfold Interp.dot dotP
  have := Run.foldL_done (f := fun acc (t : Nat × D) => do
      let i := if zi < t.1 then zi + delay - t.1 else zi - t.1
      let x ← Run.index z i
      Run.done (E.f64p.add acc (E.f64p.mul (E.widen x) t.2)))
    (g := fun acc t => E.f64p.add acc (E.f64p.mul
      (E.widen (z.getD (if zi < t.1 then zi + delay - t.1 else zi - t.1) E.f32p.zero)) t.2))
    (P := fun _ => True) (l := sub) (s := E.f64p.zero) trivial (by
      intro s t ht _
      have hi : (if zi < t.1 then zi + delay - t.1 else zi - t.1) < z.length := by
        have := hs t ht
        split <;> omega
      refine ⟨?_, trivial⟩
      simp only [Run.bind_eq, Run.index_lt hi, Run.done_bind, List.getD_eq_getElem?_getD,
        List.getElem?_eq_getElem hi, Option.getD_some])
  simp only [Run.bind_eq] at this ⊢
  rw [this.1, Run.done_bind]

/-- One frame, fault-free. -/
def Interp.frameP (E : Env D S) (ip : Interp D S) (inp : List S) : Interp D S × List (List S) :=
  let zs := (List.zip ip.z inp).map fun x => x.1.set ip.zi x.2
  ({ ip with z := zs, zi := if ip.zi + 1 = ip.delay then 0 else ip.zi + 1 },
    zs.map fun z => ip.filter.map (dotP E z ip.zi ip.delay))

theorem Interp.frame_eq (E : Env D S) {ip : Interp D S} {n : Nat} (h : ip.Inv n) {inp : List S}
    (hi : inp.length = n) : ip.frame E inp = .done (ip.frameP E inp) := by
  have key := Run.forL_done (l := List.range ip.channels) (f := fun chan => do
      let z ← Run.index ip.z chan
      let x ← Run.index inp chan
      let z ← setUnchecked z ip.zi x
      let out ← Run.forL (Interp.dot E z ip.zi ip.delay) ip.filter
      Run.done (z, out))
    (g := fun chan =>
      let z := (ip.z.getD chan []).set ip.zi (inp.getD chan E.f32p.zero)
      (z, ip.filter.map (dotP E z ip.zi ip.delay))) (by
    intro c hc
    rw [List.mem_range, h.channels] at hc
    have h1 : c < ip.z.length := by rw [h.z]; exact hc
    have h2 : c < inp.length := by rw [hi]; exact hc
    have hrow : (ip.z[c]).length = ip.delay := h.rows _ (List.getElem_mem h1)
    have hp := h.pos
    simp only [Run.bind_eq, Run.index_lt h1, Run.index_lt h2, Run.done_bind, setUnchecked, hrow, hp,
      if_true, List.getD_eq_getElem?_getD, List.getElem?_eq_getElem h1, List.getElem?_eq_getElem h2,
      Option.getD_some]
    rw [Run.forL_done fun sub hsub => dot_eq E (by simp [hrow]) hp (h.index sub hsub)]
    rfl)
  unfold Interp.frame Interp.frameP
  simp only [Run.bind_eq] at key ⊢
  rw [key, Run.done_bind]
  have hz : List.map Prod.fst ((List.range ip.channels).map fun chan =>
      ((ip.z.getD chan []).set ip.zi (inp.getD chan E.f32p.zero),
        ip.filter.map (dotP E ((ip.z.getD chan []).set ip.zi (inp.getD chan E.f32p.zero)) ip.zi
          ip.delay))) = (List.zip ip.z inp).map fun x => x.1.set ip.zi x.2 := by
    apply List.ext_getElem?
    intro c
    simp only [List.getElem?_map, List.map_map, Function.comp_def, List.zip]
    rw [List.getElem?_zipWith]
    by_cases hc : c < n
    · have h1 : c < ip.z.length := by rw [h.z]; exact hc
      have h2 : c < inp.length := by rw [hi]; exact hc
      rw [List.getElem?_range (by rw [h.channels]; exact hc)]
      simp [List.getElem?_eq_getElem h1, List.getElem?_eq_getElem h2]
    · have h1 : ip.z[c]? = none := List.getElem?_eq_none (by rw [h.z]; omega)
      rw [List.getElem?_eq_none (by rw [List.length_range, h.channels]; omega), h1]
      rfl
  have hz2 : List.map Prod.snd ((List.range ip.channels).map fun chan =>
      ((ip.z.getD chan []).set ip.zi (inp.getD chan E.f32p.zero),
        ip.filter.map (dotP E ((ip.z.getD chan []).set ip.zi (inp.getD chan E.f32p.zero)) ip.zi
          ip.delay))) = ((List.zip ip.z inp).map fun x => x.1.set ip.zi x.2).map fun z =>
            ip.filter.map (dotP E z ip.zi ip.delay) := by
    rw [← hz]
    simp [List.map_map, Function.comp_def]
  rw [hz, hz2]

theorem Interp.frameP_inv (E : Env D S) {ip : Interp D S} {n : Nat} (h : ip.Inv n) {inp : List S}
    (hi : inp.length = n) : (ip.frameP E inp).1.Inv n ∧ (ip.frameP E inp).2.length = n := by
  have hp := h.pos
  refine ⟨⟨h.channels, ?_, ?_, ?_, h.index⟩, ?_⟩
  · simp only [Interp.frameP]
    split <;> omega
  · simp [Interp.frameP, h.z, hi]
  · intro r hr
    simp only [Interp.frameP, List.mem_map] at hr
    obtain ⟨⟨a, b⟩, hab, rfl⟩ := hr
    simp only [List.length_set]
    exact h.rows a (List.of_mem_zip hab).1
  · simp [Interp.frameP, h.z, hi]

/-- The shape of a true-peak detector. -/
structure TruePeak.Inv (tp : TruePeak D S) (n : Nat) : Prop where
  channels : tp.channels = n
  interp : tp.interp.Inv n

/-- One frame of a detector: the new interpolator and the new peaks. -/
def peakStep (E : Env D S) (cs : CSample D T) (st : Interp D S × List D) (frame : List T) :
    Interp D S × List D :=
  let r := st.1.frameP E (frame.map fun s => E.narrowP (E.f64p.div (cs.toDouble s) cs.scale))
  (r.1, List.zipWith (fun pk (o : List S) => o.foldl (fun pk y => keepMax E.f64p pk (E.widen y)) pk)
    st.2 r.2)

theorem peakStep_inv (E : Env D S) (cs : CSample D T) {n : Nat} {st : Interp D S × List D}
    (h : st.1.Inv n) (hp : st.2.length = n) {frame : List T} (hf : frame.length = n) :
    (peakStep E cs st frame).1.Inv n ∧ (peakStep E cs st frame).2.length = n := by
  have := Interp.frameP_inv E h
    (inp := frame.map fun s => E.narrowP (E.f64p.div (cs.toDouble s) cs.scale)) (by simpa using hf)
  refine ⟨this.1, ?_⟩
  simp [peakStep, hp, this.2]

theorem peakFold_inv (E : Env D S) (cs : CSample D T) {n : Nat} {st : Interp D S × List D}
    (h : st.1.Inv n) (hp : st.2.length = n) {fs : List (List T)} (hf : ∀ f ∈ fs, f.length = n) :
    (fs.foldl (peakStep E cs) st).1.Inv n ∧ (fs.foldl (peakStep E cs) st).2.length = n := by
  induction fs generalizing st with
  | nil => exact ⟨h, hp⟩
  | cons f fs ih =>
    rw [List.forall_mem_cons] at hf
    have := peakStep_inv E cs h hp hf.1
    exact ih this.1 this.2 hf.2

theorem TruePeak.check_eq (E : Env D S) (cs : CSample D T) {tp : TruePeak D S} {n : Nat} (hn : 0 < n)
    (h : tp.Inv n) {data : List T} (hdata : data.length % n = 0)
    (hfr : data.length / n ≤ tp.inputFrames) {peaks : List D} (hp : peaks.length = n) :
    tp.check E cs (data.length / n) data peaks =
      .done ({ tp with interp := ((chunksExact n data).foldl (peakStep E cs) (tp.interp, peaks)).1 },
        ((chunksExact n data).foldl (peakStep E cs) (tp.interp, peaks)).2) := by
  have hn' : n ≠ 0 := by omega
  obtain ⟨hr, hfl, hlen⟩ := chunksExact_rect hn' data hdata
  unfold TruePeak.check
  simp only [Run.bind_eq, Run.assert_true hfr, Run.done_bind]
  have key := loop_inv (n := data.length / n) (s := (tp.interp, peaks))
    (f := fun (st : Interp D S × List D) i =>
      Run.bind (Run.forL (fun c => Run.bind (Run.index data (i * tp.channels + c)) fun s =>
        Run.done (E.narrowP (E.f64p.div (cs.toDouble s) cs.scale))) (List.range tp.channels)) fun inp =>
      Run.bind (st.1.frame E inp) fun x => Run.done (x.1, List.zipWith (fun pk (o : List S) =>
        o.foldl (fun pk y => keepMax E.f64p pk (E.widen y)) pk) st.2 x.2))
    (fun k st => st = ((chunksExact n data).take k).foldl (peakStep E cs) (tp.interp, peaks)) rfl ?_
  · obtain ⟨st, h1, rfl⟩ := key
    rw [h1, Run.done_bind, List.take_of_length_le (by omega)]
  · rintro k st hk rfl
    have hk' : k < (chunksExact n data).length := by rw [hlen]; exact hk
    have hi := peakFold_inv E cs (st := (tp.interp, peaks)) h.interp hp (fs := (chunksExact n data).take k)
      fun f hf => hr f (List.mem_of_mem_take hf)
    set st := ((chunksExact n data).take k).foldl (peakStep E cs) (tp.interp, peaks) with hst
    have hfk : ((chunksExact n data)[k]).length = n := hr _ (List.getElem_mem hk')
    refine ⟨_, ?_, rfl⟩
    have hforL : Run.forL (fun c => Run.bind (Run.index data (k * tp.channels + c)) fun s =>
        Run.done (E.narrowP (E.f64p.div (cs.toDouble s) cs.scale))) (List.range tp.channels) =
        .done ((chunksExact n data)[k].map fun s => E.narrowP (E.f64p.div (cs.toDouble s) cs.scale)) := by
      have hd : ∀ c, c < n → data[k * n + c]? = ((chunksExact n data)[k])[c]? := by
        intro c hc
        have := flatten_getElem? hr hc k
        rw [hfl] at this
        rw [this, List.getElem?_eq_getElem hk']
        rfl
      have h1 := Run.forL_done (l := List.range tp.channels)
        (f := fun c => Run.bind (Run.index data (k * tp.channels + c)) fun s =>
          Run.done (E.narrowP (E.f64p.div (cs.toDouble s) cs.scale)))
        (g := fun c => (((chunksExact n data)[k][c]?).map fun s =>
          E.narrowP (E.f64p.div (cs.toDouble s) cs.scale)).getD E.f32p.zero) (by
        intro c hc
        rw [List.mem_range, h.channels] at hc
        have hc' : c < ((chunksExact n data)[k]).length := by omega
        rw [h.channels, Run.index_some ((hd c hc).trans (List.getElem?_eq_getElem hc')), Run.done_bind,
          List.getElem?_eq_getElem hc']
        rfl)
      rw [h1, h.channels]
      refine congrArg _ (List.ext_getElem? fun c => ?_)
      rw [List.getElem?_map, List.getElem?_map]
      by_cases hc : c < n
      · have hc' : c < ((chunksExact n data)[k]).length := by omega
        rw [List.getElem?_range hc, List.getElem?_eq_getElem hc', Option.map_some, Option.map_some,
          List.getElem?_eq_getElem hc']
        rfl
      · rw [List.getElem?_eq_none (by simp; omega), List.getElem?_eq_none (by omega)]
        rfl
    rw [hforL, Run.done_bind, Interp.frame_eq E hi.1 (by simpa using hfk), Run.done_bind,
      List.take_add_one, List.getElem?_eq_getElem hk', Option.toList_some, List.foldl_append, ← hst]
    rfl

/-- The coefficient loop succeeds for the parameters used. -/
theorem Interp.create_inv (E : Env D S) {factor : Nat} (hf : factor = 2 ∨ factor = 4) (n : Nat) :
    ∃ ip, Interp.create E 49 factor n = .done ip ∧ ip.Inv n ∧ ip.factor = factor := by
  have hd : (49 + factor - 1) / factor * factor ≥ 49 ∧ 0 < (49 + factor - 1) / factor := by
    rcases hf with rfl | rfl <;> decide
  have key := loop_inv (n := 49) (s := (List.replicate factor [] : List (List (Nat × D))))
    (f := interpTap E 49 factor ((49 + factor - 1) / factor))
    (fun k s => s.length = factor ∧ ∀ f sub, s[f]? = some sub →
      sub.length ≤ (k + factor - 1 - f) / factor ∧ ∀ t ∈ sub, t.1 < (49 + factor - 1) / factor)
    ⟨by simp, fun f sub h => by
      rw [List.getElem?_replicate] at h
      split at h
      · cases h; simp
      · cases h⟩ ?_
  · obtain ⟨s, h1, h2, h3⟩ := key
    refine ⟨_, by simp only [Interp.create, Run.bind_eq]; rw [h1, Run.done_bind], ⟨rfl, hd.2, ?_, ?_, ?_⟩,
      rfl⟩
    · simp
    · intro r hr
      rw [List.eq_of_mem_replicate hr]
      simp
    · intro sub hs t ht
      obtain ⟨i, hi, rfl⟩ := List.mem_iff_getElem.1 hs
      exact (h3 i _ (List.getElem?_eq_getElem hi)).2 t ht
  · rintro k s hk ⟨e1, e2⟩
    unfold interpTap
    simp only [Run.bind_eq]
    split
    · have hlt : k % factor < s.length := by
        rw [e1]; rcases hf with rfl | rfl <;> omega
      obtain ⟨b1, b2⟩ := e2 _ _ (List.getElem?_eq_getElem hlt)
      have hlen : (s[k % factor]).length < (49 + factor - 1) / factor := by
        rcases hf with rfl | rfl <;> omega
      refine ⟨s.set (k % factor) (s[k % factor] ++ [(k / factor, interpCoeff E 49 factor k)]), ?_,
        by simp [e1], ?_⟩
      · rw [Run.index_lt hlt, Run.done_bind, Run.assert_true hlen, Run.done_bind, setUnchecked, if_pos hlt]
      · intro f sub hs
        by_cases hfk : f = k % factor
        · subst hfk
          rw [List.getElem?_set_self hlt] at hs
          cases hs
          refine ⟨?_, ?_⟩
          · simp only [List.length_append, List.length_singleton]
            rcases hf with rfl | rfl <;> omega
          · intro t ht
            rcases List.mem_append.1 ht with ht | ht
            · exact b2 t ht
            · rw [List.mem_singleton] at ht
              subst ht
              simp only
              rcases hf with rfl | rfl <;> omega
        · rw [List.getElem?_set_ne (Ne.symm hfk)] at hs
          obtain ⟨c1, c2⟩ := e2 f sub hs
          exact ⟨Nat.le_trans c1 (Nat.div_le_div_right (by omega)), c2⟩
    · exact ⟨s, rfl, e1, fun f sub hs => by
        obtain ⟨c1, c2⟩ := e2 f sub hs
        exact ⟨Nat.le_trans c1 (Nat.div_le_div_right (by omega)), c2⟩⟩

theorem TruePeak.create_inv (E : Env D S) (rate n : Nat) :
    ∃ tp, TruePeak.create E rate n = .done tp ∧
      ∀ t, tp = some t → t.Inv n ∧ t.inputFrames = (rate + 5) / 10 * 4 := by
  unfold TruePeak.create
  simp only [Run.bind_eq]
  split
  · obtain ⟨ip, h1, h2, _⟩ := Interp.create_inv E (Or.inr rfl) n
    exact ⟨_, by rw [h1, Run.done_bind], fun t ht => by cases ht; exact ⟨⟨rfl, h2⟩, rfl⟩⟩
  · split
    · obtain ⟨ip, h1, h2, _⟩ := Interp.create_inv E (Or.inl rfl) n
      exact ⟨_, by rw [h1, Run.done_bind], fun t ht => by cases ht; exact ⟨⟨rfl, h2⟩, rfl⟩⟩
    · exact ⟨_, rfl, fun t ht => by cases ht⟩

end Verif.CRef
