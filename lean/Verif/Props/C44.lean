import Verif.Props.C43
import Verif.Props.C39
import Verif.Props.C11
/-!
# C44: chunked analysis sees the same blocks

A signal is split at multiples of 100 ms.  Every part but the first begins 300 ms before its split point, and its
analyzer is seeded with everything before that.
-/

set_option linter.unusedSimpArgs false

namespace Verif
open Spec

/-- First and last frame (exclusive) of the parts of `n` frames for the split points `ps`; `s` frames are 100 ms. -/
def Spec.chunks (s : Nat) : Nat → List Nat → Nat → List (Nat × Nat)
  | a, [], n => [(a, n)]
  | a, p :: ps, n => (a, p) :: chunks s (p - 3 * s) ps n

/-- Split points: multiples of 100 ms, in order, with 300 ms before them. -/
structure Spec.SplitPoints (s n : Nat) (ps : List Nat) : Prop where
  aligned : ∀ p ∈ ps, p % s = 0
  overlap : ∀ p ∈ ps, 3 * s ≤ p
  ascending : ps.Pairwise (· ≤ ·)
  inside : ∀ p ∈ ps, p ≤ n

theorem mod_mul_sub {s p : Nat} (h : p % s = 0) (k : Nat) : (p - k * s) % s = 0 := by
  obtain ⟨q, rfl⟩ := Nat.dvd_of_mod_eq_zero h
  rw [Nat.mul_comm k s, ← Nat.mul_sub, Nat.mul_mod_right]

/-- Blocks of a longer signal: those up to a split point, and those seen from 300 ms before it. -/
theorem blockEnds_split {s : Nat} (hs : 0 < s) {a : Nat} (ha : a % s = 0) (k : Nat) :
    blockEnds s (a + 3 * s + k) = blockEnds s (a + 3 * s) ++ (blockEnds s (3 * s + k)).map (a + ·) := by
  induction k with
  | zero =>
    have : blockEnds s (3 * s + 0) = [] := by
      unfold blockEnds
      rw [show 3 * s + 0 = 3 * s from rfl, Nat.mul_div_cancel _ hs]
      rfl
    rw [this]
    simp
  | succ k ih =>
    rw [show a + 3 * s + (k + 1) = (a + 3 * s + k) + 1 by omega, blockEnds_succ hs, ih,
      show 3 * s + (k + 1) = (3 * s + k) + 1 by omega, blockEnds_succ hs, List.map_append, List.append_assoc]
    congr 2
    have h1 : (a + 3 * s + k + 1) % s = (3 * s + k + 1) % s := by
      rw [show a + 3 * s + k + 1 = a + (3 * s + k + 1) by omega, Nat.add_mod, ha, Nat.zero_add, Nat.mod_mod]
    by_cases hm : (3 * s + k + 1) % s = 0
    · have h4 : 4 * s ≤ 3 * s + k + 1 := by
        obtain ⟨q, hq⟩ := Nat.dvd_of_mod_eq_zero hm
        have h3 : 3 < q := by
          by_contra h
          have : s * q ≤ s * 3 := Nat.mul_le_mul_left s (by omega)
          omega
        have : s * 4 ≤ s * q := Nat.mul_le_mul_left s h3
        omega
      rw [if_pos ⟨h1.trans hm, by omega⟩, if_pos ⟨hm, h4⟩]
      simp only [List.map_cons, List.map_nil]
      congr 1
      omega
    · rw [if_neg (fun h => hm (h1.symm.trans h.1)), if_neg (fun h => hm h.1)]
      rfl

/-- Something known to combine at a split point, combined over all parts. -/
theorem chunks_flatMap {α : Type} {s n : Nat} (f : Nat → Nat → List α)
    (hf : ∀ a p, a % s = 0 → p % s = 0 → a + 3 * s ≤ p → p ≤ n → f a n = f a p ++ f (p - 3 * s) n) :
    ∀ (ps : List Nat) (a : Nat), SplitPoints s n ps → a % s = 0 → (∀ p ∈ ps, a + 3 * s ≤ p) →
      (chunks s a ps n).flatMap (fun c => f c.1 c.2) = f a n := by
  intro ps
  induction ps with
  | nil => intro a _ _ _; simp [chunks]
  | cons p ps ih =>
    intro a h ha hp
    have h0 := h.aligned p (by simp)
    have h1 := hp p (by simp)
    have h2 := h.inside p (by simp)
    rw [chunks, List.flatMap_cons, ih _ ⟨fun q hq => h.aligned q (by simp [hq]), fun q hq => h.overlap q (by simp [hq]),
      h.ascending.of_cons, fun q hq => h.inside q (by simp [hq])⟩ (mod_mul_sub h0 3) ?_, hf a p ha h0 h1 h2]
    intro q hq
    have := List.rel_of_pairwise_cons h.ascending hq
    omega

theorem chunks_starts {s : Nat} : ∀ (ps : List Nat) (a n : Nat) {c : Nat × Nat}, c ∈ chunks s a ps n →
    c.1 = a ∨ ∃ p ∈ ps, c.1 = p - 3 * s := by
  intro ps
  induction ps with
  | nil => intro a n c hc; simp [chunks] at hc; subst hc; exact Or.inl rfl
  | cons p ps ih =>
    intro a n c hc
    rw [chunks, List.mem_cons] at hc
    rcases hc with rfl | hc
    · exact Or.inl rfl
    · rcases ih _ _ hc with h | ⟨q, hq, h⟩
      · exact Or.inr ⟨p, by simp, h⟩
      · exact Or.inr ⟨q, by simp [hq], h⟩

theorem chunks_bounds {s n : Nat} : ∀ (ps : List Nat) (a : Nat), SplitPoints s n ps → a ≤ n →
    (∀ p ∈ ps, a ≤ p) → ∀ {c : Nat × Nat}, c ∈ chunks s a ps n → c.1 ≤ c.2 ∧ c.2 ≤ n := by
  intro ps
  induction ps with
  | nil => intro a _ ha _ c hc; simp [chunks] at hc; subst hc; exact ⟨ha, le_rfl⟩
  | cons p ps ih =>
    intro a h ha hp c hc
    rw [chunks, List.mem_cons] at hc
    have h2 := h.inside p (by simp)
    rcases hc with rfl | hc
    · exact ⟨hp p (by simp), h2⟩
    · refine ih _ ⟨fun q hq => h.aligned q (by simp [hq]), fun q hq => h.overlap q (by simp [hq]),
        h.ascending.of_cons, fun q hq => h.inside q (by simp [hq])⟩ (by omega) ?_ hc
      intro q hq
      have := List.rel_of_pairwise_cons h.ascending hq
      omega

section any
variable {D S : Type}

/-- Calls that make an analyzer of `n` channels measure the frames from `a` to `b` of a signal, seeded with those
before `a`.  `f` gives the values of a frame. -/
structure Spec.Share (E : Env D S) (n : Nat) (F : List (List D)) (a b : Nat) (ops : List (Op D S)) : Prop where
  feeds : ∀ op ∈ ops, Feed op
  heard : heard E n ops = (F.take a).map (fun f => ⟨false, f⟩) ++ ((F.take b).drop a).map fun f => ⟨true, f⟩

theorem chan_flag (z : D) (c : Nat) (b : Bool) (F : List (List D)) :
    chan z c (F.map fun f => ⟨b, f⟩) = F.map (·.getD c z) := by
  unfold chan
  rw [List.map_map]; rfl

theorem count_flag (b : Bool) (F : List (List D)) :
    count (F.map fun f => (⟨b, f⟩ : Event D)) = if b then F.length else 0 := by
  unfold count
  cases b
  · simp
  · rw [List.filter_eq_self.2 (by simp), List.length_map]
    rfl

theorem outs_seed (A : Arith D) (b a : V5 D) (z : D) (c : Nat) (F : List (List D)) :
    outs A b a z (F.map fun f => ⟨false, f⟩) c = [] := by
  rw [← List.length_eq_zero_iff, outs_length, count_flag]
  rfl

theorem Spec.Share.measured {E : Env D S} {n : Nat} {F : List (List D)} {a b : Nat} {ops : List (Op D S)}
    (h : Share E n F a b ops) (hb : b ≤ F.length) : measured E n ops = b - a := by
  unfold Verif.Spec.measured
  rw [h.heard, count_append, count_flag, count_flag]
  simp [Nat.min_eq_left hb]

/-- The signal a part measures is that stretch of the whole one. -/
theorem Spec.Share.signal {E : Env D S} {n rate : Nat} {F : List (List D)} {a b : Nat} {ops whole : List (Op D S)}
    (h : Share E n F a b ops) (hab : a ≤ b) (hb : b ≤ F.length) (hw : Share E n F 0 F.length whole) (c : Nat) :
    signal E rate n ops c = ((signal E rate n whole c).take b).drop a := by
  unfold Verif.Spec.signal
  rw [h.heard, hw.heard]
  generalize (filterCoefficients E (E.f64.ofInt rate)).1 = cb
  generalize (filterCoefficients E (E.f64.ofInt rate)).2 = ca
  have hF : F = F.take a ++ ((F.take b).drop a ++ F.drop b) := by
    rw [← List.append_assoc]
    have : F.take a = (F.take b).take a := by rw [List.take_take, Nat.min_eq_left hab]
    rw [this, List.take_append_drop, List.take_append_drop]
  rw [outs_append, outs_seed, List.nil_append, List.take_zero, List.map_nil, List.nil_append, List.take_length,
    List.drop_zero]
  conv_rhs => rw [hF]
  rw [List.map_append, List.map_append, outs_append, ← List.map_append, chan_flag, chan_flag]
  generalize hX : outs E.f64p cb ca E.f64.zero ((F.take a).map fun f => ⟨true, f⟩) c = X
  have lX : X.length = a := by
    rw [← hX, outs_length, count_flag]
    simp [Nat.min_eq_left (Nat.le_trans hab hb)]
  have key : ∀ (P Q : List (Event D)) (xs : List D), outsAfter E.f64p cb ca E.f64.zero c xs (P ++ Q) =
      outsAfter E.f64p cb ca E.f64.zero c xs P ++
        outsAfter E.f64p cb ca E.f64.zero c (xs ++ chan E.f64.zero c P) Q := by
    intro P Q
    induction P with
    | nil => intro xs; simp [outsAfter, chan]
    | cons p P ih =>
      intro xs
      have hc : xs ++ [p.frame.getD c E.f64.zero] ++ chan E.f64.zero c P = xs ++ chan E.f64.zero c (p :: P) := by
        simp [chan]
      rw [List.cons_append, outsAfter, ih, outsAfter, hc]
      exact (List.append_assoc _ _ _).symm
  rw [List.map_append, key]
  generalize hY : outsAfter E.f64p cb ca E.f64.zero c _ (((F.take b).drop a).map fun f => (⟨true, f⟩ : Event D)) = Y
  have lY : Y.length = b - a := by
    rw [← hY, outsAfter_length, count_flag]
    simp [Nat.min_eq_left hb]
  rw [← List.append_assoc, List.take_append_of_le_length (by rw [List.length_append, lX, lY]; omega),
    List.take_of_length_le (by rw [List.length_append, lX, lY]; omega), ← lX, List.drop_left]

/-- The filtered values each gating block of an analyzer is made of, for channel `c`. -/
noncomputable def Spec.blockWindows (E : Env D S) (rate n : Nat) (ops : List (Op D S)) (c : Nat) : List (List D) :=
  (blockEnds (hop rate) (measured E n ops)).map fun m =>
    lastN E.f64.zero (4 * hop rate) ((signal E rate n ops c).take m)

/-- The energies of the gating blocks of an analyzer (C13), in order. -/
noncomputable def Spec.blockEnergies (E : Env D S) (rate window n : Nat) (cm : List Channel) (ops : List (Op D S)) :
    List D :=
  (blockEnds (hop rate) (measured E n ops)).map fun m =>
    energy E (capacity rate window) (4 * hop rate) m cm (signal E rate n ops)

theorem share_window {E : Env D S} {n rate s : Nat} {F : List (List D)} {a b m : Nat} {ops whole : List (Op D S)}
    (h : Share E n F a b ops) (hab : a ≤ b) (hb : b ≤ F.length) (hw : Share E n F 0 F.length whole)
    (h4 : 4 * s ≤ m) (hm : m ≤ b - a) (c : Nat) :
    lastN E.f64.zero (4 * s) ((signal E rate n ops c).take m) =
      lastN E.f64.zero (4 * s) ((signal E rate n whole c).take (a + m)) := by
  have hl : (signal E rate n whole c).length = F.length := by
    rw [signal_length, hw.measured le_rfl, Nat.sub_zero]
  rw [h.signal hab hb hw]
  generalize signal E rate n whole c = ys at hl
  have h1 : ((ys.take b).drop a).take m = (ys.take (a + m)).drop a := by
    rw [List.take_drop, List.take_take, Nat.min_eq_left (by omega)]
  have h2 : ys.take (a + m) = ys.take a ++ (ys.take (a + m)).drop a := by
    have : ys.take a = (ys.take (a + m)).take a := by rw [List.take_take, Nat.min_eq_left (by omega)]
    rw [this, List.take_append_drop]
  rw [h1]
  conv_rhs => rw [h2]
  rw [lastN_append]
  rw [List.length_drop, List.length_take, hl]
  omega

/-- What the parts offer is what the whole offers, for anything computed from the ends of the blocks. -/
theorem split_blocks {α : Type} {E : Env D S} {n rate : Nat} (hs : 0 < hop rate) {F : List (List D)} {ps : List Nat}
    (hp : SplitPoints (hop rate) F.length ps) {parts : List (List (Op D S))} {whole : List (Op D S)}
    (h : List.Forall₂ (fun c ops => Share E n F c.1 c.2 ops) (chunks (hop rate) 0 ps F.length) parts)
    (hw : Share E n F 0 F.length whole) (g : List (Op D S) → Nat → α)
    (hg : ∀ c ∈ chunks (hop rate) 0 ps F.length, ∀ ops, Share E n F c.1 c.2 ops → c.1 ≤ c.2 → c.2 ≤ F.length →
      ∀ m, 4 * hop rate ≤ m → m ≤ c.2 - c.1 → g ops m = g whole (c.1 + m)) :
    parts.flatMap (fun ops => (blockEnds (hop rate) (measured E n ops)).map (g ops)) =
      (blockEnds (hop rate) (measured E n whole)).map (g whole) := by
  have h1 : parts.flatMap (fun ops => (blockEnds (hop rate) (measured E n ops)).map (g ops)) =
      (chunks (hop rate) 0 ps F.length).flatMap fun c =>
        ((blockEnds (hop rate) (c.2 - c.1)).map (c.1 + ·)).map (g whole) := by
    have hb : ∀ c ∈ chunks (hop rate) 0 ps F.length, c.1 ≤ c.2 ∧ c.2 ≤ F.length := fun c hc =>
      chunks_bounds ps 0 hp (Nat.zero_le _) (fun _ _ => Nat.zero_le _) hc
    generalize chunks (hop rate) 0 ps F.length = cs at h hg hb
    induction h with
    | nil => rfl
    | @cons c ops cs parts hc _ ih =>
      rw [List.flatMap_cons, List.flatMap_cons, ih (fun c hc => hg c (by simp [hc])) (fun c hc => hb c (by simp [hc]))]
      congr 1
      obtain ⟨b1, b2⟩ := hb c (by simp)
      rw [hc.measured b2, List.map_map]
      refine List.map_congr_left fun m hm => ?_
      obtain ⟨-, m2, m3⟩ := (mem_blockEnds hs).1 hm
      exact hg c (by simp) ops hc b1 b2 m m2 m3
  rw [h1, hw.measured le_rfl]
  have h2 := chunks_flatMap (s := hop rate) (n := F.length)
    (fun a b => ((blockEnds (hop rate) (b - a)).map (a + ·)).map (g whole)) ?_ ps 0 hp (Nat.zero_mod _)
    (by intro p hq; rw [Nat.zero_add]; exact hp.overlap p hq)
  · rw [h2]
    simp
  · intro a p ha hpm hap hpn
    obtain ⟨d, rfl⟩ : ∃ d, p = a + (d + 3 * hop rate) := ⟨p - a - 3 * hop rate, by omega⟩
    have hd : d % hop rate = 0 := by
      have : (a + (d + 3 * hop rate)) % hop rate = d % hop rate := by
        rw [Nat.add_mod, ha, Nat.zero_add, Nat.mod_mod, Nat.add_mul_mod_self_right]
      rw [← this]; exact hpm
    obtain ⟨k, hk⟩ : ∃ k, F.length = a + (d + 3 * hop rate) + k := ⟨F.length - (a + (d + 3 * hop rate)), by omega⟩
    rw [hk, show a + (d + 3 * hop rate) + k - a = d + 3 * hop rate + k by omega, blockEnds_split hs hd,
      show a + (d + 3 * hop rate) - a = d + 3 * hop rate by omega,
      show a + (d + 3 * hop rate) - 3 * hop rate = a + d by omega,
      show a + (d + 3 * hop rate) + k - (a + d) = 3 * hop rate + k by omega, List.map_append, List.map_append,
      List.map_map (f := (a + ·)) (g := g whole), List.map_map, List.map_map]
    congr 1
    simp only [List.map_map]
    refine List.map_congr_left fun m _ => ?_
    simp only [Function.comp]
    rw [Nat.add_assoc]

/-- **C44.** The gating blocks of all parts together are those of the whole signal: the same values, in the same
order.  In any arithmetic. -/
theorem C44_windows {E : Env D S} {n rate : Nat} (hs : 0 < hop rate) {F : List (List D)} {ps : List Nat}
    (hp : SplitPoints (hop rate) F.length ps) {parts : List (List (Op D S))} {whole : List (Op D S)}
    (h : List.Forall₂ (fun c ops => Share E n F c.1 c.2 ops) (chunks (hop rate) 0 ps F.length) parts)
    (hw : Share E n F 0 F.length whole) (c : Nat) :
    parts.flatMap (fun ops => blockWindows E rate n ops c) = blockWindows E rate n whole c :=
  split_blocks hs hp h hw (fun ops m => lastN E.f64.zero (4 * hop rate) ((signal E rate n ops c).take m))
    fun _ _ _ hc h1 h2 _ h3 h4 => share_window hc h1 h2 hw h3 h4 c

theorem split_energies {E : Env D S} {n rate window : Nat} {cm : List Channel} (hs : 0 < hop rate) {F : List (List D)}
    {ps : List Nat} (hp : SplitPoints (hop rate) F.length ps) {parts : List (List (Op D S))} {whole : List (Op D S)}
    (h : List.Forall₂ (fun c ops => Share E n F c.1 c.2 ops) (chunks (hop rate) 0 ps F.length) parts)
    (hw : Share E n F 0 F.length whole)
    (ho : ∀ a, (a = 0 ∨ ∃ p ∈ ps, a = p - 3 * hop rate) → ∀ m w,
      sumSq E.f64 (readOrder (capacity rate window) m w) = sumSq E.f64 (readOrder (capacity rate window) (a + m) w)) :
    parts.flatMap (blockEnergies E rate window n cm) = blockEnergies E rate window n cm whole := by
  refine split_blocks hs hp h hw
    (fun ops m => energy E (capacity rate window) (4 * hop rate) m cm (signal E rate n ops)) ?_
  intro c hc ops ho' h1 h2 m h3 h4
  unfold energy
  congr 1
  apply channelSum_congr
  intro i _
  rw [share_window ho' h1 h2 hw h3 h4 i]
  exact ho c.1 (chunks_starts ps 0 F.length hc) m _

/-- **C44.** If the parts also begin at multiples of the length of the ring buffer, so that the values are summed in
the same order, their block energies are bit for bit those of the whole signal.  In any arithmetic. -/
theorem C44_energies {E : Env D S} {n rate window : Nat} {cm : List Channel} (hs : 0 < hop rate) {F : List (List D)}
    {ps : List Nat} (hp : SplitPoints (hop rate) F.length ps)
    (ha : ∀ p ∈ ps, (p - 3 * hop rate) % capacity rate window = 0) {parts : List (List (Op D S))}
    {whole : List (Op D S)}
    (h : List.Forall₂ (fun c ops => Share E n F c.1 c.2 ops) (chunks (hop rate) 0 ps F.length) parts)
    (hw : Share E n F 0 F.length whole) :
    parts.flatMap (blockEnergies E rate window n cm) = blockEnergies E rate window n cm whole := by
  refine split_energies hs hp h hw ?_
  intro a h1 m w
  have : a % capacity rate window = 0 := by
    rcases h1 with rfl | ⟨p, hq, rfl⟩
    · exact Nat.zero_mod _
    · exact ha p hq
  unfold readOrder
  rw [Nat.add_mod a m, this, Nat.zero_add, Nat.mod_mod]

end any

/-! ## Exact arithmetic: the integrated loudness -/

/-- **C44.** In exact arithmetic the block energies agree for all split points. -/
theorem C44_energies_exact {bs : BSearch} {u n rate window : Nat} {cm : List Channel} (hs : 0 < hop rate)
    {F : List (List ℝ)} {ps : List Nat} (hp : SplitPoints (hop rate) F.length ps) {parts : List (List (Op ℝ ℝ))}
    {whole : List (Op ℝ ℝ)}
    (h : List.Forall₂ (fun c ops => Share (exactEnv bs u) n F c.1 c.2 ops) (chunks (hop rate) 0 ps F.length) parts)
    (hw : Share (exactEnv bs u) n F 0 F.length whole) :
    parts.flatMap (blockEnergies (exactEnv bs u) rate window n cm) =
      blockEnergies (exactEnv bs u) rate window n cm whole :=
  split_energies hs hp h hw fun _ _ _ _ =>
    exact_sumSq_perm bs u ((readOrder_perm _ _ _).trans (readOrder_perm _ _ _).symm)

/-- A history with nothing in it and room for `k` blocks. -/
def Spec.Room {D : Type} (k : Nat) : History D → Prop
  | .queue q max => q = [] ∧ k ≤ max
  | .histogram c => c = List.replicate 1000 0

/-- The blocks a history of the same kind as `h` keeps of a list of energies, one by one. -/
noncomputable def Spec.kept (E : Env ℝ ℝ) (h : History ℝ) (xs : List ℝ) : List ℝ :=
  let passing := xs.filter fun x => !E.f64.lt x (gate0 E)
  match h with
  | .queue _ _ => passing
  | .histogram _ => passing.map fun x => centreR (findP E x)

theorem kept_append (E : Env ℝ ℝ) (h : History ℝ) (xs ys : List ℝ) : kept E h (xs ++ ys) = kept E h xs ++ kept E h ys := by
  unfold kept
  cases h <;> simp

theorem expand_modify {v : Nat → ℝ} {c : List Nat} {i : Nat} (hi : i < c.length) : ∀ {bins : List Nat}, bins.Nodup → i ∈ bins →
    (expand v (fun j => (c.modify i (· + 1)).getD j 0) bins).Perm (v i :: expand v (fun j => c.getD j 0) bins) := by
  intro bins
  have hne : ∀ {j}, j ≠ i → (c.modify i (· + 1)).getD j 0 = c.getD j 0 := by
    intro j hj
    simp [List.getD_eq_getElem?_getD, List.getElem?_modify, Ne.symm hj]
  have heq : (c.modify i (· + 1)).getD i 0 = c.getD i 0 + 1 := by
    simp [List.getD_eq_getElem?_getD, List.getElem?_modify, List.getElem?_eq_getElem hi]
  induction bins with
  | nil => intro _ h; simp at h
  | cons j bins ih =>
    intro hn hm
    rw [List.nodup_cons] at hn
    simp only [expand, List.flatMap_cons]
    by_cases hj : j = i
    · subst hj
      rw [heq, List.replicate_succ, List.cons_append]
      refine (List.perm_cons _).2 ?_
      have : (bins.flatMap fun k => List.replicate ((c.modify j (· + 1)).getD k 0) (v k)) =
          bins.flatMap fun k => List.replicate (c.getD k 0) (v k) := by
        refine flatMap_congr' fun k hk => ?_
        rw [hne (fun h => hn.1 (h ▸ hk))]
      rw [this]
    · rw [hne hj]
      have hm' : i ∈ bins := by
        rcases List.mem_cons.1 hm with h | h
        · exact absurd h.symm hj
        · exact h
      exact ((List.Perm.append_left _ (ih hn.2 hm')).trans List.perm_middle)

theorem foldl_kept {bs : BSearch} {u : Nat} (xs : List ℝ) : ∀ {h : History ℝ}, h.Inv →
    (∀ q max, h = .queue q max → q.length + xs.length ≤ max) →
    (blocks (xs.foldl (History.addP (exactEnv bs u)) h)).Perm (blocks h ++ kept (exactEnv bs u) h xs) := by
  induction xs with
  | nil => intro h _ _; cases h <;> simp [kept, blocks]
  | cons x xs ih =>
    intro h hi hq
    rw [List.foldl_cons]
    by_cases hx : (exactEnv bs u).f64.lt x (gate0 (exactEnv bs u)) = true
    · have h1 : h.addP (exactEnv bs u) x = h := by unfold History.addP; rw [if_pos hx]
      rw [h1]
      refine (ih hi fun q max hh => ?_).trans ?_
      · have := hq q max hh
        rw [List.length_cons] at this
        omega
      · rw [show x :: xs = [x] ++ xs from rfl, kept_append]
        have : kept (exactEnv bs u) h [x] = [] := by
          unfold kept
          cases h <;> simp [hx]
        rw [this, List.nil_append]
    · have hxs : x :: xs = [x] ++ xs := rfl
      rw [hxs, kept_append]
      cases h with
      | queue q max =>
        have h1 : (History.queue q max).addP (exactEnv bs u) x = .queue (q ++ [x]) max := by
          have hl := hq q max rfl
          rw [List.length_cons] at hl
          unfold History.addP
          rw [if_neg hx]
          dsimp only
          unfold queueAdd
          rw [if_neg (by omega)]
        rw [h1]
        refine (ih (h := .queue (q ++ [x]) max) trivial fun q' max' hh => ?_).trans ?_
        · injection hh with e1 e2
          subst e1 e2
          have := hq q max rfl
          rw [List.length_cons] at this
          rw [List.length_append, List.length_singleton]
          omega
        · simp [blocks, kept, hx]
      | histogram c =>
        have hc : c.length = 1000 := hi
        have h1 : (History.histogram c).addP (exactEnv bs u) x =
            .histogram (c.modify (findP (exactEnv bs u) x) (· + 1)) := by
          unfold History.addP
          rw [if_neg hx]
        have hf := (find_eq (exactEnv bs u) x).2
        rw [h1]
        have h3 : (History.histogram (c.modify (findP (exactEnv bs u) x) (· + 1)) : History ℝ).Inv := by
          show (c.modify _ _).length = 1000
          rw [List.length_modify]
          exact hc
        refine (ih h3 (by intro q max hh; cases hh)).trans ?_
        rw [← List.append_assoc]
        refine List.Perm.append_right _ ?_
        have h2 : kept (exactEnv bs u) (.histogram c) [x] = [centreR (findP (exactEnv bs u) x)] := by
          simp [kept, hx]
        rw [h2]
        exact (expand_modify (hc.symm ▸ hf) (by rw [allBins_eq]; exact List.nodup_range)
          (mem_allBins.2 hf)).trans (List.perm_append_singleton _ _).symm

/-- In exact arithmetic the integrated loudness depends on the multiset of blocks only. -/
theorem exact_perm {bs : BSearch} {u : Nat} {hs hs' : List (History ℝ)} (hi : ∀ h ∈ hs, h.Inv) (hi' : ∀ h ∈ hs', h.Inv)
    (h : (hs.flatMap blocks).Perm (hs'.flatMap blocks)) :
    gatedLoudnessP (exactEnv bs u) hs = gatedLoudnessP (exactEnv bs u) hs' := by
  have key : gatingMultP (exactEnv bs u) [.queue (hs.flatMap blocks) 0] =
      gatingMultP (exactEnv bs u) [.queue (hs'.flatMap blocks) 0] := by
    generalize hs.flatMap blocks = q at h
    generalize hs'.flatMap blocks = q' at h
    have ht : totals (exactEnv bs u) [.queue q 0] = totals (exactEnv bs u) [.queue q' 0] := by
      have : ∀ q : List ℝ, totals (exactEnv bs u) [.queue q 0] = (q.length, (0 : ℝ) + q.sum) := by
        intro q
        show ((0 : Nat) + _, (0 : ℝ) + _) = _
        rw [blocks_calc (h := .queue q 0) trivial]
        simp [blocks]
      rw [this, this, h.length_eq, h.sum_eq]
    have hg : ∀ s g, sumItems (exactEnv bs u) ((History.queue q 0).gatedP (exactEnv bs u) s g) =
        sumItems (exactEnv bs u) ((History.queue q' 0).gatedP (exactEnv bs u) s g) := by
      intro s g
      simp only [History.gatedP]
      rw [sumItems_ones, sumItems_ones, exact_f64, exact_total, exact_total, (h.filter _).length_eq, (h.filter _).sum_eq]
    unfold gatingMultP iterP
    rw [ht]
    by_cases c0 : (totals (exactEnv bs u) [.queue q' 0]).1 = 0
    · simp only [if_pos c0]
    · by_cases c1 : (exactEnv bs u).f64.isNan (totals (exactEnv bs u) [.queue q' 0]).2 = true
      · simp only [if_neg c0, if_pos c1]
      · simp only [if_neg c0, if_neg c1, List.map_cons, List.map_nil, List.flatten_cons, List.flatten_nil,
          List.append_nil, hg]
  unfold gatedLoudnessP
  rw [exact_several hi 0, exact_several hi' 0, key]

theorem replicate_getD (n i : Nat) : (List.replicate n 0).getD i 0 = 0 := by
  rw [List.getD_eq_getElem?_getD, List.getElem?_replicate]
  split <;> rfl

theorem runFeeds_mode {D S : Type} {E : Env D S} {ops : List (Op D S)} (hops : ∀ op ∈ ops, Feed op) {e e1 : Ebu D S}
    (hi : e.Inv E) (h : runOps E e ops = .done e1) : e1.mode = e.mode := by
  induction ops generalizing e with
  | nil => cases h; rfl
  | cons op ops ih =>
    obtain ⟨⟨e2, r⟩, h1, h2⟩ := Run.bind_done h
    have h3 := feed_sameCfg hi (hops op (by simp)) h1
    rw [ih (fun o ho => hops o (by simp [ho])) (step_mode hi h1).2 h2, h3.mode]

/-- **C44.** In exact arithmetic the integrated loudness of all parts together is that of one analyzer over the whole
signal.  Both kinds of history. -/
theorem C44_loudness {bs : BSearch} {u : Nat} {e0 e : Ebu ℝ ℝ} {es : List (Ebu ℝ ℝ)} (h0 : Started (exactEnv bs u) e0)
    (ha : Adequate e0.mode e0.rate e0.window) (hI : e0.mode.contains Mode.I = true) {F : List (List ℝ)} {ps : List Nat}
    (hroom : Room (blockEnds (hop e0.rate) F.length).length e0.blockEnergyHistory)
    (hp : SplitPoints (hop e0.rate) F.length ps) {parts : List (List (Op ℝ ℝ))} {whole : List (Op ℝ ℝ)}
    (h : List.Forall₂ (fun c ops => Share (exactEnv bs u) e0.channels F c.1 c.2 ops)
      (chunks (hop e0.rate) 0 ps F.length) parts)
    (hw : Share (exactEnv bs u) e0.channels F 0 F.length whole)
    (hes : List.Forall₂ (fun ops e => runOps (exactEnv bs u) e0 ops = .done e) parts es)
    (he : runOps (exactEnv bs u) e0 whole = .done e) :
    loudnessGlobalMultiple (exactEnv bs u) es = e.loudnessGlobal (exactEnv bs u) := by
  have hr := h0.reachable
  have hi := hr.inv
  have hs : 0 < hop e0.rate := hop_pos hi.rate16
  have hall := C44_energies_exact (window := e0.window) (cm := e0.channelMap) hs hp h hw
  have hb0 : blocks e0.blockEnergyHistory = [] := by
    cases hh : e0.blockEnergyHistory with
    | queue q max => rw [hh] at hroom; exact hroom.1
    | histogram c =>
      rw [hh] at hroom
      rw [show c = List.replicate 1000 0 from hroom]
      simp only [blocks, expand]
      rw [List.flatMap_eq_nil_iff]
      intro i _
      rw [replicate_getD]
      rfl
  have hlen : ∀ {a b : Nat} {ops : List (Op ℝ ℝ)}, a ≤ b → b ≤ F.length → Share (exactEnv bs u) e0.channels F a b ops →
      (blockEnergies (exactEnv bs u) e0.rate e0.window e0.channels e0.channelMap ops).length ≤
        (blockEnds (hop e0.rate) F.length).length := by
    intro a b ops hab hb hsh
    unfold blockEnergies
    rw [List.length_map, hsh.measured hb]
    have hsub : (blockEnds (hop e0.rate) (b - a)).Sublist (blockEnds (hop e0.rate) F.length) := by
      have : ∀ k n, (blockEnds (hop e0.rate) n).Sublist (blockEnds (hop e0.rate) (n + k)) := by
        intro k n
        induction k with
        | zero => exact List.Sublist.refl _
        | succ k ih =>
          rw [← Nat.add_assoc, blockEnds_succ hs]
          exact ih.trans (List.sublist_append_left ..)
      have h1 := this (F.length - (b - a)) (b - a)
      rwa [show b - a + (F.length - (b - a)) = F.length by omega] at h1
    exact hsub.length_le
  have hone : ∀ {a b : Nat} {ops : List (Op ℝ ℝ)} {e1 : Ebu ℝ ℝ}, a ≤ b → b ≤ F.length →
      Share (exactEnv bs u) e0.channels F a b ops → runOps (exactEnv bs u) e0 ops = .done e1 →
      (blocks e1.blockEnergyHistory).Perm (kept (exactEnv bs u) e0.blockEnergyHistory
        (blockEnergies (exactEnv bs u) e0.rate e0.window e0.channels e0.channelMap ops)) ∧
      e1.Inv (exactEnv bs u) ∧ e1.mode = e0.mode := by
    intro a b ops e1 hab hb hsh hrun
    have h1 := (C13_blocks rfl h0 ha hsh.feeds hrun).1 hI
    rw [foldL_add _ hi.hist] at h1
    injection h1 with h1
    have h2 := foldl_kept (bs := bs) (u := u)
      (blockEnergies (exactEnv bs u) e0.rate e0.window e0.channels e0.channelMap ops) hi.hist ?_
    · rw [hb0, List.nil_append] at h2
      refine ⟨?_, (Reachable.run_ops hr hrun).inv, ?_⟩
      · rw [← h1]; exact h2
      · exact runFeeds_mode hsh.feeds hi hrun
    · intro q max hq
      rw [hq] at hroom
      rw [hroom.1, List.length_nil, Nat.zero_add]
      exact Nat.le_trans (hlen hab hb hsh) hroom.2
  have hbd : ∀ c ∈ chunks (hop e0.rate) 0 ps F.length, c.1 ≤ c.2 ∧ c.2 ≤ F.length := fun c hc =>
    chunks_bounds ps 0 hp (Nat.zero_le _) (fun _ _ => Nat.zero_le _) hc
  obtain ⟨w1, w2, w3⟩ := hone (Nat.zero_le _) le_rfl hw he
  have hparts : (es.flatMap fun e => blocks e.blockEnergyHistory).Perm
      (kept (exactEnv bs u) e0.blockEnergyHistory
        (parts.flatMap (blockEnergies (exactEnv bs u) e0.rate e0.window e0.channels e0.channelMap))) ∧
      ∀ e ∈ es, e.Inv (exactEnv bs u) ∧ e.mode = e0.mode := by
    clear hall he w1 w2 w3
    generalize chunks (hop e0.rate) 0 ps F.length = cs at h hbd
    induction h generalizing es with
    | nil =>
      cases hes
      refine ⟨?_, by simp⟩
      unfold kept
      cases e0.blockEnergyHistory <;> simp
    | @cons c ops cs parts hc _ ih =>
      cases hes with
      | cons hx hes =>
        obtain ⟨b1, b2⟩ := hbd c (by simp)
        obtain ⟨p1, p2, p3⟩ := hone b1 b2 hc hx
        obtain ⟨q1, q2⟩ := ih hes fun c hc => hbd c (by simp [hc])
        refine ⟨?_, ?_⟩
        · rw [List.flatMap_cons, List.flatMap_cons, kept_append]
          exact p1.append q1
        · intro x hx
          rcases List.mem_cons.1 hx with rfl | hx
          · exact ⟨p2, p3⟩
          · exact q2 x hx
  obtain ⟨g1, g2⟩ := hparts
  rw [loudnessGlobalMultiple_eq fun e he => (g2 e he).1, Ebu.loudnessGlobal_eq w2,
    if_pos (fun e he => by rw [(g2 e he).2]; exact hI), if_pos (by rw [w3]; exact hI)]
  have key : gatedLoudnessP (exactEnv bs u) (es.map Ebu.blockEnergyHistory) =
      gatedLoudnessP (exactEnv bs u) [e.blockEnergyHistory] := by
    refine exact_perm ?_ ?_ ?_
    · intro x hx
      obtain ⟨e1, he1, rfl⟩ := List.mem_map.1 hx
      exact (g2 e1 he1).1.hist
    · intro x hx
      rw [List.mem_singleton.1 hx]
      exact w2.hist
    · rw [List.flatMap_map, List.flatMap_cons, List.flatMap_nil, List.append_nil]
      rw [hall] at g1
      exact g1.trans w1.symm
  rw [key]

/-! ## Peaks -/

open Fl

theorem chunks_max {s n : Nat} (f : Nat → Nat → Nat)
    (hf : ∀ a p b, a ≤ p → p ≤ b → b ≤ n → f a b = max (f a p) (f p b)) :
    ∀ (ps : List Nat) (a : Nat), SplitPoints s n ps → (∀ p ∈ ps, a + 3 * s ≤ p) →
      maxKey (fun c : Nat × Nat => f c.1 c.2) (chunks s a ps n) = f a n := by
  intro ps
  induction ps with
  | nil => intro a _ _; simp [chunks, maxKey_cons, maxKey_nil]
  | cons p ps ih =>
    intro a h hp
    have h1 := hp p (by simp)
    have h2 := h.inside p (by simp)
    rw [chunks, maxKey_cons, ih _ ⟨fun q hq => h.aligned q (by simp [hq]), fun q hq => h.overlap q (by simp [hq]),
      h.ascending.of_cons, fun q hq => h.inside q (by simp [hq])⟩ ?_]
    · rw [hf a p n (by omega) h2 le_rfl, hf (p - 3 * s) p n (by omega) h2 le_rfl,
        hf a (p - 3 * s) p (by omega) (by omega) h2]
      omega
    · intro q hq
      have := List.rel_of_pairwise_cons h.ascending hq
      omega

/-- Calls that make an analyzer measure the frames from `a` to `b` of a sound, seeded with those before `a`. -/
structure Spec.SoundShare (n : Nat) (F : List (List Sample)) (a b : Nat) (ops : List (Op F64 F32)) : Prop where
  feeds : ∀ op ∈ ops, Feed op
  sound : sound n ops = (F.take a).map (fun f => (false, f)) ++ ((F.take b).drop a).map fun f => (true, f)

variable {m : Libm F64} {bs : BSearch} {t : Target}

theorem inputFrames_frames (n : Nat) (x : Input F64 F32) :
    inputFrames (ieeeEnv m bs t) n x = (frames n x).map (·.map fun v => (v.val m bs t).f64) := by
  cases x <;> simp only [inputFrames, frames, mapFrames, ← groups_map', ← columns_map', List.map_map, Function.comp_def] <;> rfl

/-- Such calls are a share in the sense of `C44_windows` too, so what is said there about blocks and energies holds. -/
theorem Spec.SoundShare.share {n a b : Nat} {F : List (List Sample)} {ops : List (Op F64 F32)}
    (h : SoundShare n F a b ops) :
    Share (ieeeEnv m bs t) n (F.map (·.map fun v => (v.val m bs t).f64)) a b ops := by
  refine ⟨h.feeds, ?_⟩
  have h1 : heard (ieeeEnv m bs t) n ops =
      (Spec.sound n ops).map fun p => ⟨p.1, p.2.map fun v => (v.val m bs t).f64⟩ := by
    unfold heard Spec.sound
    rw [List.map_flatMap]
    refine flatMap_congr' fun op _ => ?_
    cases op with
    | addFrames x =>
      simp only [delivered, deliveredBy]
      split
      · rw [inputFrames_frames, List.map_map, List.map_map]; rfl
      · rfl
    | seedFrames x =>
      simp only [delivered, deliveredBy]
      split
      · rw [inputFrames_frames, List.map_map, List.map_map]; rfl
      · rfl
    | _ => rfl
  rw [h1, h.sound, List.map_append, List.map_map, List.map_map, ← List.map_take, ← List.map_take, ← List.map_drop,
    List.map_map, List.map_map]
  rfl

/-- Levels of the events of a part. -/
def partEvs (F : List (List Val)) (a b : Nat) : List Ev :=
  (F.take a).map (fun f => (false, f)) ++ ((F.take b).drop a).map fun f => (true, f)

theorem middle_split {α : Type} (F : List α) {a p b : Nat} (h1 : a ≤ p) (h2 : p ≤ b) :
    (F.take b).drop a = (F.take p).drop a ++ (F.take b).drop p := by
  obtain ⟨k, rfl⟩ : ∃ k, b = p + k := ⟨b - p, by omega⟩
  obtain ⟨j, rfl⟩ : ∃ j, p = a + j := ⟨p - a, by omega⟩
  rw [List.drop_take, List.drop_take, List.drop_take, show a + j + k - a = j + k by omega,
    show a + j - a = j by omega, show a + j + k - (a + j) = k by omega, List.take_add, List.drop_drop]

theorem level_split (F : List (List Val)) (c : Nat) {a p b : Nat} (h1 : a ≤ p) (h2 : p ≤ b) :
    levKey c (partEvs F a b) = max (levKey c (partEvs F a p)) (levKey c (partEvs F p b)) := by
  unfold partEvs
  simp only [levKey_append, levKey_false, middle_split F h1 h2, List.map_append]
  omega

theorem over_split (e : Ebu F64 F32) (F : List (List Val)) (c : Nat) {a p b : Nat} (h1 : a ≤ p) (h2 : p ≤ b) :
    overKey m bs t e c (partEvs F a b) =
      max (overKey m bs t e c (partEvs F a p)) (overKey m bs t e c (partEvs F p b)) := by
  unfold overKey
  cases e.monoOf c with
  | none => rfl
  | some ip =>
    dsimp only
    have hcol : ∀ l l' : List (List Val), column c (l ++ l') = column c l ++ column c l' := by
      intro l l'; simp [column]
    have h3 : F.take p = F.take a ++ (F.take p).drop a := by
      have : F.take a = (F.take p).take a := by rw [List.take_take, Nat.min_eq_left h1]
      rw [this, List.take_append_drop]
    have hev : ∀ (q r : Nat), ip.evKey m bs t (stream c (partEvs F q r)) =
        (ip.fed m bs t ((column c (F.take q)).map Val.f32)).evKey m bs t
          (((column c ((F.take r).drop q)).map Val.f32).map fun x => (true, x)) := by
      intro q r
      unfold partEvs
      rw [stream_append, stream_mk, stream_mk, Interp.evKey_append, Interp.evKey_false, Nat.zero_max, List.map_map]
      congr 2
      simp [Function.comp_def]
    rw [hev, hev, hev, middle_split F h1 h2, hcol, List.map_append, List.map_append, Interp.evKey_append]
    congr 1
    conv_rhs => rw [h3, hcol, List.map_append, Interp.fed_append]
    congr 2
    simp [Function.comp_def]

theorem isPeak_map {α : Type} (l : List α) (f : α → Nat) :
    IsPeak (l.map fun x => pk _ (f x)) (pk _ (maxKey f l)) := by
  refine ⟨isNan_pk _, ?_, ?_⟩
  · intro x hx _
    obtain ⟨y, hy, rfl⟩ := List.mem_map.1 hx
    exact le_pk (le_maxKey f hy)
  · rcases maxKey_attained f l with h | ⟨x, hx, h⟩
    · right
      rw [h]
      rfl
    · left
      rw [← h]
      exact List.mem_map.2 ⟨x, hx, rfl⟩

/-- **C44.** The largest of the sample peaks, and of the true peaks, of all parts is that of the whole signal.
On every target. -/
theorem C44_peaks {e0 e : Ebu F64 F32} {es : List (Ebu F64 F32)}
    (h0 : PeakStart (ieeeEnv m bs t) e0) (ha : Adequate e0.mode e0.rate e0.window) {s : Nat} {F : List (List Sample)} {ps : List Nat}
    (hp : SplitPoints s F.length ps) {parts : List (List (Op F64 F32))} {whole : List (Op F64 F32)}
    (h : List.Forall₂ (fun c ops => SoundShare e0.channels F c.1 c.2 ops) (chunks s 0 ps F.length) parts)
    (hw : SoundShare e0.channels F 0 F.length whole)
    (hes : List.Forall₂ (fun ops e => runOps (ieeeEnv m bs t) e0 ops = .done e) parts es)
    (he : runOps (ieeeEnv m bs t) e0 whole = .done e) {c : UInt32} (hc : c.toNat < e0.channels) :
    (e0.mode.contains Mode.SAMPLE_PEAK = true → ∃ xs p,
      List.Forall₂ (fun e x => ask (ieeeEnv m bs t) e (.samplePeak c) = .done (.ok x)) es xs ∧
      ask (ieeeEnv m bs t) e (.samplePeak c) = .done (.ok p) ∧ IsPeak xs p) ∧
    (e0.mode.contains Mode.TRUE_PEAK = true → ∃ xs p,
      List.Forall₂ (fun e x => ask (ieeeEnv m bs t) e (.truePeak c) = .done (.ok x)) es xs ∧
      ask (ieeeEnv m bs t) e (.truePeak c) = .done (.ok p) ∧ IsPeak xs p) := by
  have hr := h0.reachable
  have hi := hr.inv
  have hg := hi.good_iff.2 ha
  have hpos := hr.inv2.pos hg
  have hone : ∀ {a b : Nat} {ops : List (Op F64 F32)} {e1 : Ebu F64 F32}, SoundShare e0.channels F a b ops →
      runOps (ieeeEnv m bs t) e0 ops = .done e1 →
      (e0.mode.contains Mode.SAMPLE_PEAK = true → ask (ieeeEnv m bs t) e1 (.samplePeak c) =
        .done (.ok (pk _ (levKey c.toNat (partEvs (F.map (·.map (Sample.val m bs t))) a b))))) ∧
      (e0.mode.contains Mode.TRUE_PEAK = true → ask (ieeeEnv m bs t) e1 (.truePeak c) =
        .done (.ok (pk _ (max (levKey c.toNat (partEvs (F.map (·.map (Sample.val m bs t))) a b))
          (wkey (overKey m bs t e0 c.toNat (partEvs (F.map (·.map (Sample.val m bs t))) a b))))))) := by
    intro a b ops e1 hsh hrun
    have k := Heard.run hi hg hpos hsh.feeds hrun
    have hev : ops.flatMap (evsOf m bs t e0.channels) = partEvs (F.map (·.map (Sample.val m bs t))) a b := by
      rw [evs_sound, hsh.sound, List.map_append, List.map_map, List.map_map]
      unfold partEvs
      rw [← List.map_take, ← List.map_take, ← List.map_drop, List.map_map, List.map_map]
      rfl
    rw [hev] at k
    obtain ⟨a', q', P⟩ := k.peak c.toNat hc (h0.peak hc)
    have hcc : c.toNat < e1.channels := by rw [k.same.channels]; exact hc
    constructor
    · intro hm
      rw [ask_sample (by rw [k.same.mode]; exact hm) hcc P.sample, if_pos hm, Nat.zero_max]
    · intro hm
      rw [ask_true (by rw [k.same.mode]; exact hm) hcc P.sample P.true, if_pos (true_sample hm), Nat.zero_max,
        Nat.zero_max]
  have hlist : ∀ {q : Query} {f : Nat → Nat → Nat}, (∀ {a b : Nat} {ops : List (Op F64 F32)} {e1 : Ebu F64 F32},
      SoundShare e0.channels F a b ops → runOps (ieeeEnv m bs t) e0 ops = .done e1 →
      ask (ieeeEnv m bs t) e1 q = .done (.ok (pk _ (f a b)))) →
      (∀ a p b, a ≤ p → p ≤ b → b ≤ F.length → f a b = max (f a p) (f p b)) →
      ∃ xs p, List.Forall₂ (fun e x => ask (ieeeEnv m bs t) e q = .done (.ok x)) es xs ∧
        ask (ieeeEnv m bs t) e q = .done (.ok p) ∧ IsPeak xs p := by
    intro q f hf hsplit
    refine ⟨(chunks s 0 ps F.length).map fun c => pk _ (f c.1 c.2), pk _ (f 0 F.length), ?_, hf hw he, ?_⟩
    · clear hp
      generalize chunks s 0 ps F.length = cs at h
      induction h generalizing es with
      | nil => cases hes; exact List.Forall₂.nil
      | cons hc _ ih =>
        cases hes with
        | cons hx hes => exact List.Forall₂.cons (hf hc hx) (ih hes)
    · have := isPeak_map (chunks s 0 ps F.length) fun c => f c.1 c.2
      rwa [chunks_max f hsplit ps 0 hp (by intro p hq; rw [Nat.zero_add]; exact hp.overlap p hq)] at this
  constructor
  · intro hm
    exact hlist (f := fun a b => levKey c.toNat (partEvs (F.map (·.map (Sample.val m bs t))) a b))
      (fun h1 h2 => (hone h1 h2).1 hm) fun a p b h1 h2 _ => level_split _ _ h1 h2
  · intro hm
    refine hlist (f := fun a b => max (levKey c.toNat (partEvs (F.map (·.map (Sample.val m bs t))) a b))
      (wkey (overKey m bs t e0 c.toNat (partEvs (F.map (·.map (Sample.val m bs t))) a b))))
      (fun h1 h2 => (hone h1 h2).2 hm) fun a p b h1 h2 _ => ?_
    rw [level_split _ _ h1 h2, over_split _ _ _ h1 h2, wkey_max]
    omega

/-! ## Histories, and concrete cases -/

theorem foldl_queue {D S : Type} (E : Env D S) (max : Nat) (xs : List D) : ∀ q : List D, q.length + xs.length ≤ max →
    xs.foldl (History.addP E) (.queue q max) = .queue (q ++ xs.filter fun x => !E.f64.lt x (gate0 E)) max := by
  induction xs with
  | nil => intro q _; simp
  | cons x xs ih =>
    intro q hq
    rw [List.length_cons] at hq
    rw [List.foldl_cons]
    by_cases hx : E.f64.lt x (gate0 E) = true
    · rw [show (History.queue q max).addP E x = .queue q max by unfold History.addP; rw [if_pos hx], ih q (by omega),
        List.filter_cons_of_neg (by simp [hx])]
    · have h1 : (History.queue q max).addP E x = .queue (q ++ [x]) max := by
        unfold History.addP
        rw [if_neg hx]
        dsimp only
        unfold queueAdd
        rw [if_neg (by omega)]
      rw [h1, ih _ (by rw [List.length_append, List.length_singleton]; omega), List.filter_cons_of_pos (by simp [hx]),
        List.append_assoc]
      rfl

theorem blockEnds_le {s : Nat} (hs : 0 < s) {n n' : Nat} (h : n ≤ n') :
    (blockEnds s n).length ≤ (blockEnds s n').length := by
  obtain ⟨k, rfl⟩ : ∃ k, n' = n + k := ⟨n' - n, by omega⟩
  clear h
  induction k with
  | zero => exact Nat.le_refl _
  | succ k ih =>
    rw [← Nat.add_assoc, blockEnds_succ hs, List.length_append]
    omega

/-- **C44** for the stored blocks: if the parts begin at multiples of the length of the ring buffer, the histories of
the analyzers of the parts are, one after the other, bit for bit the history of the analyzer of the whole signal.  In
any arithmetic. -/
theorem C44_histories {D S : Type} {E : Env D S} (hz : E.noFtz = false) {e0 e : Ebu D S} {es : List (Ebu D S)}
    (h0 : Started E e0) (ha : Adequate e0.mode e0.rate e0.window) (hI : e0.mode.contains Mode.I = true)
    {F : List (List D)} {ps : List Nat} {max : Nat} (hq : e0.blockEnergyHistory = .queue [] max)
    (hroom : (blockEnds (hop e0.rate) F.length).length ≤ max)
    (hp : SplitPoints (hop e0.rate) F.length ps)
    (hcap : ∀ p ∈ ps, (p - 3 * hop e0.rate) % capacity e0.rate e0.window = 0)
    {parts : List (List (Op D S))} {whole : List (Op D S)}
    (h : List.Forall₂ (fun c ops => Share E e0.channels F c.1 c.2 ops) (chunks (hop e0.rate) 0 ps F.length) parts)
    (hw : Share E e0.channels F 0 F.length whole)
    (hes : List.Forall₂ (fun ops e => runOps E e0 ops = .done e) parts es) (he : runOps E e0 whole = .done e) :
    ∃ qs : List (List D), es.map Ebu.blockEnergyHistory = qs.map (fun q => .queue q max) ∧
      e.blockEnergyHistory = .queue qs.flatten max := by
  have hi := h0.reachable.inv
  have hs : 0 < hop e0.rate := hop_pos hi.rate16
  have hall := C44_energies (window := e0.window) (cm := e0.channelMap) hs hp hcap h hw
  have hone : ∀ {a b : Nat} {ops : List (Op D S)} {e1 : Ebu D S}, b ≤ F.length →
      Share E e0.channels F a b ops → runOps E e0 ops = .done e1 →
      e1.blockEnergyHistory = .queue ((blockEnergies E e0.rate e0.window e0.channels e0.channelMap ops).filter
        fun x => !E.f64.lt x (gate0 E)) max := by
    intro a b ops e1 hb hsh hrun
    have h1 := (C13_blocks hz h0 ha hsh.feeds hrun).1 hI
    rw [foldL_add _ hi.hist, hq] at h1
    injection h1 with h1
    rw [foldl_queue, List.nil_append] at h1
    · exact h1.symm
    · rw [List.length_nil, Nat.zero_add, List.length_map, hsh.measured hb]
      exact Nat.le_trans (blockEnds_le hs (by omega)) hroom
  refine ⟨parts.map fun ops => (blockEnergies E e0.rate e0.window e0.channels e0.channelMap ops).filter
    fun x => !E.f64.lt x (gate0 E), ?_, ?_⟩
  · have hbd : ∀ c ∈ chunks (hop e0.rate) 0 ps F.length, c.1 ≤ c.2 ∧ c.2 ≤ F.length := fun c hc =>
      chunks_bounds ps 0 hp (Nat.zero_le _) (fun _ _ => Nat.zero_le _) hc
    clear hall
    generalize chunks (hop e0.rate) 0 ps F.length = cs at h hbd
    induction h generalizing es with
    | nil => cases hes; rfl
    | cons hc _ ih =>
      cases hes with
      | cons hx hes =>
        rw [List.map_cons, List.map_cons, List.map_cons, ih hes fun c hc => hbd c (by simp [hc]),
          hone (hbd _ (by simp)).2 hc hx]
  · rw [hone le_rfl hw he, ← hall, List.filter_flatMap]
    rfl

/-- Calls giving a share of a sound of 16-bit samples. -/
def Spec.calls16 (F : List (List Int16)) (a b : Nat) : List (Op F64 F32) :=
  [.seedFrames (.i16 (F.take a).flatten), .addFrames (.i16 ((F.take b).drop a).flatten)]

theorem calls16_share {n : Nat} (hn : 0 < n) {F : List (List Int16)} (hF : ∀ f ∈ F, f.length = n) (a b : Nat) :
    SoundShare n (F.map (·.map .i16)) a b (calls16 F a b) := by
  refine ⟨by simp [calls16, Feed], ?_⟩
  have hfl : ∀ G : List (List Int16), (∀ f ∈ G, f.length = n) →
      WellFormed n (Input.i16 G.flatten : Input F64 F32) ∧
        frames n (.i16 G.flatten) = G.map (·.map .i16) := by
    intro G hG
    constructor
    · show G.flatten.length % n = 0
      exact length_flatten_mod fun f hf => by rw [hG f hf, Nat.mod_self]
    · show groups n (G.flatten.map _) = _
      rw [groups_map', groups_flatten (by omega) hG]
  obtain ⟨w1, f1⟩ := hfl (F.take a) fun f hf => hF f (List.mem_of_mem_take hf)
  obtain ⟨w2, f2⟩ := hfl ((F.take b).drop a) fun f hf => hF f (List.mem_of_mem_take (List.mem_of_mem_drop hf))
  simp only [Spec.sound, calls16, List.flatMap_cons, List.flatMap_nil, List.append_nil, deliveredBy, if_pos w1, if_pos w2,
    f1, f2, List.map_take, List.map_drop]

/-- The gating blocks kept, and the overall sample peak, of a mono analyzer at 18 Hz. -/
def Demo.chunkReport (ops : List (Op F64 F32)) : Option (List F64 × Option Nat) :=
  match Demo.afterN (Demo.envReal false) 1 18 (Mode.I ||| Mode.SAMPLE_PEAK) ops with
  | some e => match e.blockEnergyHistory with
    | .queue q _ => some (q, Demo.bitsOf (ask (Demo.envReal false) e (.samplePeak 0)))
    | _ => none
  | none => none

def Demo.chunkSound : List (List Int16) :=
  [1000, -20000, 3000, 5, -6, 30000, 7, 80, 100, 200, -3000, 500, -600, 3000, 70, 8, 9000, -9000, 9000, -9000].map ([·])

/-- Twenty frames, 100 ms being two and the ring eight: split after fourteen, the second part begins at eight and
the blocks of the parts are bit for bit those of the whole.  Split after ten the second part begins at four, and the
energies are those of the same values summed in another order. -/
theorem Demo.chunk_report :
    chunks 2 0 [14] 20 = [(0, 14), (8, 20)] ∧ SplitPoints 2 20 [14] ∧ capacity 18 400 = 8 ∧
    (match Demo.chunkReport (calls16 Demo.chunkSound 0 20), Demo.chunkReport (calls16 Demo.chunkSound 0 14),
        Demo.chunkReport (calls16 Demo.chunkSound 8 20) with
      | some (q, p), some (q1, p1), some (q2, p2) =>
        decide (q = q1 ++ q2 ∧ q1.length = 4 ∧ q2.length = 3 ∧ p1 = p ∧ p2 ≠ p)
      | _, _, _ => false) = true ∧
    chunks 2 0 [10] 20 = [(0, 10), (4, 20)] ∧
    (match Demo.chunkReport (calls16 Demo.chunkSound 0 20), Demo.chunkReport (calls16 Demo.chunkSound 0 10),
        Demo.chunkReport (calls16 Demo.chunkSound 4 20) with
      | some (q, _), some (q1, _), some (q2, _) =>
        decide (q ≠ q1 ++ q2 ∧ q.length = (q1 ++ q2).length)
      | _, _, _ => false) = true := by
  refine ⟨by decide, ⟨by simp, by simp, by simp, by simp⟩, by decide, ?_, by decide, ?_⟩ <;>
  decide +kernel

end Verif
