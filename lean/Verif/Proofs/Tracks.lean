import Verif.Proofs.Meter
import Verif.Proofs.Safe
import Verif.Spec.Soft
/-! # The analyzer state as a function of the frames it received -/

set_option linter.unusedSimpArgs false

namespace Verif
variable {D S T : Type} {Sm : Type → Type}
open Spec

/-- The filter state after the internal values `v` (newest first). -/
def stateOf (z : D) (v : List D) : V5 D := ⟨past z v 0, past z v 0, past z v 1, past z v 2, past z v 3⟩

/-- The measured filter outputs of an analyzer with the coefficients of `f`. -/
def outsOf (E : Env D S) (f : Filter D S) (evs : List (Event D)) : Nat → List D :=
  outs E.f64p f.b f.a E.f64.zero evs

/-- Energies of the gating blocks. -/
def blocksOf (E : Env D S) (e : Ebu D S) (n : Nat) (ys : Nat → List D) : List D :=
  (blockEnds e.samplesIn100ms n).map fun m =>
    energy E e.ring (e.samplesIn100ms * 4) m e.channelMap ys

/-- Energies of the short-term blocks. -/
def shortsOf (E : Env D S) (e : Ebu D S) (n : Nat) (ys : Nat → List D) : List D :=
  (shortEnds e.samplesIn100ms n).map fun m =>
    energy E e.ring (e.samplesIn100ms * 30) m e.channelMap ys

/-- `e` is `e0` after `n` measured frames, for everything loudness depends on, with the filter values `V c` (newest
first) and the filtered signal `Y c` in channel `c`. -/
structure Traced (E : Env D S) (e0 : Ebu D S) (n : Nat) (V Y : Nat → List D) (e : Ebu D S) : Prop where
  same : e0.SameCfg e
  coefB : e.filter.b = e0.filter.b
  coefA : e.filter.a = e0.filter.a
  pos : e.PosAt n
  len : ∀ c, (Y c).length = n
  state : ∀ (c : Nat) (ch : Channel), e0.channelMap[c]? = some ch → ch ≠ .unused →
    e.filter.filterState[c]? = some (stateOf E.f64.zero (V c))
  row : ∀ (c : Nat) (ch : Channel), e0.channelMap[c]? = some ch → ch ≠ .unused →
    e.rows[c]? = some (ringOf (n % e0.ring) (lastN E.f64.zero e0.ring (Y c)))
  hist : e.blockEnergyHistory = if e0.mode.contains Mode.I then
    (blocksOf E e0 n Y).foldl (History.addP E) e0.blockEnergyHistory
    else e0.blockEnergyHistory
  short : e.shortTermBlockEnergyHistory = if e0.mode.contains Mode.LRA then
    (shortsOf E e0 n Y).foldl (History.addP E) e0.shortTermBlockEnergyHistory
    else e0.shortTermBlockEnergyHistory

/-- `e` is `e0` after the frames `evs`, with hardware flush-to-zero. -/
abbrev Tracks (E : Env D S) (e0 : Ebu D S) (evs : List (Event D)) (e : Ebu D S) : Prop :=
  Traced E e0 (count evs) (fun c => internal E.f64p e0.filter.a E.f64.zero (chan E.f64.zero c evs))
    (outsOf E e0.filter evs) e

theorem Ebu.SameCfg.ring {e e' : Ebu D S} (h : e.SameCfg e') : e'.ring = e.ring := by
  simp only [Ebu.ring, h.rate, h.window]

theorem Traced.of_strip {E : Env D S} {e0 : Ebu D S} {n : Nat} {V Y : Nat → List D} {e e' : Ebu D S}
    (h : Traced E e0 n V Y e) (hs : e'.strip = e.strip) : Traced E e0 n V Y e' := by
  have g := fun {α : Type} (f : Ebu D S → α) => congrArg f hs
  refine ⟨⟨?_, ?_, ?_, ?_, ?_, ?_, ?_⟩, ?_, ?_, ⟨?_, ?_, ?_⟩, h.len, ?_, ?_, ?_, ?_⟩
  · exact (g (·.mode)).trans h.same.mode
  · exact (g (·.rate)).trans h.same.rate
  · exact (g (·.channels)).trans h.same.channels
  · exact (g (·.channelMap)).trans h.same.map
  · exact (g (·.samplesIn100ms)).trans h.same.s100
  · exact (g (·.window)).trans h.same.window
  · exact (g (·.history)).trans h.same.history
  · exact (g (·.filter.b)).trans h.coefB
  · exact (g (·.filter.a)).trans h.coefA
  · have h1 : e'.ring = e.ring := g (·.ring)
    rw [h1]; exact (g (·.audioDataIndex)).trans h.pos.idx
  · have h1 : e'.samplesIn100ms = e.samplesIn100ms := g (·.samplesIn100ms)
    rw [h1]; exact (g (·.neededFrames)).trans h.pos.needed
  · have h1 : e'.samplesIn100ms = e.samplesIn100ms := g (·.samplesIn100ms)
    have h2 : e'.mode = e.mode := g (·.mode)
    rw [h1, h2]; exact (g (·.shortTermFrameCounter)).trans h.pos.stc
  · intro c ch h1 h2
    have h3 : e'.filter.filterState = e.filter.filterState := g (·.filter.filterState)
    rw [h3]; exact h.state c ch h1 h2
  · intro c ch h1 h2
    have h3 : e'.rows = e.rows := g (·.rows)
    rw [h3]; exact h.row c ch h1 h2
  · exact (g (·.blockEnergyHistory)).trans h.hist
  · exact (g (·.shortTermBlockEnergyHistory)).trans h.short

/-! ## One frame -/

theorem Ebu.addP_keeps {E : Env D S} (ops : SampleOps D S T) {e : Ebu D S} (h : e.Inv E) (hg : e.Good)
    {n : Nat} (hp : e.PosAt n) {fs : List (List T)} (hf : RectF e.channels fs) :
    (e.addP E ops fs).Inv E ∧ e.SameCfg (e.addP E ops fs) ∧ (e.addP E ops fs).PosAt (n + fs.length) := by
  have h0 : e.channels ≠ 0 := by have := h.ch1; omega
  have hfr : chunksExact e.channels fs.flatten = fs := chunksExact_flatten h0 hf
  have hw : interOk e.channels fs.flatten := ⟨h0, by rw [length_flatten_of hf]; simp⟩
  have := Ebu.addFrames_eq ops h hg hp (src := (⟨fs.flatten, e.channels⟩ : Interleaved T)) (interOk_wf hw) rfl
  have hto : LawfulSamples.toFrames (⟨fs.flatten, e.channels⟩ : Interleaved T) = fs := hfr
  rw [hto] at this
  exact this.2

theorem stateOf_step (A : Arith D) (b a : V5 D) (z : D) (v : List D) (x : D) :
    runFilter A b a (stateOf z v) [x] =
      (stateOf z (next A a z v x :: v), [response A b z (next A a z v x :: v)]) := rfl

theorem internal_next (A : Arith D) (a : V5 D) (z : D) (xs : List D) (x : D) :
    internal A a z (xs ++ [x]) = next A a z (internal A a z xs) x :: internal A a z xs :=
  internal_snoc A a z xs x

theorem Spec.energy_congr (E : Env D S) (L N n : Nat) (cm : List Channel) {ys ys' : Nat → List D}
    (h : ∀ c ch, cm[c]? = some ch → ch ≠ .unused → (ys c).take n = (ys' c).take n) :
    energy E L N n cm ys = energy E L N n cm ys' := by
  unfold energy
  congr 1
  unfold channelSum
  have key : ∀ (l : List (Channel × Nat)) (s : D),
      (∀ x ∈ l, x.1 ≠ .unused → (ys x.2).take n = (ys' x.2).take n) →
      l.foldl (fun s x => if x.1 = .unused then s else E.f64.add s (weighted E.f64 x.1
        (sumSq E.f64 (readOrder L n (lastN E.f64.zero N ((ys x.2).take n)))))) s =
      l.foldl (fun s x => if x.1 = .unused then s else E.f64.add s (weighted E.f64 x.1
        (sumSq E.f64 (readOrder L n (lastN E.f64.zero N ((ys' x.2).take n)))))) s := by
    intro l
    induction l with
    | nil => intro s _; rfl
    | cons x l ih =>
      intro s hl
      simp only [List.foldl_cons]
      rw [ih _ (fun y hy => hl y (by simp [hy]))]
      by_cases hu : x.1 = .unused
      · simp only [if_pos hu]
      · simp only [if_neg hu, hl x (by simp) hu]
  refine key _ _ (fun x hx hu => ?_)
  have := List.mem_zipIdx hx
  refine h x.2 x.1 ?_ hu
  have h3 := this.2.2
  rw [List.getElem?_eq_getElem (by omega)]
  congr 1
  rw [h3]; congr 1

theorem tick_iff {s n : Nat} (hs : 0 < s) : needAt s n = 1 ↔ (n + 1) % s = 0 ∧ 4 * s ≤ n + 1 := by
  unfold needAt
  constructor
  · intro h
    have := needAt_end (n := n) hs
    unfold needAt at this
    rw [h] at this
    exact ⟨this.1, this.2.1⟩
  · rintro ⟨h1, h2⟩
    split
    · next hlt => omega
    · have hm : n % s < s := Nat.mod_lt _ hs
      rcases Nat.lt_or_ge (n % s + 1) s with h3 | h3
      · rw [mod_add_of_lt h3] at h1; omega
      · omega

theorem short_iff {s n : Nat} (hs : 0 < s) :
    stcAt s n + 1 = s * 30 ↔ (n + 1) % (10 * s) = 0 ∧ 30 * s ≤ n + 1 := by
  unfold stcAt
  have h10 : 0 < 10 * s := by omega
  have hm : n % (10 * s) < 10 * s := Nat.mod_lt _ h10
  constructor
  · intro h
    split at h
    · have : n + 1 = 10 * s * 3 := by omega
      exact ⟨by rw [this]; exact Nat.mul_mod_right _ _, by omega⟩
    · exact ⟨mod_add_of_eq (by omega), by omega⟩
  · rintro ⟨h1, h2⟩
    split
    · omega
    · rcases Nat.lt_or_ge (n % (10 * s) + 1) (10 * s) with h3 | h3
      · rw [mod_add_of_lt h3] at h1; omega
      · omega

theorem Ebu.completeP_fields (E : Env D S) (e : Ebu D S) :
    (e.completeP E).filter = e.filter ∧ (e.completeP E).rows = e.rows ∧
    (e.completeP E).blockEnergyHistory = (if e.mode.contains Mode.I then
      e.blockEnergyHistory.addP E (e.energyP E (e.samplesIn100ms * 4)) else e.blockEnergyHistory) ∧
    (e.completeP E).shortTermBlockEnergyHistory =
      (if e.mode.contains Mode.LRA = true ∧ e.shortTermFrameCounter = e.samplesIn100ms * 30 then
        e.shortTermBlockEnergyHistory.addP E (e.energyP E (e.samplesIn100ms * 30))
      else e.shortTermBlockEnergyHistory) := by
  have h := Ebu.shortP_fields E (e.gateP E)
  refine ⟨h.2.2.2.2.2.2.2.1, ?_, h.2.2.2.2.2.2.2.2.1, ?_⟩
  · show chunksExact ((e.gateP E).shortP E).ring ((e.gateP E).shortP E).audioData = _
    have h1 : ((e.gateP E).shortP E).ring = e.ring := by
      simp only [Ebu.ring, h.2.1, h.2.2.2.2.2.2.1]; rfl
    rw [h1, h.2.2.2.1]
    rfl
  · show ((e.gateP E).shortP E).shortTermBlockEnergyHistory = _
    unfold Ebu.shortP
    by_cases hc : e.mode.contains Mode.LRA = true ∧ e.shortTermFrameCounter = e.samplesIn100ms * 30
    · rw [if_pos hc, if_pos (by exact hc)]; rfl
    · rw [if_neg hc, if_neg (by exact hc)]; rfl

theorem Traced.add1 {E : Env D S} (hz : E.noFtz = false) (ops : SampleOps D S T) {e0 e : Ebu D S} {n : Nat}
    {V Y V' Y' : Nat → List D} (h : Traced E e0 n V Y e) (hi : e.Inv E) (hg : e.Good) {f : List T}
    (hf : f.length = e.channels)
    (hV : ∀ c, V' c = next E.f64p e0.filter.a E.f64.zero (V c) ((f.map ops.toF64).getD c E.f64.zero) :: V c)
    (hY : ∀ c, Y' c = Y c ++ [response E.f64p e0.filter.b E.f64.zero (V' c)]) :
    Traced E e0 (n + 1) V' Y' (e.addP E ops [f]) := by
  have hrect : RectF e.channels [f] := fun g hg => by simp at hg; rw [hg, hf]
  obtain ⟨hinv', hsame', hpos'⟩ := Ebu.addP_keeps ops hi hg h.pos hrect
  have hstrip := Ebu.strip_addP hz ops hi hg h.pos hrect
  simp only [List.foldl_cons, List.foldl_nil] at hstrip
  let ev : Event D := ⟨true, f.map ops.toF64⟩
  have hev : ev = ⟨true, f.map ops.toF64⟩ := rfl
  have hring : e.ring = e0.ring := h.same.ring
  have hs0 : 0 < e.samplesIn100ms := by rw [hi.s100]; exact s100_pos hi.rate16
  have hroom := hi.idx_room hg h.pos
  have hneed := hi.needed
  -- the state after the filter
  have hshape := hi.shape
  have hlen1 : e.strip.audioDataIndex + [f].length ≤ e.strip.ring := by
    show e.audioDataIndex + 1 ≤ e.ring; omega
  let a : Ebu D S := e.strip.advanceC E ops [f]
  have ha : a = e.strip.advanceC E ops [f] := rfl
  have hashape : a.Shape := Ebu.advanceC_shape ops hshape hrect hlen1
  have harows : a.rows = rowsP E ops e.strip.filter [f] e.strip.rows e.audioDataIndex e.strip.channelMap :=
    Ebu.rows_advanceC (E := E) ops hshape hrect hlen1
  have hcol : ∀ c : Nat, c < e.channels → colF64 ops c [f] = [ev.frame.getD c E.f64.zero] := by
    intro c hc
    have : f[c]? = some (f[c]'(by omega)) := List.getElem?_eq_getElem _
    simp [colF64, column, hev, this]
  have hcm : ∀ (c : Nat) (ch : Channel), e0.channelMap[c]? = some ch →
      e.channelMap[c]? = some ch ∧ c < e.channels := by
    intro c ch hc
    rw [← h.same.map] at hc
    refine ⟨hc, ?_⟩
    have := (List.getElem?_eq_some_iff.1 hc).1
    rw [hi.map] at this; exact this
  have hstate : ∀ (c : Nat) (ch : Channel), e0.channelMap[c]? = some ch → ch ≠ .unused →
      a.filter.filterState[c]? = some (stateOf E.f64.zero
        (V' c)) := by
    intro c ch hc hu
    have h1 := hcm c ch hc
    have h2 := statesP_get E ops e.strip.filter [f] e.strip.channelMap h1.1 (h.state c ch hc hu)
    refine h2.trans ?_
    rw [hcol c h1.2, chanState, if_neg hu, flushState, if_neg (by rw [hz]; simp)]
    have h3 : e.strip.filter.a = e0.filter.a := h.coefA
    rw [h3, stateOf_step, hV]
  have hrow : ∀ (c : Nat) (ch : Channel), e0.channelMap[c]? = some ch → ch ≠ .unused →
      a.rows[c]? = some (ringOf (n % e0.ring + 1)
        (lastN E.f64.zero e0.ring (Y' c))) := by
    intro c ch hc hu
    have h1 := hcm c ch hc
    rw [harows, rowsP_get E ops e.strip.filter [f] e.strip.rows e.audioDataIndex e.strip.channelMap h1.1
      (h.state c ch hc hu) (h.row c ch hc hu), hcol c h1.2, chanRow, if_neg hu]
    have h3 : e.strip.filter.a = e0.filter.a := h.coefA
    have h4 : e.strip.filter.b = e0.filter.b := h.coefB
    rw [h3, h4, stateOf_step]
    simp only
    have hidx : e.audioDataIndex = n % e0.ring := by rw [← hring]; exact h.pos.idx
    have h0 := hi.ring_pos
    rw [hidx, ringOf_write (by rw [lastN_length, ← hring]; exact Nat.mod_lt _ h0), hY, hV,
      lastN_snoc _ (by rw [← hring]; exact h0)]
  -- the energies, with the ring index before the wrap
  have hprefix : ∀ (c m : Nat), m ≤ n →
      (Y' c).take m = (Y c).take m := by
    intro c m hm
    rw [hY, List.take_append_of_le_length (by rw [h.len]; exact hm)]
  have hen : ∀ N, N ≤ e0.ring → a.energyP E N =
      energy E e0.ring N (n + 1) e0.channelMap (Y') := by
    intro N hN
    unfold Ebu.energyP energy
    have hcm2 : a.channelMap = e0.channelMap := h.same.map
    rw [hcm2]
    refine energyP_spec ?_ ?_
    · rw [hashape.rows_spec.1, ← hashape.map, hcm2]
    · intro c ch row hc hu hr
      rw [hrow c ch hc hu] at hr
      cases hr
      have hidx : a.audioDataIndex = n % e0.ring + 1 := by
        show e.audioDataIndex + 1 = _
        rw [h.pos.idx, hring]
      have h0 := hi.ring_pos
      have hml : n % e0.ring < e0.ring := by rw [← hring]; exact Nat.mod_lt _ h0
      rw [hidx, ringOf_window (L := e0.ring) (n := n + 1) (lastN_length ..) hN (by omega) ?_]
      · rw [← lastN_le _ hN]
        have : (Y' c).take (n + 1) = Y' c := by
          apply List.take_of_length_le
          rw [hY, List.length_append, h.len]
          exact Nat.le_refl _
        rw [this]
        rfl
      · rcases Nat.lt_or_ge (n % e0.ring + 1) e0.ring with h3 | h3
        · left; rw [mod_add_of_lt h3]
        · right
          exact ⟨by omega, mod_add_of_eq (by omega)⟩
  have hblocks : blocksOf E e0 (n) (Y') =
      blocksOf E e0 (n) (Y) := by
    unfold blocksOf
    apply List.map_congr_left
    intro m hm
    have hm' := (mem_blockEnds (by rw [← h.same.s100]; exact hs0)).1 hm
    exact energy_congr E _ _ _ _ (fun c _ _ _ => hprefix c m hm'.2.2)
  have hshorts : shortsOf E e0 (n) (Y') =
      shortsOf E e0 (n) (Y) := by
    unfold shortsOf
    apply List.map_congr_left
    intro m hm
    have hm' := (mem_shortEnds (by rw [← h.same.s100]; exact hs0)).1 hm
    exact energy_congr E _ _ _ _ (fun c _ _ _ => hprefix c m hm'.2.2)
  have hs1 : 0 < e0.samplesIn100ms := by rw [← h.same.s100]; exact hs0
  have hblocks' : blocksOf E e0 (n + 1) (Y') =
      blocksOf E e0 (n) (Y) ++
        if needAt e0.samplesIn100ms (n) = 1 then [a.energyP E (e0.samplesIn100ms * 4)] else [] := by
    rw [← hblocks]
    unfold blocksOf
    rw [blockEnds_succ hs1, List.map_append]
    congr 1
    have hgate := hg.gate
    rw [h.same.s100, hring] at hgate
    by_cases ht : needAt e0.samplesIn100ms (n) = 1
    · rw [if_pos ht, if_pos ((tick_iff hs1).1 ht), hen _ hgate]
      rfl
    · rw [if_neg ht, if_neg (fun hh => ht ((tick_iff hs1).2 hh))]
      rfl
  have hshorts' : e0.mode.contains Mode.LRA = true →
      shortsOf E e0 (n + 1) (Y') =
      shortsOf E e0 (n) (Y) ++
        if stcAt e0.samplesIn100ms (n) + 1 = e0.samplesIn100ms * 30
          then [a.energyP E (e0.samplesIn100ms * 30)] else [] := by
    intro hl
    rw [← hshorts]
    unfold shortsOf
    rw [shortEnds_succ hs1, List.map_append]
    congr 1
    have hgate := hg.short (by rw [h.same.mode]; exact hl)
    rw [h.same.s100, hring] at hgate
    by_cases ht : stcAt e0.samplesIn100ms (n) + 1 = e0.samplesIn100ms * 30
    · rw [if_pos ht, if_pos ((short_iff hs1).1 ht), hen _ hgate]
      rfl
    · rw [if_neg ht, if_neg (fun hh => ht ((short_iff hs1).2 hh))]
      rfl
  -- the frame itself
  have hneeda : a.neededFrames = needAt e0.samplesIn100ms (n) - 1 := by
    show e.neededFrames - 1 = _
    rw [h.pos.needed, h.same.s100]
  have hneedpos : 0 < needAt e0.samplesIn100ms (n) := needAt_pos hs1 _
  have hstca : e0.mode.contains Mode.LRA = true →
      a.shortTermFrameCounter = stcAt e0.samplesIn100ms (n) + 1 := by
    intro hl
    have hl' : e.mode.contains Mode.LRA = true := by rw [h.same.mode]; exact hl
    show (if e.mode.contains Mode.LRA then e.shortTermFrameCounter + 1 else e.shortTermFrameCounter) = _
    rw [if_pos hl', h.pos.stc, if_pos hl', h.same.s100]
  have hmode : a.mode = e0.mode := h.same.mode
  have hsa : a.samplesIn100ms = e0.samplesIn100ms := h.same.s100
  have hha : a.blockEnergyHistory = e.blockEnergyHistory := rfl
  have hsh : a.shortTermBlockEnergyHistory = e.shortTermBlockEnergyHistory := rfl
  have htick : Ebu.tickC E ops e.strip f =
      if needAt e0.samplesIn100ms (n) = 1 then a.completeP E else a := by
    unfold Ebu.tickC
    simp only
    rw [← ha, hneeda]
    by_cases ht : needAt e0.samplesIn100ms (n) = 1
    · rw [if_pos (by omega), if_pos ht]
    · rw [if_neg (by omega), if_neg ht]
  rw [htick] at hstrip
  have hwrapidx : (n + 1) % e0.ring = if n % e0.ring + 1 = e0.ring then 0
      else n % e0.ring + 1 := by
    have hml : n % e0.ring < e0.ring := by rw [← hring]; exact Nat.mod_lt _ hi.ring_pos
    split
    · next hh => exact mod_add_of_eq hh
    · exact mod_add_of_lt (by omega)
  have hrow' : ∀ (c : Nat) (ch : Channel), e0.channelMap[c]? = some ch → ch ≠ .unused →
      a.rows[c]? = some (ringOf ((n + 1) % e0.ring)
        (lastN E.f64.zero e0.ring (Y' c))) := by
    intro c ch hc hu
    rw [hrow c ch hc hu, hwrapidx]
    split
    · next hh =>
      have h1 := ringOf_full (lastN E.f64.zero e0.ring (Y' c))
      rw [lastN_length] at h1
      rw [hh, h1, ringOf_zero]
    · rfl
  have hf1 : ∀ x : Ebu D S, x = (if needAt e0.samplesIn100ms (n) = 1 then a.completeP E else a) →
      x.filter = a.filter ∧ x.rows = a.rows := by
    intro x hx
    subst hx
    split
    · exact ⟨(Ebu.completeP_fields E a).1, (Ebu.completeP_fields E a).2.1⟩
    · exact ⟨rfl, rfl⟩
  have hf2 := hf1 _ hstrip
  refine ⟨h.same.trans hsame', ?_, ?_, hpos',
    fun c => by rw [hY, List.length_append, h.len]; rfl, ?_, ?_, ?_, ?_⟩
  · exact (congrArg Filter.b hf2.1).trans h.coefB
  · exact (congrArg Filter.a hf2.1).trans h.coefA
  · intro c ch hc hu
    exact (congrArg (fun f : Filter D S => f.filterState[c]?) hf2.1).trans (hstate c ch hc hu)
  · intro c ch hc hu
    exact (congrArg (fun f : List (List D) => f[c]?) hf2.2).trans (hrow' c ch hc hu)
  · have h1 := congrArg Ebu.blockEnergyHistory hstrip
    refine Eq.trans (show _ = _ from h1) ?_
    rw [hblocks', List.foldl_append]
    have hh := h.hist
    by_cases ht : needAt e0.samplesIn100ms (n) = 1
    · rw [if_pos ht, if_pos ht, (Ebu.completeP_fields E a).2.2.1, hmode, hsa, hha, hh]
      split <;> rfl
    · rw [if_neg ht, if_neg ht, hha, hh]
      rfl
  · have h1 := congrArg Ebu.shortTermBlockEnergyHistory hstrip
    refine Eq.trans (show _ = _ from h1) ?_
    have hh := h.short
    by_cases hl : e0.mode.contains Mode.LRA = true
    · rw [if_pos hl, hshorts' hl, List.foldl_append]
      rw [if_pos hl] at hh
      by_cases ht : needAt e0.samplesIn100ms (n) = 1
      · rw [if_pos ht, (Ebu.completeP_fields E a).2.2.2, hmode, hsa, hsh, hh, hstca hl]
        simp only [hl, true_and]
        split <;> rfl
      · rw [if_neg ht, hsh, hh]
        have : ¬ stcAt e0.samplesIn100ms (n) + 1 = e0.samplesIn100ms * 30 := by
          intro hst
          have h2 := (short_iff hs1).1 hst
          refine ht ((tick_iff hs1).2 ⟨?_, by omega⟩)
          exact Nat.mod_eq_zero_of_dvd (Nat.dvd_trans (Nat.dvd_mul_left _ 10) (Nat.dvd_of_mod_eq_zero h2.1))
        rw [if_neg this]
        rfl
    · rw [if_neg hl]
      rw [if_neg hl] at hh
      by_cases ht : needAt e0.samplesIn100ms (n) = 1
      · rw [if_pos ht, (Ebu.completeP_fields E a).2.2.2, hmode, if_neg (fun hx => hl hx.1), hsh, hh]
      · rw [if_neg ht, hsh, hh]

theorem Tracks.add1 {E : Env D S} (hz : E.noFtz = false) (ops : SampleOps D S T) {e0 e : Ebu D S}
    {evs : List (Event D)} (h : Tracks E e0 evs e) (hi : e.Inv E) (hg : e.Good) {f : List T}
    (hf : f.length = e.channels) :
    Tracks E e0 (evs ++ [⟨true, f.map ops.toF64⟩]) (e.addP E ops [f]) := by
  have hcnt : count (evs ++ [⟨true, f.map ops.toF64⟩]) = count evs + 1 := by
    rw [count_append]; rfl
  unfold Tracks
  rw [hcnt]
  refine Traced.add1 hz ops h hi hg hf (fun c => ?_) (fun c => ?_)
  · rw [chan_append]
    exact internal_next ..
  · unfold outsOf
    rw [outs_snoc]
    rfl

end Verif
