import Verif.Proofs.Soft
import Verif.Props.C13_C15
import Verif.Spec.Libm
import Mathlib.Data.List.Induction
/-!
# C61: which frames the blocks and windows consist of, on every target

C13 to C15 without the assumption of hardware flush-to-zero.  The filtered signal is then that of `Spec.meterOn`: the
states below `2^-52` become zero at the end of every call and of every gating block, and nowhere else.
-/

set_option linter.unusedSimpArgs false

namespace Verif
variable {D S : Type}
open Spec

theorem Started.follows {E : Env D S} (hz : E.f64p.zero = E.f64.zero) {e0 e : Ebu D S} (h : Started E e0)
    (hg : Adequate e0.mode e0.rate e0.window) {ops : List (Op D S)} (hops : ∀ op ∈ ops, Feed op)
    (hrun : runOps E e0 ops = .done e) :
    (∃ V, Traced E e0 (measured E e0.channels ops) V (signalOn E e0.rate e0.channels ops) e) ∧ e.Inv E := by
  have hi := h.reachable.inv
  obtain ⟨ht, hi', -⟩ := h.soft hz hg hops hrun
  have hf := ht.follows
  rw [heardOn_fst, hi.s100, hi.coef.1, hi.coef.2] at hf
  exact ⟨⟨_, hf⟩, hi'⟩

/-- **C61.** C13 on every target: the energies of exactly the blocks of `4 s` frames ending at `4 s, 5 s, 6 s, …`. -/
theorem C61_blocks {E : Env D S} (hz : E.f64p.zero = E.f64.zero) {e0 e : Ebu D S} (h : Started E e0)
    (hg : Adequate e0.mode e0.rate e0.window) {ops : List (Op D S)} (hops : ∀ op ∈ ops, Feed op)
    (hrun : runOps E e0 ops = .done e) :
    (e0.mode.contains Mode.I = true →
      Run.foldL (History.add E) e0.blockEnergyHistory
        ((blockEnds (hop e0.rate) (measured E e0.channels ops)).map fun m =>
          energy E (capacity e0.rate e0.window) (4 * hop e0.rate) m e0.channelMap
            (signalOn E e0.rate e0.channels ops)) = .done e.blockEnergyHistory) ∧
    (e0.mode.contains Mode.I = false → e.blockEnergyHistory = e0.blockEnergyHistory) := by
  have hi := h.reachable.inv
  obtain ⟨⟨V, ht⟩, hi'⟩ := h.follows hz hg hops hrun
  have hh := ht.hist
  have hs : e0.samplesIn100ms = hop e0.rate := hi.s100
  constructor
  · intro hm
    rw [if_pos hm] at hh
    rw [foldL_add E hi.hist, hh]
    unfold blocksOf
    rw [hs, hi.ring_eq, Nat.mul_comm (hop e0.rate)]
  · intro hm
    rw [if_neg (by simp [hm])] at hh
    exact hh

/-- **C61.** C14 on every target: the energies of exactly the blocks of `30 s` frames ending at
`30 s, 40 s, 50 s, …`. -/
theorem C61_shorts {E : Env D S} (hz : E.f64p.zero = E.f64.zero) {e0 e : Ebu D S} (h : Started E e0)
    (hg : Adequate e0.mode e0.rate e0.window) {ops : List (Op D S)} (hops : ∀ op ∈ ops, Feed op)
    (hrun : runOps E e0 ops = .done e) :
    (e0.mode.contains Mode.LRA = true →
      Run.foldL (History.add E) e0.shortTermBlockEnergyHistory
        ((shortEnds (hop e0.rate) (measured E e0.channels ops)).map fun m =>
          energy E (capacity e0.rate e0.window) (30 * hop e0.rate) m e0.channelMap
            (signalOn E e0.rate e0.channels ops)) = .done e.shortTermBlockEnergyHistory) ∧
    (e0.mode.contains Mode.LRA = false →
      e.shortTermBlockEnergyHistory = e0.shortTermBlockEnergyHistory) := by
  have hi := h.reachable.inv
  obtain ⟨⟨V, ht⟩, hi'⟩ := h.follows hz hg hops hrun
  have hh := ht.short
  have hs : e0.samplesIn100ms = hop e0.rate := hi.s100
  constructor
  · intro hm
    rw [if_pos hm] at hh
    rw [foldL_add E hi.stHist, hh]
    unfold shortsOf
    rw [hs, hi.ring_eq, Nat.mul_comm (hop e0.rate)]
  · intro hm
    rw [if_neg (by simp [hm])] at hh
    exact hh

/-- **C61.** C15 on every target: momentary, short-term and window loudness are those of exactly the last `4 s`,
`30 s` and `rate * w / 1000` frames. -/
theorem C61_windows {E : Env D S} (hz : E.f64p.zero = E.f64.zero) {e0 e : Ebu D S} (h : Started E e0)
    (hg : Adequate e0.mode e0.rate e0.window) {ops : List (Op D S)} (hops : ∀ op ∈ ops, Feed op)
    (hrun : runOps E e0 ops = .done e) :
    let L := capacity e0.rate e0.window
    let lev := fun N => level E (energy E L N (measured E e0.channels ops) e0.channelMap
      (signalOn E e0.rate e0.channels ops))
    ask E e .loudnessMomentary = .done (.ok (lev (4 * hop e0.rate))) ∧
    ask E e .loudnessShortterm = .done (if L < 30 * hop e0.rate then .error .invalidMode
      else .ok (lev (30 * hop e0.rate))) ∧
    ∀ w : UInt32, ask E e (.loudnessWindow w) =
      .done (if E.usizeMax < e0.rate * w.toNat ∨ L < e0.rate * w.toNat / 1000 then .error .invalidMode
        else .ok (lev (e0.rate * w.toNat / 1000))) := by
  intro L lev
  have hi := h.reachable.inv
  obtain ⟨⟨V, ht⟩, hi'⟩ := h.follows hz hg hops hrun
  have hs : e.samplesIn100ms = hop e0.rate := ht.same.s100.trans hi.s100
  have hr0 : e0.ring = L := hi.ring_eq
  have hr : e.ring = L := ht.same.ring.trans hr0
  have hlev : ∀ N, N ≤ L → windowLoudness E (e.energyP E N) = lev N := by
    intro N hN
    rw [ht.energy hi' (by rw [hr0]; exact hN), hr0]
    rfl
  refine ⟨?_, ?_, fun w => ?_⟩
  · have h4 := hg.1
    simp only [ask, Ebu.loudnessMomentary_eq hi', hs, hr, Nat.mul_comm (hop e0.rate) 4]
    rw [if_neg (by omega), hlev _ h4]
  · simp only [ask, Ebu.loudnessShortterm_eq hi', hs, hr, Nat.mul_comm (hop e0.rate) 30]
    split
    · rfl
    · rw [hlev _ (by omega)]
  · simp only [ask, Ebu.loudnessWindow_eq hi', ht.same.rate, hr]
    split
    · rfl
    · rw [hlev _ (by omega)]

/-! ## Hardware and software flush -/

theorem settleAll_self {E : Env D S} {v : List D} (h : ∀ x ∈ v, settle E x = x) : settleAll E v = v := by
  unfold settleAll
  conv_rhs => rw [← List.take_append_drop 4 v]
  congr 1
  rw [List.map_congr_left (g := id) (fun x hx => h x (List.mem_of_mem_take hx)), List.map_id]

theorem meterOn_plain {E : Env D S} {b a : V5 D} {c : Nat} {evs : List (Event D × Bool)}
    (h : ∀ x ∈ internal E.f64p a E.f64.zero (chan E.f64.zero c (evs.map Prod.fst)), settle E x = x) :
    (meterOn E b a evs c).1 = internal E.f64p a E.f64.zero (chan E.f64.zero c (evs.map Prod.fst)) ∧
    (meterOn E b a evs c).2 = outs E.f64p b a E.f64.zero (evs.map Prod.fst) c := by
  induction evs using List.reverseRecOn with
  | nil => exact ⟨rfl, rfl⟩
  | append_singleton evs p ih =>
    have hn := internal_next E.f64p a E.f64.zero (chan E.f64.zero c (evs.map Prod.fst)) (p.1.frame.getD c E.f64.zero)
    have hc : chan E.f64.zero c ((evs ++ [p]).map Prod.fst) =
        chan E.f64.zero c (evs.map Prod.fst) ++ [p.1.frame.getD c E.f64.zero] := by
      rw [List.map_append, chan_append]; rfl
    rw [hc, hn] at h
    obtain ⟨i1, i2⟩ := ih fun x hx => h x (List.mem_cons_of_mem _ hx)
    have e : meterOn E b a (evs ++ [p]) c = meterStep E b a c (meterOn E b a evs c) p := by
      unfold meterOn; rw [List.foldl_append]; rfl
    have ho := outs_snoc E.f64p b a E.f64.zero (evs.map Prod.fst) p.1 c
    rw [show evs.map Prod.fst ++ [p.1] = (evs ++ [p]).map Prod.fst by rw [List.map_append]; rfl, hc, hn] at ho
    rw [e, meterStep, i1, i2, hc, hn, ho]
    refine ⟨?_, ?_⟩
    · dsimp only
      split
      · exact settleAll_self h
      · rfl
    · dsimp only
      split
      · rfl
      · rw [List.append_nil]

/-- **C61.** The software flush changes nothing as long as no value of the recursive part of the filter would become
zero; with hardware flush-to-zero there is none. -/
theorem C61_same {E : Env D S} (rate channels : Nat) (ops : List (Op D S)) (c : Nat)
    (h : E.noFtz = false ∨ ∀ x ∈ internal E.f64p (filterCoefficients E (E.f64.ofInt rate)).2 E.f64.zero
      (chan E.f64.zero c (heard E channels ops)),
      E.f64p.lt (E.f64p.abs x) (E.f64p.lit 1 (2 ^ 52)) = true → x = E.f64p.zero) :
    signalOn E rate channels ops c = signal E rate channels ops c := by
  unfold signalOn signal
  rw [(meterOn_plain ?_).2, heardOn_fst]
  intro x hx
  rw [heardOn_fst] at hx
  unfold settle
  split
  next hc =>
    rcases h with h | h
    · rw [h] at hc; cases hc.1
    · exact (h x hx hc.2).symm
  · rfl

/-- The number of values of the signal is the number of measured frames. -/
theorem signalOn_length (E : Env D S) (rate channels : Nat) (ops : List (Op D S)) (c : Nat) :
    (signalOn E rate channels ops c).length = measured E channels ops := by
  unfold signalOn measured
  rw [← heardOn_fst E channels (hop rate) ops 0]
  generalize heardOn E channels (hop rate) 0 ops = evs
  generalize (filterCoefficients E (E.f64.ofInt rate)).1 = b
  generalize (filterCoefficients E (E.f64.ofInt rate)).2 = a
  induction evs using List.reverseRecOn with
  | nil => rfl
  | append_singleton evs p ih =>
    have e : meterOn E b a (evs ++ [p]) c = meterStep E b a c (meterOn E b a evs c) p := by
      unfold meterOn; rw [List.foldl_append]; rfl
    rw [e, meterStep, List.map_append]
    unfold count at *
    rw [List.filter_append, List.length_append, ← ih]
    cases hm : p.1.measured <;> simp [hm]

/-! ## Where the flush takes place -/

theorem marked_mark {s : Nat} : ∀ (evs : List (Event D)) (n k : Nat) (hk : k < (marked s n evs).length),
    ((marked s n evs)[k]).2 = true ↔ k + 1 = evs.length ∨
      (((marked s n evs)[k]).1.measured = true ∧ (n + count (evs.take (k + 1))) % s = 0 ∧
        4 * s ≤ n + count (evs.take (k + 1))) := by
  intro evs
  induction evs with
  | nil => intro n k hk; simp [marked] at hk
  | cons ev evs ih =>
    intro n k hk
    cases k with
    | zero =>
      cases hm : ev.measured <;> cases evs <;> simp [marked, hm, count, List.take, List.filter]
    | succ k =>
      have hk' : k < (marked s (if ev.measured then n + 1 else n) evs).length := by
        simpa [marked] using hk
      have := ih (if ev.measured then n + 1 else n) k hk'
      simp only [marked, List.getElem_cons_succ, List.length_cons, List.take_succ_cons]
      rw [this]
      have hcnt : (if ev.measured then n + 1 else n) + count (evs.take (k + 1)) =
          n + count (ev :: evs.take (k + 1)) := by
        unfold count
        cases hm : ev.measured <;> simp [hm, Nat.add_assoc, Nat.add_comm 1]
      rw [hcnt]
      simp

/-- **C61.** Within one call the states are flushed after the last frame and after each measured frame that completes a
gating block, and nowhere else. -/
theorem C61_marks (s n : Nat) (evs : List (Event D)) (k : Nat) (hk : k < evs.length) :
    ∃ b, (marked s n evs)[k]? = some (evs[k], b) ∧
      (b = true ↔ k + 1 = evs.length ∨ (evs[k].measured = true ∧ (n + count (evs.take (k + 1))) % s = 0 ∧
        4 * s ≤ n + count (evs.take (k + 1)))) := by
  have hl : (marked s n evs).length = evs.length := by
    rw [← List.length_map (f := Prod.fst), marked_fst]
  have hk' : k < (marked s n evs).length := by omega
  have h1 : ((marked s n evs)[k]).1 = evs[k] := by
    have := marked_fst s n evs
    have h2 : ((marked s n evs).map Prod.fst)[k]'(by simpa using hk') = evs[k] := by simp only [this]
    simpa using h2
  refine ⟨((marked s n evs)[k]).2, ?_, ?_⟩
  · rw [List.getElem?_eq_getElem hk', ← h1]
  · rw [marked_mark, h1]

/-! ## Examples -/

/-- The assumption on the zeros holds for IEEE arithmetic on every target. -/
theorem ieee_zero (m : Libm F64) (bs : BSearch) (t : Target) :
    (ieeeEnv m bs t).f64p.zero = (ieeeEnv m bs t).f64.zero := by
  unfold ieeeEnv
  cases t.sse2 <;> rfl

/-- A target without SSE2. -/
abbrev Demo.softEnv : Env F64 F32 := ieeeEnv Demo.series Demo.bsearch ⟨false, false, 2 ^ 64 - 1⟩

/-- Marks of a call of eleven frames with `s = 2` after one measured frame: blocks are complete after 8 and 10
measured frames, and the call ends after the 12th. -/
example : ((marked 2 1 (List.replicate 11 (⟨true, []⟩ : Event F64))).map Prod.snd) =
    [false, false, false, false, false, false, true, false, true, false, true] := by decide +kernel

/-- A sample of `2^-60` and silence, at 48 kHz: in one call the filter hears both frames; in two calls the state is
flushed between them and the second output is zero. -/
theorem Demo.soft_signal :
    let c := filterCoefficients Demo.softEnv (Demo.softEnv.f64.ofInt 48000)
    let x : Event F64 := ⟨true, [Fl.lit Fmt.b64 1 (2 ^ 60)]⟩
    let z : Event F64 := ⟨true, [Fl.zero false]⟩
    let one := (meterOn Demo.softEnv c.1 c.2 (marked 4800 0 [x, z]) 0).2
    let two := (meterOn Demo.softEnv c.1 c.2 (marked 4800 0 [x] ++ marked 4800 1 [z]) 0).2
    one = outs Demo.softEnv.f64p c.1 c.2 Demo.softEnv.f64.zero [x, z] 0 ∧
    one.length = 2 ∧ two.length = 2 ∧ one.take 1 = two.take 1 ∧ one ≠ two ∧ two.drop 1 = [Fl.zero false] := by
  decide +kernel

/-- A new analyzer without SSE2 and a feeding history as the theorems take. -/
example : ∃ e0 e : Ebu F64 F32, Started Demo.softEnv e0 ∧ Adequate e0.mode e0.rate e0.window ∧
    e0.mode.contains Mode.I = true ∧ e0.mode.contains Mode.LRA = true ∧
    runOps Demo.softEnv e0 [.seedFrames (.f64 [Fl.zero false]), .addFrames (.i16 (List.replicate 4000 7))] = .done e := by
  obtain ⟨e0, he⟩ := (C01_new_64 Demo.softEnv (Nat.le_refl _) 1 48000 (Mode.I ||| Mode.LRA)).1.2
    ⟨by unfold Spec.ValidArgs; omega, by decide⟩
  obtain ⟨e, h⟩ := C09_plain (Nat.le_refl _) he (by omega)
    [.seedFrames (.f64 [Fl.zero false]), .addFrames (.i16 (List.replicate 4000 7))] (by
      intro op hop
      simp only [List.mem_cons, List.not_mem_nil, or_false] at hop
      rcases hop with rfl | rfl <;> trivial)
  have hr := reachable_new he
  refine ⟨e0, e, .new he, ?_, ?_, ?_, h⟩ <;> obtain ⟨rfl, -⟩ := Ebu.new_ok he
  · exact hr.inv.adequate (show 146 ≤ 48000 by omega)
  · decide
  · decide

end Verif
