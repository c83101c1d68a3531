import Verif.Proofs.ScaleNear
import Verif.Props.C11
import Verif.Props.C27_C29
import Verif.Props.C31
import Verif.Props.C39
import Verif.Props.C41_C45
import Verif.Props.C44
import Verif.Props.C61
/-!
# C66: the example programs

`examples/normalize.rs` and `examples/replaygain.rs` on any 16-bit file the analyzer accepts: they finish, the loudness
they use does not depend on the one-second pieces, and what `normalize` writes keeps the order and the range of the
samples.  And where they go wrong: on a file without gating blocks the first writes a square wave and the second panics.
-/

namespace Verif
open Spec Examples

namespace Spec
open Examples

/-- A file the examples can handle: an accepted number of channels and rate (the rate such that the 3 s of the loudness
range fit the buffer), whole frames. -/
structure Playable (w : Wav) : Prop where
  args : ValidArgs w.channels.toNat w.rate.toNat
  rate : 146 ≤ w.rate.toNat
  whole : w.data.length % w.channels.toNat = 0

/-- The file is shorter than one gating block (400 ms, in whole hops of 100 ms). -/
def Brief (w : Wav) : Prop := w.data.length / w.channels.toNat < 4 * hop w.rate.toNat

/-- The calls that feed the pieces of a file. -/
def feeding (parts : List (List F32)) : List (Op F64 F32) := parts.map fun p => .addFrames (.f32 p)

end Spec

section
variable {m : Libm F64} {bs : BSearch} {t : Target}

/-! ## Pieces -/

theorem pieces_flatten {T : Type} {n : Nat} (hn : n ≠ 0) (l : List T) : (pieces n l).flatten = l := by
  induction hl : l.length using Nat.strong_induction_on generalizing l with
  | _ k ih =>
    rw [pieces]
    by_cases h : l = []
    · rw [dif_pos (.inr h), h]; rfl
    · rw [dif_neg (by simp [hn, h]), List.flatten_cons, ih _ _ (l.drop n) rfl, List.take_append_drop]
      have : 0 < l.length := List.length_pos_iff.2 h
      rw [List.length_drop]; omega

theorem pieces_whole {T : Type} {c n : Nat} (l : List T) (h : l.length % c = 0) :
    ∀ p ∈ pieces (n * c) l, p.length % c = 0 ∧ p.length ≤ n * c := by
  induction hl : l.length using Nat.strong_induction_on generalizing l with
  | _ k ih =>
    rw [pieces]
    split
    · simp
    · next hne =>
      rw [not_or] at hne
      have hpos : 0 < l.length := List.length_pos_iff.2 hne.2
      intro p hp
      rw [List.mem_cons] at hp
      rcases hp with rfl | hp
      · refine ⟨?_, List.length_take_le ..⟩
        rw [List.length_take]
        rcases Nat.le_total (n * c) l.length with hle | hle
        · rw [Nat.min_eq_left hle]; exact Nat.mul_mod_left _ _
        · rw [Nat.min_eq_right hle]; exact h
      · refine ih _ ?_ _ ?_ rfl p hp
        · rw [List.length_drop]; omega
        · rw [List.length_drop]
          rcases Nat.le_total (n * c) l.length with hle | hle
          · obtain ⟨d, hd⟩ := Nat.exists_eq_add_of_le hle
            rw [hd, Nat.add_sub_cancel_left]
            rw [hd, Nat.add_comm, Nat.add_mul_mod_self_right] at h
            exact h
          · rw [Nat.sub_eq_zero_of_le hle]; exact Nat.zero_mod _

/-! ## The loop -/

theorem feed_all {e : Ebu F64 F32} (hr : Reachable (ieeeEnv m bs t) e)
    (hI : e.mode.contains Mode.I = true) : ∀ {parts : List (List F32)} {e' : Ebu F64 F32},
    (∀ p ∈ parts, p.length % e.channels = 0) → Adequate e.mode e.rate e.window →
    runOps (ieeeEnv m bs t) e (feeding parts) = .done e' →
    Run.foldL (feedChunk (ieeeEnv m bs t)) e parts = .done e' := by
  intro parts
  induction parts generalizing e with
  | nil => intro e' _ _ h; exact h
  | cons p parts ih =>
    intro e' hp ha h
    have hg := hr.inv.good_iff.2 ha
    obtain ⟨n, hpos⟩ := hr.inv2.pos hg
    have hx : (Input.f32 p : Input F64 F32).Ok e.channels := (wellFormed_iff hr.inv.ch1 _).2 (hp p (by simp))
    obtain ⟨h1, -, h3, -⟩ := Ebu.addInput_eq hr.inv hg hpos hx rfl
    have hs : step (ieeeEnv m bs t) e (.addFrames (.f32 p)) = _ := h1
    have hr' := hr.step hs
    have hI' : (e.addP (ieeeEnv m bs t) ((Input.f32 p).decode (ieeeEnv m bs t) e.channels).ops
        ((Input.f32 p).decode (ieeeEnv m bs t) e.channels).frames).mode.contains Mode.I = true := by
      rw [h3.mode]; exact hI
    have hq := Ebu.loudnessGlobal_eq hr'.inv
    rw [if_pos hI'] at hq
    rw [feeding, List.map_cons] at h
    simp only [runOps, Run.bind_eq, hs, Run.done_bind] at h
    simp only [Run.foldL, feedChunk, Run.bind_eq, hs, Run.done_bind, hq, expect]
    refine ih hr' hI' ?_ ?_ h
    · rw [h3.channels]; exact fun q hq => hp q (by simp [hq])
    · rw [h3.mode, h3.rate, h3.window]; exact ha

theorem opens (h64 : 2 ^ 64 - 1 ≤ t.usizeMax) {w : Wav} (hw : Playable w) :
    ∃ e0 : Ebu F64 F32, Ebu.new (ieeeEnv m bs t) w.channels.toNat w.rate.toNat Mode.all = .done (.ok e0) ∧
      Started (ieeeEnv m bs t) e0 ∧ Adequate e0.mode e0.rate e0.window ∧ e0.channels = w.channels.toNat ∧
      e0.rate = w.rate.toNat ∧ e0.mode = Mode.all ∧ blocksStored e0.blockEnergyHistory = 0 := by
  obtain ⟨e0, he⟩ := (C01_new_64 (ieeeEnv m bs t) h64 w.channels.toNat w.rate.toNat Mode.all).1.2 ⟨hw.args, by decide⟩
  have hst := Started.new he
  obtain ⟨rfl, -⟩ := Ebu.new_ok he
  refine ⟨_, he, hst, ?_, rfl, rfl, rfl, ?_⟩
  · exact adequate_146 Mode.all hw.rate
  · have : Mode.all.contains Mode.HISTOGRAM = true := by decide
    simp only [Ebu.init, this, History.new, if_true, blocksStored, List.sum_replicate, smul_zero]

theorem feeding_run {e0 : Ebu F64 F32} (hst : Started (ieeeEnv m bs t) e0)
    (ha : Adequate e0.mode e0.rate e0.window) {parts : List (List F32)} (hp : ∀ p ∈ parts, p.length % e0.channels = 0) :
    ∃ e, runOps (ieeeEnv m bs t) e0 (feeding parts) = .done e := by
  have hr := hst.reachable
  obtain ⟨e, he⟩ := adds_run (xs := parts.map Input.f32) hr.inv2 (hr.inv.good_iff.2 ha) (by
    intro x hx
    obtain ⟨p, hp', rfl⟩ := List.mem_map.1 hx
    exact ⟨(wellFormed_iff hr.inv.ch1 _).2 (hp p hp'), rfl⟩)
  rw [List.map_map] at he
  exact ⟨e, he⟩

/-- What the shared part computes: the analyzer after the one-second pieces, and its loudness. -/
theorem analyse_eq (h64 : 2 ^ 64 - 1 ≤ t.usizeMax) {w : Wav} (hw : Playable w) {e0 e : Ebu F64 F32}
    (he0 : Ebu.new (ieeeEnv m bs t) w.channels.toNat w.rate.toNat Mode.all = .done (.ok e0))
    (he : runOps (ieeeEnv m bs t) e0 (feeding (pieces (w.rate.toNat * w.channels.toNat) (w.data.map sampleOf))) = .done e) :
    e.mode = Mode.all ∧ e.channels = w.channels.toNat ∧ Reachable (ieeeEnv m bs t) e ∧
    e.loudnessGlobal (ieeeEnv m bs t) = .done (.ok (gatedLoudnessP (ieeeEnv m bs t) [e.blockEnergyHistory])) ∧
    analyse (ieeeEnv m bs t) w = .done (e, gatedLoudnessP (ieeeEnv m bs t) [e.blockEnergyHistory]) := by
  obtain ⟨e0', he0', hst, ha, hc, -, hm, -⟩ := opens (m := m) (bs := bs) h64 hw
  rw [he0] at he0'
  obtain rfl : e0 = e0' := by injection he0' with h; injection h
  have hr := hst.reachable
  have hp : ∀ p ∈ pieces (w.rate.toNat * w.channels.toNat) (w.data.map sampleOf), p.length % e0.channels = 0 := by
    rw [hc]
    exact fun p hp => (pieces_whole _ (by rw [List.length_map]; exact hw.whole) p hp).1
  have hI : e0.mode.contains Mode.I = true := by rw [hm]; decide
  have hcfg := runFeeds_sameCfg (by
    intro op hop
    obtain ⟨p, -, rfl⟩ := List.mem_map.1 hop
    trivial) hr.inv he
  have hre := hr.run_ops he
  have hg := Ebu.loudnessGlobal_eq hre.inv
  rw [hcfg.mode, if_pos hI] at hg
  refine ⟨hcfg.mode.trans hm, hcfg.channels.trans hc, hre, hg, ?_⟩
  have hv := hw.args
  have hsz : w.rate.toNat * w.channels.toNat ≤ 2822400 * 64 := Nat.mul_le_mul hv.2.2.2 hv.2.1
  have hs0 : w.rate.toNat * w.channels.toNat ≠ 0 := Nat.mul_ne_zero (by have := hv.2.2.1; omega) (by have := hv.1; omega)
  have hus : w.rate.toNat * w.channels.toNat ≤ (ieeeEnv m bs t).usizeMax := by
    have : (ieeeEnv m bs t).usizeMax = t.usizeMax := rfl
    rw [this]; omega
  simp only [analyse, Run.bind_eq, he0, Run.done_bind, expect, Run.assert, if_pos hus, if_pos hs0,
    feed_all hr hI hp ha he, hg]

/-- **C66.** On every playable file the programs get as far as the loudness: the analyzer is fed the samples divided by
32767, in order, in pieces of at most a second, and `normalize` writes one sample per sample read, scaled by the gain
that leads from the integrated loudness to −23 LUFS. -/
theorem C66_runs (h64 : 2 ^ 64 - 1 ≤ t.usizeMax) {w : Wav} (hw : Playable w) :
    ∃ (e0 e : Ebu F64 F32) (parts : List (List F32)) (l : F64),
      Ebu.new (ieeeEnv m bs t) w.channels.toNat w.rate.toNat Mode.all = .done (.ok e0) ∧
      parts.flatten = w.data.map sampleOf ∧
      (∀ p ∈ parts, p.length % w.channels.toNat = 0 ∧ p.length ≤ w.rate.toNat * w.channels.toNat) ∧
      runOps (ieeeEnv m bs t) e0 (feeding parts) = .done e ∧
      ask (ieeeEnv m bs t) e .loudnessGlobal = .done (.ok l) ∧
      analyse (ieeeEnv m bs t) w = .done (e, l) ∧
      ∀ powf, normalize (ieeeEnv m bs t) powf w = .done (w.data.map (scale (gain powf l))) := by
  obtain ⟨e0, he0, hst, ha, hc, -⟩ := opens (m := m) (bs := bs) h64 hw
  have hs0 : w.rate.toNat * w.channels.toNat ≠ 0 :=
    Nat.mul_ne_zero (by have := hw.args.2.2.1; omega) (by have := hw.args.1; omega)
  have hp := pieces_whole (c := w.channels.toNat) (n := w.rate.toNat) (w.data.map sampleOf)
    (by rw [List.length_map]; exact hw.whole)
  obtain ⟨e, he⟩ := feeding_run hst ha (by rw [hc]; exact fun p h => (hp p h).1)
  obtain ⟨-, -, -, hl, han⟩ := analyse_eq h64 hw he0 he
  refine ⟨e0, e, _, _, he0, pieces_flatten hs0 _, hp, he, hl, han, fun powf => ?_⟩
  simp only [Examples.normalize, Run.bind_eq, han, Run.done_bind]

/-- **C66.** With hardware flush-to-zero the pieces do not matter: the loudness is that of an analyzer fed the whole file
in one call. -/
theorem C66_pieces (h64 : 2 ^ 64 - 1 ≤ t.usizeMax) (hz : t.sse2 = true) {w : Wav} (hw : Playable w) :
    ∃ (e0 e : Ebu F64 F32) (l : F64),
      Ebu.new (ieeeEnv m bs t) w.channels.toNat w.rate.toNat Mode.all = .done (.ok e0) ∧
      runOps (ieeeEnv m bs t) e0 [.addFrames (.f32 (w.data.map sampleOf))] = .done e ∧
      ask (ieeeEnv m bs t) e .loudnessGlobal = .done (.ok l) ∧
      ∀ powf, normalize (ieeeEnv m bs t) powf w = .done (w.data.map (scale (gain powf l))) := by
  obtain ⟨e0, e, parts, l, h1, h2, h3, h4, h5, -, h7⟩ := C66_runs (m := m) (bs := bs) h64 hw
  obtain ⟨e0', h1', hst, ha, hc, -⟩ := opens (m := m) (bs := bs) h64 hw
  rw [h1] at h1'
  obtain rfl : e0 = e0' := by injection h1' with h; injection h
  obtain ⟨a, b, r1, r2, hs⟩ := C11_f32 hz hst.reachable ha (parts := parts) (by rw [hc]; exact fun p hp => (h3 p hp).1)
  rw [feeding, r1] at h4
  obtain rfl : a = e := by injection h4
  rw [h2] at r2
  refine ⟨e0, b, l, h1, r2, ?_, h7⟩
  have hq := hs.ask (E := ieeeEnv m bs t) (q := .loudnessGlobal) trivial
  rw [← hq]
  exact h5

/-- **C66.** What is written: always within ±32767; for a gain that is not negative in the order of the samples read; 0 for
a gain that is NaN; and for the gain 1 the sample itself, except that −32768 becomes −32767. -/
theorem C66_scale (g : F32) (s : Int16) :
    (-32767 ≤ scale g s ∧ scale g s ≤ 32767) ∧
    (∀ s' : Int16, g.isNan = false → Fl.le (Fl.zero false) g = true → s.toInt ≤ s'.toInt → scale g s ≤ scale g s') ∧
    (g.isNan = true → scale g s = 0) ∧
    (g = Fl.lit Fmt.b32 1 1 → scale g s = max (-32767) s.toInt) := by
  refine ⟨by rw [scale_eq]; exact finish_range _, ?_, ?_, ?_⟩
  · intro s' hn hg hs
    obtain ⟨b, k, hk, rfl⟩ := Fl.num_of_not_nan hn
    have : b = false ∨ k = 0 := by
      rw [Fl.zero, Fl.le_num, decide_eq_true_eq] at hg
      cases b
      · exact .inl rfl
      · right; simp [Fl.skey] at hg; omega
    rcases this with rfl | rfl
    · exact scale_mono hs
    · have := scale_zero_gain b s
      have := scale_zero_gain b s'
      change scale (Fl.zero b) s ≤ scale (Fl.zero b) s'
      omega
  · intro hn
    rw [Fl.isNan_iff.1 hn, scale_eq, Fl.mul_comm]
    exact finish_nan
  · rintro rfl
    rw [lit_one]; exact scale_one s

/-! ## Files without a gating block -/

theorem brief_none {w : Wav} {e0 e : Ebu F64 F32} (hst : Started (ieeeEnv m bs t) e0)
    (ha : Adequate e0.mode e0.rate e0.window) (hc : e0.channels = w.channels.toNat) (hr : e0.rate = w.rate.toNat)
    (hI : e0.mode.contains Mode.I = true)
    {parts : List (List F32)} (hp : ∀ p ∈ parts, p.length % e0.channels = 0) (hl : parts.flatten.length = w.data.length)
    (he : runOps (ieeeEnv m bs t) e0 (feeding parts) = .done e) (hb : Brief w) :
    e.blockEnergyHistory = e0.blockEnergyHistory := by
  have hms : ∀ {parts : List (List F32)}, (∀ p ∈ parts, p.length % e0.channels = 0) →
      measured (ieeeEnv m bs t) e0.channels (feeding parts) = parts.flatten.length / e0.channels := by
    intro parts
    induction parts with
    | nil => intro _; simp [measured, heard, feeding, count]
    | cons p parts ih =>
      intro h
      have hw : WellFormed e0.channels (Input.f32 p : Input F64 F32) := h p (by simp)
      have hih := ih fun q hq => h q (by simp [hq])
      have hsplit : (p ++ parts.flatten).length / e0.channels = p.length / e0.channels + parts.flatten.length / e0.channels := by
        rw [List.length_append]
        exact Nat.add_div_of_dvd_right (Nat.dvd_of_mod_eq_zero (h p (by simp)))
      rw [List.flatten_cons, hsplit, ← hih]
      simp only [measured, heard, feeding, List.map_cons, List.flatMap_cons, count_append]
      congr 1
      simp only [delivered, if_pos hw, count_flag, if_true, inputFrames, groups, List.length_map, List.length_range]
  have h := (C61_blocks (ieee_zero m bs t) hst ha (ops := feeding parts) (by
    intro op hop
    obtain ⟨p, -, rfl⟩ := List.mem_map.1 hop
    trivial) he).1 hI
  rw [hms hp, hl, hr, hc] at h
  have hnil : blockEnds (hop w.rate.toNat) (w.data.length / w.channels.toNat) = [] := by
    unfold blockEnds
    rw [List.map_eq_nil_iff, List.filter_eq_nil_iff]
    intro j hj
    rw [List.mem_range] at hj
    have : w.data.length / w.channels.toNat / hop w.rate.toNat < 4 :=
      Nat.div_lt_of_lt_mul (by rw [Nat.mul_comm]; exact hb)
    simp only [decide_eq_true_eq]
    omega
  rw [hnil] at h
  injection h with h
  exact h.symm

theorem brief_analyse (h64 : 2 ^ 64 - 1 ≤ t.usizeMax) {w : Wav} (hw : Playable w) (hb : Brief w) :
    ∃ e : Ebu F64 F32, analyse (ieeeEnv m bs t) w = .done (e, Fl.inf true) ∧
      e.gatingBlockCountAndEnergy (ieeeEnv m bs t) = .done none ∧ Reachable (ieeeEnv m bs t) e ∧
      e.mode = Mode.all ∧ e.channels = w.channels.toNat := by
  obtain ⟨e0, he0, hst, ha, hc, hrt, hm, hz⟩ := opens (m := m) (bs := bs) h64 hw
  have hs0 : w.rate.toNat * w.channels.toNat ≠ 0 :=
    Nat.mul_ne_zero (by have := hw.args.2.2.1; omega) (by have := hw.args.1; omega)
  have hp : ∀ p ∈ pieces (w.rate.toNat * w.channels.toNat) (w.data.map sampleOf), p.length % e0.channels = 0 := by
    rw [hc]
    exact fun p hp => (pieces_whole _ (by rw [List.length_map]; exact hw.whole) p hp).1
  obtain ⟨e, he⟩ := feeding_run hst ha hp
  obtain ⟨h1, h2, hre, hl, han⟩ := analyse_eq h64 hw he0 he
  have hb' : blocksStored e.blockEnergyHistory = 0 := by
    rw [brief_none hst ha hc hrt (by rw [hm]; decide) hp (by rw [pieces_flatten hs0, List.length_map]) he hb]
    exact hz
  refine ⟨e, ?_, ?_, hre, h1, h2⟩
  · rw [han, calc_none _ hre.inv.hist hb']; rfl
  · rw [Ebu.gatingCount_eq hre.inv, gating_none _ hre.inv.hist hb']

/-- **C66, a defect.** A file shorter than one gating block has the loudness −∞, so the gain is +∞ (given that `powf`
returns that for an infinite exponent) and `normalize` writes a square wave: every positive sample becomes 32767 and
every negative one −32767, however quiet the file was. -/
theorem C66_brief (h64 : 2 ^ 64 - 1 ≤ t.usizeMax) {w : Wav} (hw : Playable w) (hb : Brief w)
    {powf : F32 → F32 → F32} (hp : powf (Fl.lit Fmt.b32 10 1) (Fl.inf false) = Fl.inf false) :
    normalize (ieeeEnv m bs t) powf w = .done (w.data.map fun s => 32767 * s.toInt.sign) := by
  obtain ⟨e, han, hg, -⟩ := brief_analyse (m := m) (bs := bs) h64 hw hb
  have hgain : gain powf (Fl.inf true) = Fl.inf false := by
    unfold gain
    rw [show Fl.cast Fmt.b32 (Fl.div (Fl.sub (Fl.lit Fmt.b64 (-23) 1) (Fl.inf true)) (Fl.lit Fmt.b64 20 1)) = Fl.inf false by
      decide +kernel, hp]
  simp only [Examples.normalize, Run.bind_eq, han, Run.done_bind, hgain]
  congr 1
  apply List.map_congr_left
  intro s _
  rw [scale_inf]
  rcases lt_trichotomy s.toInt 0 with h | h | h
  · rw [if_pos h, Int.sign_eq_neg_one_of_neg h]; rfl
  · rw [if_neg (by omega), if_pos h, h]; rfl
  · rw [if_neg (by omega), if_neg (by omega), Int.sign_eq_one_of_pos h]; rfl

/-! ## `replaygain` -/

theorem maxF_spec {a b : F64} (ha : a.isNan = false) :
    (maxF a b).isNan = false ∧ Fl.le a (maxF a b) = true ∧ (b.isNan = false → Fl.le b (maxF a b) = true) := by
  unfold maxF
  rw [ha, if_neg (by simp)]
  cases h : Fl.lt a b with
  | true => exact ⟨(Fl.le_numbers (Fl.le_of_lt h)).2, Fl.le_of_lt h, fun hb => Fl.le_refl hb⟩
  | false => exact ⟨ha, Fl.le_refl ha, fun hb => (Fl.not_lt ha hb).1 h⟩

theorem peaks_fold {e : Ebu F64 F32} (hr : Reachable (ieeeEnv m bs t) e) (hm : e.mode.contains Mode.SAMPLE_PEAK = true) :
    ∀ {cs : List Nat} {a : F64}, (∀ c ∈ cs, c < e.channels) → a.isNan = false →
    ∃ v, Run.foldL (fun a (c : Nat) => do
        let b ← expect (← e.getSamplePeak c)
        Run.done (maxF a b)) a cs = .done v ∧ v.isNan = false ∧ Fl.le a v = true ∧
      ∀ c ∈ cs, ∀ x, e.getSamplePeak c = .done (.ok x) → x.isNan = false → Fl.le x v = true := by
  intro cs
  induction cs with
  | nil => intro a _ ha; exact ⟨a, rfl, ha, Fl.le_refl ha, by simp⟩
  | cons c cs ih =>
    intro a hc ha
    have hq : ∃ x, e.getSamplePeak c = .done (.ok x) := by
      refine ⟨e.samplePeak.getD c (ieeeEnv m bs t).f64.zero, (Ebu.getSamplePeak_eq hr.inv c).trans ?_⟩
      have h1 : c < e.channels := hc c (by simp)
      simp only [peakQuery, hm, Bool.not_true, Bool.false_eq_true, if_false, if_neg (Nat.not_le.2 h1)]
    obtain ⟨x, hx⟩ := hq
    obtain ⟨m1, m2, m3⟩ := maxF_spec (b := x) ha
    obtain ⟨v, h1, h2, h3, h4⟩ := ih (a := maxF a x) (fun d hd => hc d (by simp [hd])) m1
    refine ⟨v, ?_, h2, Fl.le_trans m2 h3, ?_⟩
    · simp only [Run.foldL, Run.bind_eq, hx, Run.done_bind, expect]
      simpa only [Run.bind_eq, expect] using h1
    · intro d hd y hy hn
      rw [List.mem_cons] at hd
      rcases hd with rfl | hd
      · rw [hx] at hy
        obtain rfl : x = y := by injection hy with h; injection h
        exact Fl.le_trans (m3 hn) h3
      · exact h4 d hd y hy hn

/-- **C66.** `analyze_file` panics exactly on the files without a block above the gates; on the others it reports the
integrated loudness, the number and energy of the gated blocks, and a peak no channel exceeds. -/
theorem C66_track (h64 : 2 ^ 64 - 1 ≤ t.usizeMax) {w : Wav} (hw : Playable w) :
    ∃ (e : Ebu F64 F32) (l : F64), analyse (ieeeEnv m bs t) w = .done (e, l) ∧ Reachable (ieeeEnv m bs t) e ∧
      (e.gatingBlockCountAndEnergy (ieeeEnv m bs t) = .done none → analyzeFile (ieeeEnv m bs t) w = .panic) ∧
      ∀ n x, e.gatingBlockCountAndEnergy (ieeeEnv m bs t) = .done (some (n, x)) →
        ∃ p, analyzeFile (ieeeEnv m bs t) w = .done ⟨l, p, n, x⟩ ∧
          Fl.le (Fl.zero false) p = true ∧
          ∀ (c : UInt32) (y : F64), c.toNat < w.channels.toNat →
            ask (ieeeEnv m bs t) e (.samplePeak c) = .done (.ok y) → y.isNan = false → Fl.le y p = true := by
  obtain ⟨e0, he0, hst, ha, hc, hrt, hm, hz⟩ := opens (m := m) (bs := bs) h64 hw
  have hp : ∀ p ∈ pieces (w.rate.toNat * w.channels.toNat) (w.data.map sampleOf), p.length % e0.channels = 0 := by
    rw [hc]
    exact fun p hp => (pieces_whole _ (by rw [List.length_map]; exact hw.whole) p hp).1
  obtain ⟨e, he⟩ := feeding_run hst ha hp
  obtain ⟨h1, h2, hre, -, han⟩ := analyse_eq h64 hw he0 he
  obtain ⟨v, v1, v2, v3, v4⟩ := peaks_fold hre (by rw [h1]; decide) (cs := List.range w.channels.toNat)
    (a := Fl.zero false) (by rw [h2]; exact fun c hc => List.mem_range.1 hc) rfl
  simp only [Run.bind_eq] at v1
  refine ⟨e, _, han, hre, ?_, ?_⟩
  · intro hg
    simp only [analyzeFile, Run.bind_eq, han, Run.done_bind, v1, hg]
  · intro n x hg
    refine ⟨v, ?_, v3, ?_⟩
    · simp only [analyzeFile, Run.bind_eq, han, Run.done_bind, v1, hg]
    · intro c y hcn hy hn
      exact v4 c.toNat (List.mem_range.2 hcn) y hy hn

theorem foldL_panic {σ α : Type} {f : σ → α → Run σ} {a : α} (h : ∀ s, f s a = .panic) {l l' : List α}
    (hl : ∀ s, ∀ x ∈ l, f s x = .panic ∨ ∃ s', f s x = .done s') (s : σ) : Run.foldL f s (l ++ a :: l') = .panic := by
  induction l generalizing s with
  | nil => simp only [List.nil_append, Run.foldL, h]; rfl
  | cons x l ih =>
    rcases hl s x (by simp) with hx | ⟨s', hx⟩
    · simp only [List.cons_append, Run.foldL, hx]; rfl
    · simp only [List.cons_append, Run.foldL, hx, Run.done_bind]
      exact ih (fun s y hy => hl s y (by simp [hy])) s'

/-- **C66, a defect.** On the files shorter than a gating block `analyze_file` panics, and with it the whole run over a
directory that contains such a file: no album gain is printed. -/
theorem C66_replaygain (h64 : 2 ^ 64 - 1 ≤ t.usizeMax) {w : Wav} (hw : Playable w) (hb : Brief w) :
    analyzeFile (ieeeEnv m bs t) w = .panic ∧
    ∀ ws ws' : List Wav, (∀ v ∈ ws, Playable v) → replaygain (ieeeEnv m bs t) (ws ++ w :: ws') = .panic := by
  have key : analyzeFile (ieeeEnv m bs t) w = .panic := by
    obtain ⟨e, han, hg, -⟩ := brief_analyse (m := m) (bs := bs) h64 hw hb
    obtain ⟨e', l, han', -, h1, -⟩ := C66_track (m := m) (bs := bs) h64 hw
    rw [han] at han'
    obtain ⟨rfl, -⟩ : e = e' ∧ Fl.inf true = l := by injection han' with h; injection h with h1 h2; exact ⟨h1, h2⟩
    exact h1 hg
  refine ⟨key, fun ws ws' hws => ?_⟩
  unfold replaygain
  rw [foldL_panic]
  · rfl
  · intro s
    simp only [key, Run.bind_eq]; rfl
  · intro s v hv
    obtain ⟨e, l, -, hre, h1, h2⟩ := C66_track (m := m) (bs := bs) h64 (hws v hv)
    obtain ⟨r, hr⟩ : ∃ r, e.gatingBlockCountAndEnergy (ieeeEnv m bs t) = .done r := ⟨_, Ebu.gatingCount_eq hre.inv⟩
    cases r with
    | none => left; simp only [h1 hr, Run.bind_eq]; rfl
    | some p =>
      obtain ⟨q, hq, -⟩ := h2 p.1 p.2 hr
      right
      simp only [hq, Run.bind_eq, Run.done_bind]
      exact ⟨_, rfl⟩

theorem album_fold {E : Env F64 F32} {d : Wav → Track} : ∀ {ws : List Wav} {out : List (F64 × F64)} {p : F64} {n : Nat} {x : F64},
    (∀ w ∈ ws, analyzeFile E w = .done (d w)) → p.isNan = false →
    ∃ q, Run.foldL (fun (acc : List (F64 × F64) × F64 × Nat × F64) w => do
        let d ← analyzeFile E w
        Run.done (acc.1 ++ [(rgGain d.loudness, d.peak)], maxF acc.2.1 d.peak, acc.2.2.1 + d.blocks,
          Fl.add acc.2.2.2 d.energy)) (out, p, n, x) ws =
      .done (out ++ ws.map fun w => (rgGain (d w).loudness, (d w).peak), q, n + (ws.map fun w => (d w).blocks).sum,
        (ws.map fun w => (d w).energy).foldl Fl.add x) ∧ q.isNan = false ∧ Fl.le p q = true ∧
      ∀ w ∈ ws, (d w).peak.isNan = false → Fl.le (d w).peak q = true := by
  intro ws
  induction ws with
  | nil => intro out p n x _ hp; exact ⟨p, by simp [Run.foldL], hp, Fl.le_refl hp, by simp⟩
  | cons w ws ih =>
    intro out p n x h hp
    obtain ⟨m1, m2, m3⟩ := maxF_spec (b := (d w).peak) hp
    obtain ⟨q, h1, h2, h3, h4⟩ := ih (out := out ++ [(rgGain (d w).loudness, (d w).peak)]) (p := maxF p (d w).peak)
      (n := n + (d w).blocks) (x := Fl.add x (d w).energy) (fun v hv => h v (by simp [hv])) m1
    refine ⟨q, ?_, h2, Fl.le_trans m2 h3, ?_⟩
    · simp only [Run.foldL, Run.bind_eq, h w (by simp), Run.done_bind] at h1 ⊢
      rw [h1]
      simp [Nat.add_assoc]
    · intro v hv hn
      rw [List.mem_cons] at hv
      rcases hv with rfl | hv
      · exact Fl.le_trans (m3 hn) h3
      · exact h4 v hv hn

/-- **C66.** The album: the gain of the mean energy of the blocks that each file kept under its own gate, and a peak no
file exceeds. -/
theorem C66_album {E : Env F64 F32} {ws : List Wav} {d : Wav → Track} (h : ∀ w ∈ ws, analyzeFile E w = .done (d w)) :
    ∃ peak, replaygain E ws = .done (ws.map fun w => (rgGain (d w).loudness, (d w).peak),
      rgGain (energyToLoudness E (Fl.div (Spec.total (Fl.arith Fmt.b64) (ws.map fun w => (d w).energy))
        (Fl.ofInt Fmt.b64 ((ws.map fun w => (d w).blocks).sum : Nat)))), peak) ∧
      ∀ w ∈ ws, (d w).peak.isNan = false → Fl.le (d w).peak peak = true := by
  obtain ⟨q, h1, -, -, h4⟩ := album_fold (out := []) (p := Fl.zero false) (n := 0) (x := Fl.zero false) h rfl
  refine ⟨q, ?_, h4⟩
  unfold replaygain
  rw [h1]
  simp only [Run.bind_eq, Run.done_bind, Nat.zero_add, List.nil_append]
  rfl

/-- **C66.** The level of what is written: the exact product of the sample and the gain, clipped to ±32767 and truncated
towards zero, up to a hundredth of the last bit for the rounding of the three `f32` operations. -/
theorem C66_level {g : F32} (hg : g.Finite) (g0 : 0 ≤ g.value) (g1 : g.value ≤ 2 ^ 100) (s : Int16) :
    |(scale g s : ℝ) - max (-32767) (min 32767 (s.toInt * g.value))| ≤ 1 + 1 / 100 ∧
    |(scale g s : ℝ)| ≤ |s.toInt * g.value| + 1 / 100 :=
  scale_near hg g0 g1 s

/-- **C66.** The gains: `normalize` raises 10 to a twentieth of the distance to −23 LUFS, right to 10^-5 (that is 0.0002
dB), `replaygain` prints the distance to −18 LUFS, right to 10^-12. -/
theorem C66_gain {l : F64} (hl : l.Finite) (hb : |l.value| ≤ 1000) :
    (∀ powf, ∃ y : F32, gain powf l = powf (Fl.lit Fmt.b32 10 1) y ∧ y.Finite ∧
      |y.value - (-23 - l.value) / 20| ≤ 1 / 10 ^ 5) ∧
    (rgGain l).Finite ∧ |(rgGain l).value - (-18 - l.value)| ≤ 1 / 10 ^ 12 :=
  ⟨fun powf => gain_near powf hl hb, rgGain_near hl hb⟩

end

/-! ## Examples -/

/-- At −29 LUFS the exponent is 0.3: six decibels, and 5 dB of gain for the −18 LUFS of `replaygain` at −23. -/
example : gain (fun _ y => y) (Fl.lit Fmt.b64 (-29) 1) = Fl.lit Fmt.b32 3 10 ∧
    rgGain (Fl.lit Fmt.b64 (-23) 1) = Fl.lit Fmt.b64 5 1 := by decide +kernel

/-- A mono file at 48 kHz of 19199 samples, one short of a gating block. -/
def Demo.shortFile (s : Int16) : Wav := ⟨1, 48000, List.replicate 19199 s⟩

theorem Demo.shortFile_spec (s : Int16) : Playable (Demo.shortFile s) ∧ Brief (Demo.shortFile s) := by
  have hl : (Demo.shortFile s).data.length = 19199 := List.length_replicate
  have hc : (Demo.shortFile s).channels.toNat = 1 := rfl
  have hr : (Demo.shortFile s).rate.toNat = 48000 := rfl
  refine ⟨⟨?_, ?_, ?_⟩, ?_⟩
  · rw [hc, hr]; exact ⟨by decide, by decide, by decide, by decide⟩
  · rw [hr]; decide
  · rw [hl, hc]
  · unfold Brief; rw [hl, hc, hr]; decide

/-- 400 ms of the smallest possible constant become 400 ms at full scale. -/
example (m : Libm F64) (bs : BSearch) {powf : F32 → F32 → F32}
    (hp : powf (Fl.lit Fmt.b32 10 1) (Fl.inf false) = Fl.inf false) :
    Examples.normalize (ieeeEnv m bs ⟨true, false, 2 ^ 64 - 1⟩) powf (Demo.shortFile 1) =
      .done (List.replicate 19199 32767) := by
  obtain ⟨h1, h2⟩ := Demo.shortFile_spec 1
  rw [C66_brief (Nat.le_refl _) h1 h2 hp]
  unfold Demo.shortFile
  rw [List.map_replicate]
  rfl

/-- The samples −32768 to 32767 cover more than ±1: the divisor is 32767. -/
example : Fl.lt (sampleOf (-32768)) (Fl.lit Fmt.b32 (-1) 1) = true ∧ sampleOf 32767 = Fl.lit Fmt.b32 1 1 := by
  decide +kernel

/-- Half the amplitude: 20001 becomes 10000 (truncated), and so does 20000. -/
example : scale (Fl.lit Fmt.b32 1 2) 20001 = 10000 ∧ scale (Fl.lit Fmt.b32 1 2) 20000 = 10000 ∧
    scale (Fl.lit Fmt.b32 4 1) 20000 = 32767 := by decide +kernel

/-- What the album gain is not: the loudness of the files played one after the other.  Of a loud and a quiet block the
common gate drops the quiet one, while each file's own gate keeps it, so the album energy comes out at half. -/
def Demo.album (E : Env F64 F32) (h1 h2 : History F64) : Bool :=
  match gatingMultiple E [h1], gatingMultiple E [h2], gatingMultiple E [h1, h2] with
  | .done (.ok (n1, x1)), .done (.ok (n2, x2)), .done (.ok (n, x)) =>
    Fl.lt (Fl.mul (Fl.lit _ 19 10) (Fl.div (Fl.add x1 x2) (Fl.ofInt _ ((n1 + n2 : Nat) : Int))))
      (Fl.div x (Fl.ofInt _ (n : Int)))
  | _, _, _ => false

example : Demo.album (Demo.envReal false) (.queue [Fl.lit _ 1 2] 10) (.queue [Fl.lit _ 1 1000] 10) = true := by
  decide +kernel

end Verif
