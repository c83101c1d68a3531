import Verif.Props.C32
import Verif.Proofs.Runs
import Verif.Proofs.Range
/-!
# C35, C36, C40: gating count, relative threshold, NaN
-/

set_option linter.unusedSimpArgs false

namespace Verif
open Fl Spec
variable {m : Libm F64} {bs : BSearch} {t : Target}
variable {D S : Type}

/-- Number of blocks a history holds. -/
def Spec.blocksStored : History D → Nat
  | .queue q _ => q.length
  | .histogram c => c.sum

theorem calc_count (E : Env D S) {h : History D} (hi : h.Inv) :
    (h.calcRelativeThreshold E).1 = blocksStored h := by
  cases h with
  | queue q max => rfl
  | histogram c =>
    have : ∀ (l : List D) (c : List Nat) (n : Nat) (s : D), c.length ≤ l.length →
        ((List.zip c l).foldl (fun acc x => (acc.1 + x.1, E.f64.add acc.2 (E.f64.mul (E.f64.ofInt x.1) x.2)))
          (n, s)).1 = n + c.sum := by
      intro l
      induction l with
      | nil => intro c n s hc; cases c <;> simp at hc ⊢
      | cons a l ih =>
        intro c n s hc
        cases c with
        | nil => simp
        | cons b c =>
          simp only [List.zip_cons_cons, List.foldl_cons, List.sum_cons]
          rw [ih c _ _ (by simpa using hc)]
          omega
    have := this (energies E) c 0 E.f64.zero (by rw [energies_length]; exact hi.le)
    rw [Nat.zero_add] at this
    exact this

theorem sumItems_count (E : Env D S) (l : List (Nat × D)) : (sumItems E l).1 = (l.map Prod.fst).sum := by
  have : ∀ (n : Nat) (s : D), (l.foldl (fun acc (x : Nat × D) => (acc.1 + x.1, E.f64.add acc.2 x.2)) (n, s)).1 =
      n + (l.map Prod.fst).sum := by
    induction l with
    | nil => intro n s; rfl
    | cons x l ih => intro n s; rw [List.foldl_cons, ih]; simp only [List.map_cons, List.sum_cons]; omega
  unfold sumItems
  rw [this, Nat.zero_add]

theorem gatedP_count (E : Env D S) (start : Nat) (thr : D) (h : History D) :
    ((h.gatedP E start thr).map Prod.fst).sum ≤ blocksStored h := by
  cases h with
  | queue q max =>
    simp only [History.gatedP, List.map_map, Function.comp_def, blocksStored]
    have : ∀ l : List D, (l.map fun _ => (1 : Nat)).sum = l.length := by
      intro l; induction l with
      | nil => rfl
      | cons x l ih => rw [List.map_cons, List.sum_cons, ih, List.length_cons]; omega
    rw [this]
    exact List.length_filter_le _ _
  | histogram c =>
    simp only [History.gatedP, List.map_map, Function.comp_def, blocksStored]
    have h1 : ∀ (l : List D) (c : List Nat), ((List.zip c l).map fun x => x.1).sum ≤ c.sum := by
      intro l
      induction l with
      | nil => intro c; simp
      | cons a l ih =>
        intro c
        cases c with
        | nil => simp
        | cons b c =>
          simp only [List.zip_cons_cons, List.map_cons, List.sum_cons]
          have := ih c
          omega
    have h2 : ∀ (n : Nat) (c : List Nat), (c.drop n).sum ≤ c.sum := by
      intro n
      induction n with
      | zero => intro c; simp
      | succ n ih =>
        intro c
        cases c with
        | nil => simp
        | cons b c =>
          rw [List.drop_succ_cons, List.sum_cons]
          have := ih c
          omega
    exact Nat.le_trans (h1 _ _) (h2 _ _)

/-- **C35.** A reported gating count and energy: the count is positive, at most the number of stored blocks, and
the integrated loudness is that of energy over count. -/
theorem C35_some {E : Env D S} {e : Ebu D S} (hr : Reachable E e) {n : Nat} {x : D}
    (h : e.gatingBlockCountAndEnergy E = .done (some (n, x))) :
    1 ≤ n ∧ n ≤ blocksStored e.blockEnergyHistory ∧
      (e.mode.contains Mode.I = true → e.loudnessGlobal E = .done (.ok (lufsD E (E.f64.div x (E.f64.ofInt n))))) := by
  rw [Ebu.gatingCount_eq hr.inv] at h
  have hg : gatingMultP E [e.blockEnergyHistory] = .ok (n, x) := by
    split at h
    · next r hr' => rw [hr']; injection h with h; injection h with h; rw [h]
    · injection h with h; cases h
  refine ⟨?_, ?_, ?_⟩
  · unfold gatingMultP at hg
    split at hg
    · cases hg
    · split at hg
      · cases hg
      · next h0 =>
        injection hg with hg
        rw [hg] at h0
        exact Nat.one_le_iff_ne_zero.2 h0
  · unfold gatingMultP at hg
    split at hg
    · cases hg
    · next items hit =>
      split at hg
      · cases hg
      · injection hg with hg
        have : n = (sumItems E items).1 := by rw [hg]
        rw [this, sumItems_count]
        unfold iterP at hit
        split at hit
        · cases hit
        split at hit
        · cases hit
        cases hit
        simp only [List.map_cons, List.map_nil, List.flatten_cons, List.flatten_nil, List.append_nil]
        exact gatedP_count ..
  · intro hI
    rw [Ebu.loudnessGlobal_eq hr.inv, if_pos hI]
    unfold gatedLoudnessP
    rw [hg]
    rfl

/-- **C35.** Without a gating count the integrated loudness is minus infinity or NaN. -/
theorem C35_none {E : Env D S} {e : Ebu D S} (hr : Reachable E e) (hI : e.mode.contains Mode.I = true)
    (h : e.gatingBlockCountAndEnergy E = .done none) :
    e.loudnessGlobal E = .done (.ok (E.f64.neg E.f64.inf)) ∨ e.loudnessGlobal E = .done (.ok E.f64.nan) := by
  rw [Ebu.gatingCount_eq hr.inv] at h
  rw [Ebu.loudnessGlobal_eq hr.inv, if_pos hI]
  unfold gatedLoudnessP
  split at h
  · injection h with h; cases h
  · next er he =>
    rw [he]
    cases er
    · left; rfl
    · right; rfl

/-- **C35.** In queue mode the count and energy are those of the blocks passing the relative gate. -/
theorem C35_queue {e : Ebu F64 F32} (hr : Reachable (ieeeEnv m bs t) e) {q : List F64} {max : Nat}
    (hq : e.blockEnergyHistory = .queue q max) :
    e.gatingBlockCountAndEnergy (ieeeEnv m bs t) =
      .done (if q = [] ∨ Fl.isNan (total (Fl.arith Fmt.b64) q) = true ∨ passing (ieeeEnv m bs t) q = [] then none
        else some ((passing (ieeeEnv m bs t) q).length,
          total (Fl.arith Fmt.b64) (passing (ieeeEnv m bs t) q))) := by
  rw [Ebu.gatingCount_eq hr.inv, hq, gating_queue]
  by_cases h1 : q = []
  · rw [if_pos h1, if_pos (.inl h1)]
  rw [if_neg h1]
  by_cases h2 : Fl.isNan (total (Fl.arith Fmt.b64) q) = true
  · rw [if_pos h2, if_pos (.inr (.inl h2))]
  rw [if_neg h2]
  by_cases h3 : passing (ieeeEnv m bs t) q = []
  · rw [if_pos h3, if_pos (.inr (.inr h3))]
  rw [if_neg h3, if_neg (by rintro (h | h | h) <;> contradiction)]

/-- **C36.** In queue mode `relative_threshold` is the loudness 10 dB below the mean of the stored energies, -70
without blocks, NaN if they have no sum; it needs mode I. -/
theorem C36_threshold {e : Ebu F64 F32} {q : List F64} {max : Nat} (hq : e.blockEnergyHistory = .queue q max) :
    e.relativeThreshold (ieeeEnv m bs t) =
      if e.mode.contains Mode.I then .ok (threshold (ieeeEnv m bs t) q) else .error .invalidMode := by
  unfold Ebu.relativeThreshold
  cases hI : e.mode.contains Mode.I
  · rfl
  · simp only [Bool.not_true, Bool.false_eq_true, if_false, if_true, hq]
    congr 1
    unfold History.relativeThreshold threshold gateLevel mean
    simp only [History.calcRelativeThreshold, List.length_eq_zero_iff, gateFactor_tenth]
    rfl

/-- **C40.** Once a NaN energy is stored in a queue history (and not evicted), integrated loudness and relative
threshold are NaN and there is no gating count. -/
theorem C40_global {e : Ebu F64 F32} (hr : Reachable (ieeeEnv m bs t) e) (hI : e.mode.contains Mode.I = true)
    {q : List F64} {max : Nat} (hq : e.blockEnergyHistory = .queue q max) (hn : .nan ∈ q) :
    e.loudnessGlobal (ieeeEnv m bs t) = .done (.ok .nan) ∧ e.relativeThreshold (ieeeEnv m bs t) = .ok .nan ∧
      e.gatingBlockCountAndEnergy (ieeeEnv m bs t) = .done none := by
  have ht : total (Fl.arith Fmt.b64) q = .nan := sum_nan hn
  have ht' : total (ieeeEnv m bs t).f64 q = .nan := ht
  have hne : q ≠ [] := List.ne_nil_of_mem hn
  refine ⟨?_, ?_, ?_⟩
  · rw [C32_integrated hr hI hq]
    unfold integrated
    rw [if_neg hne, ht']
    rfl
  · rw [C36_threshold hq, if_pos hI]
    unfold threshold
    rw [if_neg hne, ht']
    rfl
  · rw [C35_queue hr hq, ht, if_pos (.inr (.inl rfl))]

/-- **C40.** The loudness range is NaN if a stored short-term energy is NaN (a single stored energy: if the libm
maps NaN to NaN). -/
theorem C40_range {e : Ebu F64 F32} (ht : t.usizeMax ≤ 2 ^ 64) (hr : Reachable (ieeeEnv m bs t) e)
    (hL : e.mode.contains Mode.LRA = true) {q : List F64} {max : Nat}
    (hq : e.shortTermBlockEnergyHistory = .queue q max) (hn : .nan ∈ q)
    (hlog : q.length = 1 → m.log10 .nan = .nan) :
    e.loudnessRange (ieeeEnv m bs t) = .done (.ok .nan) := by
  rw [Ebu.loudnessRange_eq (percentile_le rfl ht) (percentile_le rfl (by unfold u64Max; omega)) hr.inv, if_pos hL, hq]
  congr 2
  unfold rangeP
  simp only
  have ha : q.any (ieeeEnv m bs t).f64.isNan = true := List.any_eq_true.2 ⟨.nan, hn, rfl⟩
  by_cases h2 : 2 ≤ q.length
  · rw [if_pos ⟨h2, ha⟩]
    rfl
  · rw [if_neg (fun h => h2 h.1)]
    have hne : q ≠ [] := List.ne_nil_of_mem hn
    have h1 : q.length = 1 := by
      have := List.length_pos_of_ne_nil hne
      omega
    obtain ⟨x, rfl⟩ := List.length_eq_one_iff.1 h1
    rw [List.mem_singleton] at hn
    subst hn
    rw [List.mergeSort_singleton]
    unfold queueRangeP
    have hd : ([Fl.nan] : List F64).dropWhile (fun v => (ieeeEnv m bs t).f64.lt v
        ((ieeeEnv m bs t).f64.mul (gateFactor (ieeeEnv m bs t) (-20))
          ((ieeeEnv m bs t).f64.div (sumD (ieeeEnv m bs t).f64 [.nan])
            ((ieeeEnv m bs t).f64.ofInt ([Fl.nan] : List F64).length)))) = [.nan] := rfl
    simp only [hd]
    rw [if_neg (by simp)]
    obtain ⟨p1, p2⟩ := percentile_le (E := ieeeEnv m bs t) rfl ht (([Fl.nan] : List F64).length - 1)
    have e1 : percentile (ieeeEnv m bs t) (ieeeEnv m bs t).usizeMax (([Fl.nan] : List F64).length - 1) 95 100 = 0 :=
      Nat.le_zero.1 p2
    rw [e1]
    show Fl.sub (Fl.sub (Fl.mul _ (m.log10 .nan)) _) _ = .nan
    rw [hlog h1]
    rfl

/-- **C40.** In histogram mode a NaN energy is counted in the lowest bin. -/
theorem C40_histogram {c : List Nat} (hc : c.length = 1000) :
    (History.histogram c).add (ieeeEnv m bs t) .nan = .done (.histogram (c.modify 0 (· + 1))) := by
  rw [History.add_eq (ieeeEnv m bs t) (hist := .histogram c) hc]
  unfold History.addP
  rw [gate0_bnd, if_neg (by show ¬ Fl.lt .nan (bnd 0) = true; intro h; cases h)]
  have h := C30_low (m := m) (bs := bs) (t := t) (x := .nan) (by cases bnd 0 <;> rfl)
  rw [(find_eq _ _).1] at h
  injection h with h
  rw [h]

/-! ## Examples -/

/-- Twenty loud, then twenty quiet samples. -/
def Demo.loudQuiet : List (Op F64 F32) :=
  [.addFrames (.i16 (List.replicate 20 5000)), .addFrames (.i16 (List.replicate 20 500))]

theorem Demo.loudQuiet_report : (Demo.after (Demo.envReal false) 18 Mode.I Demo.loudQuiet).map (fun e =>
    let q := Demo.queueOf e.blockEnergyHistory
    decide (q.length = 17) && decide ((passing (Demo.envReal false) q).length = 7) &&
      decide (Demo.bitsOf (e.loudnessGlobal (Demo.envReal false)) = some 13851589533322944076) &&
      e.mode.contains Mode.I) = some true := by
  decide +kernel

/-- A run in which 17 blocks are stored and 7 of them pass the relative gate; it reports -26.73 LUFS, the
specified value by `C32_integrated`. -/
example : ∃ e q max, Reachable (Demo.envReal false) e ∧ e.mode.contains Mode.I = true ∧
    e.blockEnergyHistory = .queue q max ∧ q.length = 17 ∧ (passing (Demo.envReal false) q).length = 7 ∧
    Demo.bitsOf (e.loudnessGlobal (Demo.envReal false)) = some 13851589533322944076 := by
  obtain ⟨e, hr, hp⟩ := Demo.after_spec (by decide) (by decide) (by decide) Demo.loudQuiet_report
  simp only [Bool.and_eq_true, decide_eq_true_eq] at hp
  obtain ⟨⟨⟨h1, h2⟩, h3⟩, h4⟩ := hp
  obtain ⟨max, hq⟩ := Demo.queueOf_eq (h := e.blockEnergyHistory) rfl (by
    intro h; rw [h] at h1; cases h1)
  exact ⟨e, _, max, hr, h4, hq, h1, h2, h3⟩

theorem Demo.nan_report : (Demo.after (Demo.envReal false) 30 (Mode.I ||| Mode.LRA)
    [.addFrames (.i16 (List.replicate 10 5000)), .addFrames (.f64 [.nan]),
      .addFrames (.i16 (List.replicate 80 5000))]).map (fun e =>
    decide (.nan ∈ Demo.queueOf e.blockEnergyHistory) &&
      decide (.nan ∈ Demo.queueOf e.shortTermBlockEnergyHistory) &&
      e.mode.contains Mode.I && e.mode.contains Mode.LRA) = some true := by
  decide +kernel

/-- A single NaN sample makes stored energies NaN, in both histories. -/
example : ∃ e q max q' max', Reachable (Demo.envReal false) e ∧ e.mode.contains Mode.I = true ∧
    e.mode.contains Mode.LRA = true ∧ e.blockEnergyHistory = .queue q max ∧
    e.shortTermBlockEnergyHistory = .queue q' max' ∧ .nan ∈ q ∧ .nan ∈ q' := by
  obtain ⟨e, hr, hp⟩ := Demo.after_spec (by decide) (by decide) (by decide) Demo.nan_report
  simp only [Bool.and_eq_true, decide_eq_true_eq] at hp
  obtain ⟨⟨⟨h1, h2⟩, h3⟩, h4⟩ := hp
  obtain ⟨max, hq⟩ := Demo.queueOf_eq (h := e.blockEnergyHistory) rfl (List.ne_nil_of_mem h1)
  obtain ⟨max', hq'⟩ := Demo.queueOf_eq (h := e.shortTermBlockEnergyHistory) rfl (List.ne_nil_of_mem h2)
  exact ⟨e, _, max, _, max', hr, h3, h4, hq, hq', h1, h2⟩

end Verif
