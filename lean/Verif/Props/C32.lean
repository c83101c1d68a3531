import Verif.Proofs.FloatSum
import Verif.Proofs.Query
import Verif.Proofs.Grown
import Verif.Proofs.Safe
import Verif.Props.C30
import Verif.Props.C01_C03
import Verif.Spec.Gate
/-!
# C32, C35, C36, C40: gating over the stored block energies
-/

set_option linter.unusedSimpArgs false

namespace Verif
open Fl Spec
variable {m : Libm F64} {bs : BSearch} {t : Target}
variable {D S : Type}

theorem gateFactor_tenth : gateFactor (ieeeEnv m bs t) (-10) = tenth (ieeeEnv m bs t) := by
  have : Fl.div (Fl.lit Fmt.b64 (-10) 1) (Fl.lit Fmt.b64 10 1) = Fl.lit Fmt.b64 (-1) 1 := by decide +kernel
  unfold gateFactor tenth
  rw [ieee_f64, arith_div, arith_lit, this]

theorem gateFactor_hundredth : gateFactor (ieeeEnv m bs t) (-20) = hundredth (ieeeEnv m bs t) := by
  have : Fl.div (Fl.lit Fmt.b64 (-20) 1) (Fl.lit Fmt.b64 10 1) = Fl.lit Fmt.b64 (-2) 1 := by decide +kernel
  unfold gateFactor hundredth
  rw [ieee_f64, arith_div, arith_lit, this]

theorem totals_one (h : History F64) (hz : (h.calcRelativeThreshold (ieeeEnv m bs t)).2 ≠ zero true) :
    totals (ieeeEnv m bs t) [h] = h.calcRelativeThreshold (ieeeEnv m bs t) := by
  show (0 + _, Fl.add (zero false) _) = _
  rw [Nat.zero_add, Fl.zero_add Fmt.ok64 hz]

theorem totals_queue (q : List F64) (max : Nat) :
    totals (ieeeEnv m bs t) [.queue q max] = (q.length, total (Fl.arith Fmt.b64) q) :=
  totals_one _ (sum_ne_negzero q)

theorem sumItems_ones (E : Env D S) (l : List D) :
    sumItems E (l.map fun e => (1, e)) = (l.length, total E.f64 l) := by
  unfold sumItems total
  have : ∀ (n : Nat) (s : D), (l.map fun e => ((1 : Nat), e)).foldl
      (fun acc (x : Nat × D) => (acc.1 + x.1, E.f64.add acc.2 x.2)) (n, s) = (n + l.length, l.foldl E.f64.add s) := by
    induction l with
    | nil => intro n s; rfl
    | cons x l ih =>
      intro n s
      rw [List.map_cons, List.foldl_cons, ih, List.length_cons, List.foldl_cons]
      congr 1
      omega
  rw [this]
  simp

/-- What the gate yields for a queue. -/
theorem gating_queue (q : List F64) (max : Nat) :
    gatingMultP (ieeeEnv m bs t) [.queue q max] =
      if q = [] then .error .noBlocksAboveThreshold
      else if Fl.isNan (total (Fl.arith Fmt.b64) q) then .error .relativeThresholdIsNan
      else if passing (ieeeEnv m bs t) q = [] then .error .noBlocksAboveThreshold
      else .ok ((passing (ieeeEnv m bs t) q).length, total (Fl.arith Fmt.b64) (passing (ieeeEnv m bs t) q)) := by
  unfold gatingMultP iterP
  rw [totals_queue]
  have hg : relGate (ieeeEnv m bs t) (-10) (q.length, total (Fl.arith Fmt.b64) q) = gateLevel (ieeeEnv m bs t) q := by
    unfold relGate gateLevel
    rw [gateFactor_tenth]
    rfl
  simp only [hg, List.length_eq_zero_iff]
  by_cases h1 : q = []
  · rw [if_pos h1, if_pos h1]
  rw [if_neg h1, if_neg h1]
  have hN : ∀ x : F64, (ieeeEnv m bs t).f64.isNan x = Fl.isNan x := fun _ => rfl
  rw [hN]
  by_cases h2 : Fl.isNan (total (Fl.arith Fmt.b64) q) = true
  · rw [if_pos h2, if_pos h2]
  rw [if_neg h2, if_neg h2]
  simp only [List.map_cons, List.map_nil, List.flatten_cons, List.flatten_nil, List.append_nil, History.gatedP]
  rw [sumItems_ones]
  simp only [List.length_eq_zero_iff]
  rfl

/-- **C32.** In queue mode `loudness_global` is the two-stage gate over the stored energies. -/
theorem C32_integrated {e : Ebu F64 F32} (hr : Reachable (ieeeEnv m bs t) e)
    (hI : e.mode.contains Mode.I = true) {q : List F64} {max : Nat} (hq : e.blockEnergyHistory = .queue q max) :
    e.loudnessGlobal (ieeeEnv m bs t) = .done (.ok (integrated (ieeeEnv m bs t) q)) := by
  rw [Ebu.loudnessGlobal_eq hr.inv, if_pos hI, hq]
  congr 2
  unfold gatedLoudnessP integrated
  rw [gating_queue]
  by_cases h1 : q = []
  · rw [if_pos h1, if_pos h1]
  rw [if_neg h1, if_neg h1]
  have hN : ∀ x : F64, (ieeeEnv m bs t).f64.isNan x = Fl.isNan x := fun _ => rfl
  have hT : total (ieeeEnv m bs t).f64 q = total (Fl.arith Fmt.b64) q := rfl
  rw [hN, hT]
  by_cases h2 : Fl.isNan (total (Fl.arith Fmt.b64) q) = true
  · rw [if_pos h2, if_pos h2]
  rw [if_neg h2, if_neg h2]
  by_cases h3 : passing (ieeeEnv m bs t) q = []
  · rw [if_pos h3, if_pos h3]
  · rw [if_neg h3, if_neg h3]
    rfl

/-- **C32.** The stored energies of a reachable queue history are NaN or non-negative. -/
theorem C32_stored {e : Ebu F64 F32} (hr : Reachable (ieeeEnv m bs t) e) {q : List F64} {max : Nat} :
    (e.blockEnergyHistory = .queue q max → ∀ x ∈ q, x.NonnegOrNan) ∧
      (e.shortTermBlockEnergyHistory = .queue q max → ∀ x ∈ q, x.NonnegOrNan) := by
  obtain ⟨c, r, md, e0, ops, h1, h2⟩ := hr
  let P : Nat → History F64 → Prop := fun _ h => ∀ q max, h = .queue q max → ∀ x ∈ q, x.NonnegOrNan
  have hadd : ∀ m' h h' x, P m' h → h.add (ieeeEnv m bs t) x = .done h' → Measured (ieeeEnv m bs t) x → P m' h' := by
    intro _ h h' x hp ha _ q max hq y hy
    subst hq
    cases h with
    | histogram c =>
      simp only [History.add, Run.bind_eq, index_b0, Run.done_bind] at ha
      split at ha
      · cases ha
      · obtain ⟨_, _, hh⟩ := Run.bind_done ha
        cases hh
    | queue q' max' =>
      rw [History.add_eq (ieeeEnv m bs t) (hist := .queue q' max') trivial x] at ha
      unfold History.addP at ha
      rw [gate0_bnd] at ha
      by_cases hlt : (ieeeEnv m bs t).f64.lt x (bnd 0) = true
      · rw [if_pos hlt] at ha; cases ha; exact hp _ _ rfl y hy
      · rw [if_neg hlt] at ha
        cases ha
        rw [queueAdd, List.mem_append] at hy
        rcases hy with hy | hy
        · apply hp _ _ rfl y
          split at hy
          · exact List.mem_of_mem_drop hy
          · exact hy
        · rw [List.mem_singleton] at hy
          subst hy
          change ¬ Fl.lt y (bnd 0) = true at hlt
          cases y with
          | nan => trivial
          | num s k hk =>
            rw [Bool.not_eq_true, Fl.not_lt rfl (bnd_not_nan 0)] at hlt
            cases s with
            | false => rfl
            | true =>
              exfalso
              obtain ⟨_, e⟩ := bnd_key 0
              rw [e, Fl.le_num, decide_eq_true_eq] at hlt
              have := bkey_pos (i := 0) (by omega)
              simp only [Fl.skey, if_true, if_neg Bool.false_ne_true] at hlt
              omega
  have hreset : ∀ m' (h : History F64), P m' h → P m' h.reset := by
    intro _ h _ q max hq y hy
    cases h with
    | histogram c => cases hq
    | queue q' max' => cases hq; simp at hy
  have hmax : ∀ k m' m'' (h : History F64), P m' h → m' ≠ m'' → P m'' (h.setMaxSize (ieeeEnv m bs t) (m'' / k)) := by
    intro k _ m'' h hp _ q max hq y hy
    cases h with
    | histogram c => cases hq
    | queue q' max' =>
      unfold History.setMaxSize at hq
      simp only at hq
      split at hq
      · cases hq
        rw [List.mem_append] at hy
        rcases hy with hy | hy
        · exact hp _ _ rfl y hy
        · rw [List.eq_of_mem_replicate hy]; rfl
      · cases hq; exact hp _ _ rfl y hy
  obtain ⟨rfl, -⟩ := Ebu.new_ok h1
  have hi := (reachable_new h1).inv2
  have init : ∀ m' b n, P m' (History.new b n) := by
    intro _ b n q max hq y hy
    unfold History.new at hq
    split at hq
    · cases hq
    · cases hq; simp at hy
  obtain ⟨k1, k2⟩ := runOps_hist P P hadd hadd hi (init 0 _ _) (init 0 _ _) ops (.inl ⟨hreset, hreset⟩)
    (.inl ⟨hmax 100, hmax 3000⟩) h2
  exact ⟨k1 q max, k2 q max⟩

/-! ## At least one block passes the relative gate -/

/-- Partial sums stay below twice the exact bound. -/
theorem sum_bound {l : List F64} {M : Nat} (hl : ∀ x ∈ l, ∃ k h, x = .num false k h ∧ Fmt.b64.mag k ≤ M)
    (j : Nat) {s : Nat} {hs : s ≤ Fmt.b64.infK} (hj : j + l.length < 2 ^ 51)
    (h : Fmt.b64.mag s ≤ 2 * (j * M)) :
    ∃ s' h', l.foldl Fl.add (.num false s hs) = .num false s' h' ∧ Fmt.b64.mag s' ≤ 2 * ((j + l.length) * M) := by
  induction l generalizing j s with
  | nil => exact ⟨s, hs, rfl, h⟩
  | cons x l ih =>
    obtain ⟨k, hk, rfl, hM⟩ := hl x (by simp)
    rw [List.foldl_cons, Fl.add_pos Fmt.b64_mb]
    rw [List.length_cons] at hj ⊢
    rw [show j + (l.length + 1) = j + 1 + l.length by omega]
    apply ih (fun y hy => hl y (by simp [hy])) (j + 1) (by omega)
    have hb := rnd_b64_bound (a := Fmt.b64.mag s + Fmt.b64.mag k) (b := 1) (by omega)
    generalize Fmt.b64.mag (Fmt.b64.rnd (Fmt.b64.mag s + Fmt.b64.mag k) 1) = r at *
    generalize Fmt.b64.mag s = a at *
    generalize Fmt.b64.mag k = c at *
    rw [Nat.add_mul]
    have hjM : j * M ≤ 2 ^ 51 * M := Nat.mul_le_mul_right _ (by omega)
    generalize j * M = p at *
    omega

/-- **C32.** If the energies have a finite sum and the factor for -10 dB is a number not above 1/4 (it should be
one tenth), at least one block passes the relative gate, so the integrated loudness of a non-empty history is
not minus infinity for want of blocks. -/
theorem C32_passes {q : List F64} (hne : q ≠ []) (hlen : q.length < 2 ^ 50) (hnn : ∀ x ∈ q, x.Nonneg)
    (hfin : Fl.lt (total (Fl.arith Fmt.b64) q) (Fl.inf false) = true)
    (hf : (tenth (ieeeEnv m bs t)).Nonneg) (hf4 : Fl.le (tenth (ieeeEnv m bs t)) (Fl.lit _ 1 4) = true) :
    passing (ieeeEnv m bs t) q ≠ [] := by
  -- the largest stored energy
  obtain ⟨k0, h0, hmem, hmax⟩ : ∃ k0 h0, (.num false k0 h0 : F64) ∈ q ∧
      ∀ x ∈ q, ∃ k h, x = .num false k h ∧ k ≤ k0 := by
    clear hlen hfin
    induction q with
    | nil => exact absurd rfl hne
    | cons x q ih =>
      obtain ⟨k, hk, rfl⟩ := (hnn x (by simp)).out
      by_cases hq : q = []
      · subst hq
        exact ⟨k, hk, by simp, by simpa using hk⟩
      · obtain ⟨l, hl, h1, h2⟩ := ih hq (fun y hy => hnn y (by simp [hy]))
        by_cases hkl : k ≤ l
        · refine ⟨l, hl, by simp [h1], ?_⟩
          intro y hy
          rcases List.mem_cons.1 hy with rfl | hy
          · exact ⟨k, hk, rfl, hkl⟩
          · exact h2 y hy
        · refine ⟨k, hk, by simp, ?_⟩
          intro y hy
          rcases List.mem_cons.1 hy with rfl | hy
          · exact ⟨k, hk, rfl, Nat.le_refl _⟩
          · obtain ⟨k', h', e, h3⟩ := h2 y hy
            exact ⟨k', h', e, by omega⟩
  -- their sum
  obtain ⟨s, hs, es, hsM⟩ := sum_bound (M := Fmt.b64.mag k0) (l := q)
    (fun x hx => by obtain ⟨k, h, e, hk⟩ := hmax x hx; exact ⟨k, h, e, Fmt.mag_le _ hk⟩) 0
    (s := 0) (hs := Nat.zero_le _) (by omega) (by rw [Fmt.mag_zero]; omega)
  rw [Nat.zero_add] at hsM
  have es' : total (Fl.arith Fmt.b64) q = .num false s hs := es
  have hs' : s < Fmt.b64.infK := by
    rw [es'] at hfin
    unfold Fl.inf at hfin
    rwa [Fl.lt_pos, decide_eq_true_eq] at hfin
  -- their mean
  have hn0 : 0 < q.length := List.length_pos_of_ne_nil hne
  obtain ⟨kn, hkn, en, n1, n2⟩ : ∃ kn h, Fl.ofInt Fmt.b64 (q.length : Int) = .num false kn h ∧
      Fmt.b64.mag kn = q.length * U64 ∧ kn < Fmt.b64.infK := by
    obtain ⟨h1, h2⟩ := Fl.mag_rnd_int Fmt.ok64 (n := q.length) (by change q.length ≤ 2 * 2 ^ 52; omega)
    exact ⟨_, _, Fl.ofInt_pos _, h1.trans (by rw [U64_eq]), h2⟩
  have hU := U64_pos
  have hkn0 : kn ≠ 0 := by
    rintro rfl
    rw [Fmt.mag_zero] at n1
    have := Nat.mul_pos hn0 hU
    omega
  have hnU : 0 < q.length * U64 := Nat.mul_pos hn0 hU
  obtain ⟨km, hkmI, em, hkm, hb⟩ : ∃ km h, mean (Fl.arith Fmt.b64) q = .num false km h ∧ km < Fmt.b64.infK ∧
      Fmt.b64.mag km * (2 * 2 ^ 52 - 1) * (q.length * U64) ≤ (2 * (Fmt.b64.mag s * U64) + q.length * U64) * 2 ^ 52 := by
    unfold mean
    rw [es', arith_div, arith_ofInt, en]
    refine ⟨_, _, Fl.div_pos hs'.ne n2.ne hkn0, ?_, ?_⟩
    · rw [n1, U64_eq]
      refine Nat.lt_of_le_of_lt (Fmt.rnd_le _ Fmt.b64_mb hnU hs'.le ?_) hs'
      exact Nat.mul_le_mul_left _ (Nat.le_mul_of_pos_left _ hn0)
    · rw [n1, U64_eq]
      exact rnd_b64_bound hnU
  have hm4 : Fmt.b64.mag km ≤ 4 * Fmt.b64.mag k0 := by
    have h1 : Fmt.b64.mag s * U64 ≤ 2 * Fmt.b64.mag k0 * (q.length * U64) := by
      calc Fmt.b64.mag s * U64 ≤ 2 * (q.length * Fmt.b64.mag k0) * U64 := Nat.mul_le_mul_right _ hsM
        _ = 2 * Fmt.b64.mag k0 * (q.length * U64) := by ring
    have h2 : Fmt.b64.mag km * (2 * 2 ^ 52 - 1) * (q.length * U64) ≤
        (4 * Fmt.b64.mag k0 + 1) * 2 ^ 52 * (q.length * U64) := by
      refine Nat.le_trans hb ?_
      calc (2 * (Fmt.b64.mag s * U64) + q.length * U64) * 2 ^ 52
          ≤ (2 * (2 * Fmt.b64.mag k0 * (q.length * U64)) + q.length * U64) * 2 ^ 52 :=
            Nat.mul_le_mul_right _ (by omega)
        _ = (4 * Fmt.b64.mag k0 + 1) * 2 ^ 52 * (q.length * U64) := by ring
    have h3 := Nat.le_of_mul_le_mul_right h2 hnU
    generalize Fmt.b64.mag km = x at *
    generalize Fmt.b64.mag k0 = y at *
    omega
  -- the gate
  obtain ⟨f, hfk, ef⟩ := hf.out
  rw [ef, show Fl.lit Fmt.b64 1 4 = _ from Fl.lit_pos 1 4, Fl.le_pos, decide_eq_true_eq] at hf4
  have hq4 : Fmt.b64.mag (Fmt.b64.rnd (1 * 2 ^ Fmt.b64.u) 4) * 4 = U64 := by
    obtain ⟨d, hd, d1, d2⟩ : ∃ d, Fmt.b64.u = d + 2 ∧ Fmt.b64.mb ≤ d ∧ d + 2 ≤ Fmt.b64.emax :=
      ⟨1072, rfl, by decide, by decide⟩
    obtain ⟨k, k1, k2⟩ := Fl.exists_mag Fmt.b64 1 d (by decide) d1 d2
    have e : (1 * 2 ^ Fmt.b64.u : Nat) = Fmt.b64.mag k * 4 := by
      rw [k2, Nat.one_mul, Nat.one_mul, hd, Nat.pow_add]
    rw [e, Fmt.rnd_mag _ Fmt.b64_mb k1.le (by omega), ← e, Nat.one_mul, U64_eq]
  have hfU : Fmt.b64.mag f * 4 ≤ U64 := by
    rw [← hq4]
    exact Nat.mul_le_mul_right _ (Fmt.mag_le _ hf4)
  have hfin' : f < Fmt.b64.infK := by
    apply lt_of_le_of_ne hfk
    apply fin_of_mag_lt
    have := mag_inf_b64
    generalize Fmt.b64.mag Fmt.b64.infK = y at *
    generalize Fmt.b64.mag f = x at *
    generalize U64 = u at *
    omega
  obtain ⟨g, hg, eg, hle⟩ : ∃ g h, gateLevel (ieeeEnv m bs t) q = .num false g h ∧ g ≤ k0 := by
    unfold gateLevel
    rw [ieee_f64, em, ef, arith_mul]
    refine ⟨_, _, Fl.mul_pos hkm.ne hfin'.ne, ?_⟩
    rw [U64_eq]
    apply Fmt.rnd_le _ Fmt.b64_mb hU h0
    calc Fmt.b64.mag km * Fmt.b64.mag f ≤ 4 * Fmt.b64.mag k0 * Fmt.b64.mag f := Nat.mul_le_mul_right _ hm4
      _ = Fmt.b64.mag k0 * (Fmt.b64.mag f * 4) := by ring
      _ ≤ Fmt.b64.mag k0 * U64 := Nat.mul_le_mul_left _ hfU
  apply List.ne_nil_of_mem (a := (.num false k0 h0 : F64))
  unfold passing
  rw [List.mem_filter]
  refine ⟨hmem, ?_⟩
  rw [eg, ieee_f64, arith_le, Fl.le_pos, decide_eq_true_eq]
  exact hle

end Verif
