import Verif.Proofs.Steps
import Verif.Proofs.StepFile
/-!
# C76: the test signals of EBU Tech 3341 for the momentary and the short-term loudness
-/

namespace Verif
open Spec
variable {m : Libm F64} {bs : BSearch} {t : Target}

/-! ## Two amplitudes in turn -/

/-- Whether the amplitude changes at the beginning of hundredth `i`. -/
def turn (q p i : ℕ) : ℕ := if i % p = 0 ∨ i % p = q then 1 else 0

theorem inTurn_jump {a b : ℝ} (b0 : 0 ≤ b) (ba : b ≤ a) {q p : ℕ} (q0 : 0 < q) (qp : q < p) (i : ℕ) :
    |jump (inTurn a b q p) i| ≤ (a - b) * turn q p i + if i = 0 then b else 0 := by
  unfold jump
  rcases Nat.eq_zero_or_pos i with rfl | hi
  · have v : inTurn a b q p 0 = a := by unfold inTurn; rw [Nat.zero_mod, if_pos q0]
    have d : turn q p 0 = 1 := by unfold turn; rw [Nat.zero_mod, if_pos (.inl rfl)]
    rw [v, d, if_pos rfl, if_pos rfl, sub_zero, abs_of_nonneg (by linarith)]
    push_cast
    linarith
  · rw [if_neg (by omega), if_neg (by omega), add_zero]
    have hm : (i - 1) % p = if i % p = 0 then p - 1 else i % p - 1 := by
      obtain ⟨j, rfl⟩ : ∃ j, i = j + 1 := ⟨i - 1, by omega⟩
      rw [Nat.add_sub_cancel]
      have hj : j % p < p := Nat.mod_lt _ (by omega)
      rw [Nat.add_mod, Nat.mod_eq_of_lt (show 1 < p by omega)]
      rcases Nat.lt_or_ge (j % p + 1) p with h | h
      · rw [Nat.mod_eq_of_lt h, if_neg (by omega), Nat.add_sub_cancel]
      · have h2 : j % p + 1 = p := by omega
        rw [h2, Nat.mod_self, if_pos rfl]
        omega
    unfold inTurn turn
    rw [hm]
    have hlt : i % p < p := Nat.mod_lt _ (by omega)
    generalize i % p = x at *
    have d0 : |a - b| = a - b := abs_of_nonneg (by linarith)
    have d1 : |b - a| = a - b := by rw [abs_sub_comm, d0]
    split_ifs <;> first | omega | simp [d0, d1]

theorem inTurn_jumps {a b : ℝ} (b0 : 0 ≤ b) (ba : b ≤ a) {q p : ℕ} (q0 : 0 < q) (qp : q < p) {k W c : ℕ}
    (hc : ∑ i ∈ Finset.range W, turn q p (k + i) ≤ c) :
    ∑ i ∈ Finset.range W, |jump (inTurn a b q p) (k + i)| ≤ (a - b) * c + b := by
  refine (Finset.sum_le_sum fun i _ => inTurn_jump b0 ba q0 qp (k + i)).trans ?_
  rw [Finset.sum_add_distrib, ← Finset.mul_sum]
  refine add_le_add (mul_le_mul_of_nonneg_left (by exact_mod_cast hc) (by linarith)) ?_
  rcases Nat.eq_zero_or_pos k with rfl | hk
  · rcases Nat.eq_zero_or_pos W with rfl | hW
    · simpa using b0
    · simp [hW]
  · rw [Finset.sum_eq_zero fun i _ => if_neg (by omega)]
    exact b0

theorem period_sum {M : Type} [AddCommMonoid M] {f : ℕ → M} {p : ℕ} (hf : ∀ i, f (i + p) = f i) (k : ℕ) :
    ∑ i ∈ Finset.range p, f (k + i) = ∑ i ∈ Finset.range p, f i := by
  induction k with
  | zero => simp
  | succ k ih =>
    rw [← ih]
    rcases p with _ | r
    · simp
    rw [Finset.sum_range_succ, Finset.sum_range_succ', Nat.add_zero]
    congr 1
    · refine Finset.sum_congr rfl fun i _ => ?_
      rw [show k + 1 + i = k + (i + 1) by omega]
    · rw [show k + 1 + r = k + (r + 1) by omega, hf, Nat.add_zero]

/-- There are at most three changes in a window that is a little longer than a period. -/
theorem turn_window {q p : ℕ} (q0 : 0 < q) (qp : q < p) (h10 : ∀ r < p, ∑ i ∈ Finset.range 10, turn q p (r + i) ≤ 1) {k W : ℕ}
    (hW : W ≤ p + 10) : ∑ i ∈ Finset.range W, turn q p (k + i) ≤ 3 := by
  refine (Finset.sum_le_sum_of_subset (Finset.range_subset_range.2 hW)).trans ?_
  have hper : ∀ i, turn q p (i + p) = turn q p i := fun i => by unfold turn; rw [Nat.add_mod_right]
  have two : ∑ i ∈ Finset.range p, turn q p i = 2 := by
    have e : ∀ i ∈ Finset.range p, turn q p i = (if i = 0 then 1 else 0) + (if i = q then 1 else 0) := by
      intro i hi
      have := Finset.mem_range.1 hi
      unfold turn
      rw [Nat.mod_eq_of_lt this]
      split_ifs <;> omega
    rw [Finset.sum_congr rfl e, Finset.sum_add_distrib]
    simp [qp, show 0 < p by omega]
  rw [Finset.sum_range_add, period_sum hper, two]
  have e : ∑ i ∈ Finset.range 10, turn q p (k + (p + i)) = ∑ i ∈ Finset.range 10, turn q p (k % p + i) := by
    refine Finset.sum_congr rfl fun i _ => ?_
    rw [show k + (p + i) = k + i + p by omega, hper]
    unfold turn
    rw [Nat.add_mod k i p, Nat.add_mod (k % p) i p, Nat.mod_mod]
  rw [e]
  have := h10 (k % p) (Nat.mod_lt _ (by omega))
  omega

theorem inTurn_squares (a b : ℝ) {q p : ℕ} (qp : q ≤ p) (k : ℕ) :
    ∑ i ∈ Finset.range p, inTurn a b q p (k + i) ^ 2 = q * a ^ 2 + (p - q) * b ^ 2 := by
  rw [period_sum (f := fun i => inTurn a b q p i ^ 2) fun i => by unfold inTurn; rw [Nat.add_mod_right]]
  obtain ⟨r, rfl⟩ : ∃ r, p = q + r := ⟨p - q, by omega⟩
  have e1 : ∀ i ∈ Finset.range q, inTurn a b q (q + r) i ^ 2 = a ^ 2 := fun i hi => by
    have := Finset.mem_range.1 hi
    unfold inTurn
    rw [Nat.mod_eq_of_lt (by omega), if_pos this]
  have e2 : ∀ i ∈ Finset.range r, inTurn a b q (q + r) (q + i) ^ 2 = b ^ 2 := fun i hi => by
    have := Finset.mem_range.1 hi
    unfold inTurn
    rw [Nat.mod_eq_of_lt (by omega), if_neg (by omega)]
  rw [Finset.sum_range_add, Finset.sum_congr rfl e1, Finset.sum_congr rfl e2]
  simp

theorem stepSlack_mono {S R O S' R' O' ε w : ℝ} (S0 : 0 ≤ S) (R0 : 0 ≤ R) (O0 : 0 ≤ O) (ε0 : 0 ≤ ε) (w0 : 0 < w)
    (hS : S ≤ S') (hR : R ≤ R') (hO : O ≤ O') : stepSlack S R O ε w ≤ stepSlack S' R' O' ε w := by
  have O1 : 0 ≤ O' := O0.trans hO
  have R1 : 0 ≤ R' := R0.trans hR
  have S1 : 0 ≤ S' := S0.trans hS
  unfold stepSlack
  gcongr

/-- The power of a window of one period, wherever it is. -/
theorem inTurn_power (bs : BSearch) (u : Nat) {a b tol : ℝ} {q p K : ℕ} {φ : ℕ → ℝ} {evs : List (Event F64)}
    (h : Sounds tol (inTurn a b q p) K 2 φ evs) (t0 : 0 ≤ tol) (b0 : 0 ≤ b) (ba : b ≤ a) (q0 : 0 < q) (qp : q < p)
    (hK : p ≤ K) {d : ℕ} (hc : ∀ r < p, ∑ i ∈ Finset.range 10, turn q p (r + i) ≤ 1)
    (hd : ∑ i ∈ Finset.range K, turn q p i ≤ d) :
    let P := idealPower (defaultChannelMap 2) (p * 480) (K * 480) (idealOuts bs u 48000 evs)
    let M := (q * a ^ 2 + (p - q) * b ^ 2) / p
    let s := stepSlack a ((a - b) * 3 + b) ((a - b) * d + b) tol p
    2 * (587138 / 10 ^ 6 * M - s) ≤ P ∧ P ≤ 2 * (587139 / 10 ^ 6 * M + s) := by
  intro P M s
  have s3 : s = stepSlack a ((a - b) * (3 : ℕ) + b) ((a - b) * d + b) tol p := by simp only [s]; push_cast; rfl
  have a0 : 0 ≤ a := b0.trans ba
  have := sounds_window bs u h t0 (cm := defaultChannelMap 2) (by decide) (w := p) (k := K - p) (by omega) (by omega)
    (S := a) (R := (a - b) * (3 : ℕ) + b) (O := (a - b) * d + b) (fun i _ => by
      unfold inTurn
      split_ifs
      · rw [abs_of_nonneg a0]
      · rw [abs_of_nonneg b0]
        exact ba) (by
      exact inTurn_jumps b0 ba q0 qp (turn_window q0 qp hc (by omega))) (by
      have := inTurn_jumps b0 ba q0 qp (k := 0) (W := K - p - 10) (c := d) (by
        simp only [Nat.zero_add]
        refine (Finset.sum_le_sum_of_subset (Finset.range_subset_range.2 ?_)).trans hd
        omega)
      simpa only [Nat.zero_add] using this)
  rw [Nat.sub_add_cancel hK, stereo_weight, inTurn_squares a b qp.le, ← s3] at this
  exact this

theorem dBFS20 : dBFS (-20) = 1 / 10 := by
  unfold dBFS
  rw [show (-20 / 20 : ℝ) = -1 by norm_num, Real.rpow_neg_one]
  norm_num

theorem dBFS_sq (L : ℝ) : dBFS L ^ 2 = (10 : ℝ) ^ (L / 10) := by
  unfold dBFS
  rw [← Real.rpow_natCast, ← Real.rpow_mul (by norm_num)]
  congr 1
  push_cast
  ring

theorem dBFS_pos (L : ℝ) : 0 < dBFS L := by
  unfold dBFS
  positivity

theorem dBFS30 : dBFS (-30) ^ 2 = 1 / 1000 ∧ 316 / 10000 ≤ dBFS (-30) ∧ dBFS (-30) ≤ 317 / 10000 := by
  have h : dBFS (-30) ^ 2 = 1 / 1000 := by
    rw [dBFS_sq, show (-30 / 10 : ℝ) = -((3 : ℕ) : ℝ) by norm_num, Real.rpow_neg (by norm_num), Real.rpow_natCast]
    norm_num
  have h0 := dBFS_pos (-30)
  refine ⟨h, ?_, ?_⟩
  · exact le_of_sq_le_sq (by rw [h]; norm_num) h0.le
  · exact le_of_sq_le_sq (by rw [h]; norm_num) (by norm_num)

theorem level23 : 50118 / 10 ^ 7 ≤ (10 : ℝ) ^ ((-23 : ℝ) / 10) ∧ (10 : ℝ) ^ ((-23 : ℝ) / 10) ≤ 50119 / 10 ^ 7 := by
  have e : (10 : ℝ) ^ ((-23 : ℝ) / 10) = (10 : ℝ) ^ (((7 : ℕ) : ℝ) / (10 : ℕ)) / 1000 := by
    rw [show ((-23 : ℝ) / 10) = ((7 : ℕ) : ℝ) / (10 : ℕ) - ((3 : ℕ) : ℝ) by norm_num, Real.rpow_sub (by norm_num),
      Real.rpow_natCast]
    norm_num
  have h1 := le_rpow_of_pow (a := 50118 / 10000) (p := 7) (q := 10) (by norm_num) (by norm_num) (by norm_num)
  have h2 := rpow_le_of_pow (a := 50119 / 10000) (p := 7) (q := 10) (by norm_num) (by norm_num) (by norm_num)
  rw [e]
  constructor <;> linarith

/-- From the bounds on the power to the answer. -/
theorem turns_ask (hm : GoodLibm m) {mode : Mode} {e0 e : Ebu F64 F32}
    (hnew : Ebu.new (ieeeEnv m bs t) 2 48000 mode = .done (.ok e0)) {ops : List (Op F64 F32)} (hops : ∀ op ∈ ops, Feed op)
    (hrun : runOps (ieeeEnv m bs t) e0 ops = .done e) {K p r : ℕ} {φ : ℕ → ℝ} (hK : p ≤ K)
    (hp : Sounds (1 / 2 ^ 22) (inTurn (dBFS (-20)) (dBFS (-30)) r p) K 2 φ (heard (ieeeEnv m bs t) 2 ops)) {q : Query}
    (hq : (p = 40 ∧ q = .loudnessMomentary) ∨ (p = 300 ∧ q = .loudnessShortterm ∧ mode.contains Mode.S = true))
    (r0 : 0 < r) (rp : r < p) {d : ℕ} (hc : ∀ j < p, ∑ i ∈ Finset.range 10, turn r p (j + i) ≤ 1)
    (hd : ∑ i ∈ Finset.range K, turn r p i ≤ d) (d1 : 1 ≤ d)
    (h1 : 2876 / 10 ^ 6 ≤ 587138 / 10 ^ 6 * ((r * (1 / 100) + (p - r) * (1 / 1000)) / p : ℝ) -
      stepSlack (1 / 10) (2368 / 10000) (1 / 10 + 684 / 10000 * (d - 1)) (1 / 2 ^ 22) p)
    (h2 : 587139 / 10 ^ 6 * ((r * (1 / 100) + (p - r) * (1 / 1000)) / p : ℝ) +
      stepSlack (1 / 10) (2368 / 10000) (1 / 10 + 684 / 10000 * (d - 1)) (1 / 2 ^ 22) p ≤ 30053 / 10 ^ 7) :
    ∃ v : F64, ask (ieeeEnv m bs t) e q = .done (.ok v) ∧ v.Finite ∧ |v.value - -23| ≤ 1 / 10 := by
  obtain ⟨b1, b2, b3⟩ := dBFS30
  rw [dBFS20] at hp
  have hP := inTurn_power bs 0 hp (by positivity) (by linarith) (by linarith) r0 rp hK hc hd
  dsimp only at hP
  rw [b1, show ((1 : ℝ) / 10) ^ 2 = 1 / 100 by norm_num] at hP
  have hd1 : (1 : ℝ) ≤ d := by exact_mod_cast d1
  have sl : stepSlack (1 / 10) ((1 / 10 - dBFS (-30)) * 3 + dBFS (-30)) ((1 / 10 - dBFS (-30)) * d + dBFS (-30)) (1 / 2 ^ 22) p ≤
      stepSlack (1 / 10) (2368 / 10000) (1 / 10 + 684 / 10000 * (d - 1)) (1 / 2 ^ 22) p := by
    refine stepSlack_mono (by norm_num) ?_ ?_ (by positivity) (by exact_mod_cast (by omega : 0 < p)) le_rfl ?_ ?_
    · linarith
    · nlinarith
    · linarith
    · nlinarith
  generalize stepSlack (1 / 10) ((1 / 10 - dBFS (-30)) * 3 + dBFS (-30)) ((1 / 10 - dBFS (-30)) * d + dBFS (-30)) (1 / 2 ^ 22) p = s1 at *
  generalize stepSlack (1 / 10) (2368 / 10000) (1 / 10 + 684 / 10000 * (d - 1)) (1 / 2 ^ 22) p = s2 at *
  have key := fine_ask hm hnew hops hrun hp (X := 101 / 1000) (by norm_num) (by norm_num) (fun i _ => by
    unfold inTurn
    split_ifs
    · rw [abs_of_nonneg (by norm_num)]
      norm_num
    · rw [abs_of_nonneg (by linarith)]
      norm_num
      linarith) hq
  dsimp only at key
  generalize idealPower (defaultChannelMap 2) (p * 480) (K * 480) (idealOuts bs 0 48000 (heard (ieeeEnv m bs t) 2 ops)) = P at *
  obtain ⟨v, v1, v2, v3⟩ := key (by
    norm_num at h1 hP ⊢
    linarith [hP.1])
  obtain ⟨l1, l2⟩ := level23
  have lf := lufs_fine (x := P) (L := -23) (by linarith [hP.1]) (by linarith [hP.2])
  refine ⟨v, v1, v2, ?_⟩
  have v3 := abs_le.1 v3
  rw [abs_le]
  constructor <;> linarith [v3.1, v3.2, lf.1, lf.2]

/-- **C76.** Case 12: 0.18 s at -20 dBFS and 0.22 s at -30 dBFS in turn, 25 times. From 0.4 s on, at each multiple of 10 ms,
the momentary loudness is -23 LUFS, to 0.1 LU. -/
theorem C76_momentary (hm : GoodLibm m) {mode : Mode} {e0 e : Ebu F64 F32}
    (hnew : Ebu.new (ieeeEnv m bs t) 2 48000 mode = .done (.ok e0)) {ops : List (Op F64 F32)} (hops : ∀ op ∈ ops, Feed op)
    (hrun : runOps (ieeeEnv m bs t) e0 ops = .done e) {K : ℕ} {φ : ℕ → ℝ} (hK : 40 ≤ K) (hK' : K ≤ 1000)
    (hp : Sounds (1 / 2 ^ 22) (inTurn (dBFS (-20)) (dBFS (-30)) 18 40) K 2 φ (heard (ieeeEnv m bs t) 2 ops)) :
    ∃ v : F64, ask (ieeeEnv m bs t) e .loudnessMomentary = .done (.ok v) ∧ v.Finite ∧ |v.value - -23| ≤ 1 / 10 := by
  refine turns_ask hm hnew hops hrun hK hp (.inl ⟨rfl, rfl⟩) (by norm_num) (by norm_num) (by decide +kernel) (d := 50) ?_
    (by norm_num) ?_ ?_
  · refine (Finset.sum_le_sum_of_subset (Finset.range_subset_range.2 hK')).trans ?_
    decide +kernel
  · unfold stepSlack
    norm_num
  · unfold stepSlack
    norm_num

/-- **C76.** Case 9: 1.34 s at -20 dBFS and 1.66 s at -30 dBFS in turn, five times. From 3 s on, at each multiple of 10 ms, the
short-term loudness is -23 LUFS, to 0.1 LU. -/
theorem C76_shortterm (hm : GoodLibm m) {mode : Mode} (hS : mode.contains Mode.S = true) {e0 e : Ebu F64 F32}
    (hnew : Ebu.new (ieeeEnv m bs t) 2 48000 mode = .done (.ok e0)) {ops : List (Op F64 F32)} (hops : ∀ op ∈ ops, Feed op)
    (hrun : runOps (ieeeEnv m bs t) e0 ops = .done e) {K : ℕ} {φ : ℕ → ℝ} (hK : 300 ≤ K) (hK' : K ≤ 1500)
    (hp : Sounds (1 / 2 ^ 22) (inTurn (dBFS (-20)) (dBFS (-30)) 134 300) K 2 φ (heard (ieeeEnv m bs t) 2 ops)) :
    ∃ v : F64, ask (ieeeEnv m bs t) e .loudnessShortterm = .done (.ok v) ∧ v.Finite ∧ |v.value - -23| ≤ 1 / 10 := by
  refine turns_ask hm hnew hops hrun hK hp (.inr ⟨rfl, rfl, hS⟩) (by norm_num) (by norm_num) (by decide +kernel) (d := 10) ?_
    (by norm_num) ?_ ?_
  · refine (Finset.sum_le_sum_of_subset (Finset.range_subset_range.2 hK')).trans ?_
    decide +kernel
  · unfold stepSlack
    norm_num
  · unfold stepSlack
    norm_num

/-- **C76.** The 24-bit files of the cases 9 and 12, whatever the phases of the two channels, are read in any number of calls of
any sizes, up to some multiple of 10 ms: -23 LUFS, to 0.1 LU, from the moment when the window is full. -/
theorem C76_files (hm : GoodLibm m) (hu : 2 ^ 64 - 1 ≤ t.usizeMax) (φ : ℕ → ℝ) {q p w K : ℕ} {query : Query}
    (hc : (q = 18 ∧ p = 40 ∧ w = 40 ∧ query = .loudnessMomentary ∧ K ≤ 1000) ∨
      (q = 134 ∧ p = 300 ∧ w = 300 ∧ query = .loudnessShortterm ∧ K ≤ 1500)) (hK : w ≤ K)
    {parts : List (List (List Int32))} (hp : parts.flatten = stepFile24 (inTurn (dBFS (-20)) (dBFS (-30)) q p) K 2 φ) :
    ∃ (e0 e : Ebu F64 F32) (v : F64), Ebu.new (ieeeEnv m bs t) 2 48000 Mode.S = .done (.ok e0) ∧
      runOps (ieeeEnv m bs t) e0 (parts.map fun fs => .addFrames (.i32 fs.flatten)) = .done e ∧
      ask (ieeeEnv m bs t) e query = .done (.ok v) ∧ v.Finite ∧ |v.value - -23| ≤ 1 / 10 := by
  obtain ⟨e0, h0⟩ := (C01_new_64 (ieeeEnv m bs t) hu 2 48000 Mode.S).1.2 ⟨by unfold ValidArgs; decide, by decide⟩
  obtain ⟨e, h1⟩ := C09_plain hu h0 (by norm_num) (parts.map fun fs => .addFrames (.i32 fs.flatten)) (by
    intro op hop
    obtain ⟨fs, -, rfl⟩ := List.mem_map.1 hop
    trivial)
  have hf : ∀ op ∈ parts.map (fun fs => (.addFrames (.i32 fs.flatten) : Op F64 F32)), Feed op := by
    intro op hop
    obtain ⟨fs, -, rfl⟩ := List.mem_map.1 hop
    trivial
  have hs : Sounds (1 / 2 ^ 22) _ K 2 φ _ := (stepFile24_sounds (m := m) (bs := bs) (t := t) (by norm_num) (fun i _ => by
    obtain ⟨-, b1, b2⟩ := dBFS30
    unfold inTurn
    rw [abs_le]
    split <;> constructor <;> linarith [dBFS20]) hp).mono (by norm_num)
  refine ⟨e0, e, ?_⟩
  rcases hc with ⟨rfl, rfl, rfl, rfl, hK'⟩ | ⟨rfl, rfl, rfl, rfl, hK'⟩
  · obtain ⟨v, hv⟩ := C76_momentary hm h0 hf h1 hK hK' hs
    exact ⟨v, h0, h1, hv⟩
  · obtain ⟨v, hv⟩ := C76_shortterm hm (by decide) h0 hf h1 hK hK' hs
    exact ⟨v, h0, h1, hv⟩

/-- Case 12 read in one call, up to 7.77 s, with the elementary functions of the earlier examples. -/
example (bs : BSearch) (h64 : 2 ^ 64 - 1 ≤ t.usizeMax) :
    ∃ (e0 e : Ebu F64 F32) (v : F64), Ebu.new (ieeeEnv Demo.libm57 bs t) 2 48000 Mode.S = .done (.ok e0) ∧
      runOps (ieeeEnv Demo.libm57 bs t) e0
        [.addFrames (.i32 (stepFile24 (inTurn (dBFS (-20)) (dBFS (-30)) 18 40) 777 2 fun _ => 0).flatten)] = .done e ∧
      ask (ieeeEnv Demo.libm57 bs t) e .loudnessMomentary = .done (.ok v) ∧ v.Finite ∧ |v.value - -23| ≤ 1 / 10 :=
  C76_files (K := 777) Demo.good57 h64 (fun _ => 0) (.inl ⟨rfl, rfl, rfl, rfl, by norm_num⟩) (by norm_num)
    (parts := [stepFile24 (inTurn (dBFS (-20)) (dBFS (-30)) 18 40) 777 2 fun _ => 0]) (by simp)

end Verif
