import Verif.Proofs.Accuracy
import Mathlib.Analysis.Complex.ExponentialBounds
import Verif.Props.C61
/-!
# C52: accuracy of the measured energies and levels

In IEEE arithmetic on targets with hardware flush-to-zero, against the exact weighted mean square of the same
K-weighted samples. The rounding of the K-weighting filter itself is not part of the statement.
-/

set_option linter.unusedSimpArgs false

namespace Verif
open Spec Fl
variable {m : Libm F64} {bs : BSearch} {t : Target}

/-- The base-10 logarithm of the platform is within `δ` of the exact one. -/
def Spec.LogWithin (m : Libm F64) (δ : ℝ) : Prop :=
  ∀ x : F64, x.Finite → 0 < x.value → (m.log10 x).Finite ∧ |(m.log10 x).value - Real.logb 10 x.value| ≤ δ

/-- The exact energy of the last `N` frames after `n` measured frames. -/
noncomputable def Spec.windowPower (cm : List Channel) (N n : Nat) (ys : Nat → List F64) : ℝ :=
  power cm fun c => lastN (Fl.zero false) N ((ys c).take n)

/-! ## Energies -/

theorem power_perm (cm : List Channel) {w w' : Nat → List F64} (h : ∀ c, (w c).Perm (w' c)) : power cm w = power cm w' := by
  unfold power
  congr 1
  apply List.map_congr_left
  intro x _
  unfold meanSquare
  rw [((h x.2).map Fl.value).length_eq, (((h x.2).map Fl.value).map fun x => x ^ 2).sum_eq]

/-- **C52.** A finite energy of a window of `N` frames and `C` channels has a relative error of at most
`(N + C + 5) 2^-52` (and an absolute one far below anything that matters). -/
theorem C52_energy (L : Nat) {N n : Nat} (cm : List Channel) (ys : Nat → List F64)
    (hK : N + cm.length + 5 ≤ 2 ^ 52) (hf : (energy (ieeeEnv m bs t) L N n cm ys).Finite) :
    |(energy (ieeeEnv m bs t) L N n cm ys).value - windowPower cm N n ys| ≤
      (N + cm.length + 5) / 2 ^ 52 * windowPower cm N n ys + (8 * cm.length + 1) / 2 ^ 1074 := by
  have hw : ∀ c, (readOrder L n (lastN (Fl.zero false) N ((ys c).take n))).length = N := fun c => by
    rw [(readOrder_perm _ _ _).length_eq, lastN_length]
  obtain ⟨h1, h2⟩ := energy_near cm (N := N) (by omega)
    (fun c => readOrder L n (lastN (Fl.zero false) N ((ys c).take n))) hw hf
  rw [power_perm cm (w' := fun c => lastN (Fl.zero false) N ((ys c).take n)) fun c => readOrder_perm _ _ _] at h2
  have e0 := (eta_pos Fmt.b64).le
  have hKR : ((N + cm.length + 5 : Nat) : ℝ) ≤ (2 : ℝ) ^ 52 := by exact_mod_cast hK
  have := h2.abs_le b64_ok.1 (by rw [eps64]; linarith) (by positivity) (Spec.power_nonneg _ _)
  refine this.trans (le_of_eq ?_)
  rw [eps64, eta64_eq]
  unfold windowPower
  have p : (2 : ℝ) ^ 1075 = 2 * 2 ^ 1074 := pow_succ' _ _
  rw [p]
  push_cast
  generalize (2 : ℝ) ^ 1074 = z
  have : (2 : ℝ) ^ 53 = 2 * 2 ^ 52 := by norm_num
  rw [this]
  generalize (2 : ℝ) ^ 52 = y
  congr 1
  · ring
  · ring

/-- **C52.** The energy is finite when the samples are. -/
theorem C52_finite (L : Nat) {N n : Nat} (cm : List Channel) (ys : Nat → List F64) (h0 : 0 < N)
    (hN : N ≤ 2 ^ 49) (hc : cm.length ≤ 2 ^ 50) (ht : ∀ c, ∀ x ∈ ys c, Tame x) :
    (energy (ieeeEnv m bs t) L N n cm ys).Finite := by
  refine energy_finite cm hc h0 hN (fun c => readOrder L n (lastN (Fl.zero false) N ((ys c).take n))) (fun c => by
    rw [(readOrder_perm _ _ _).length_eq, lastN_length]) fun c x hx => ?_
  have hx := (readOrder_perm _ _ _).mem_iff.1 hx
  unfold lastN at hx
  rcases List.mem_append.1 (List.mem_of_mem_drop hx) with h | h
  · rw [(List.mem_replicate.1 h).2]
    refine ⟨⟨false, 0, Nat.zero_le _, rfl, by decide⟩, ?_⟩
    rw [value_zero]
    simp
  · exact ht c x (List.mem_of_mem_take h)

/-! ## Levels -/

theorem logb_two : 0 < Real.logb 10 2 ∧ Real.logb 10 2 ≤ 1 / 3 := by
  constructor
  · exact Real.logb_pos (by norm_num) (by norm_num)
  · rw [Real.logb_le_iff_le_rpow (by norm_num) (by norm_num)]
    have : (8 : ℝ) ^ ((1 : ℝ) / 3) = 2 := by
      rw [show (8 : ℝ) = 2 ^ (3 : ℝ) by norm_num, ← Real.rpow_mul (by norm_num)]
      norm_num
    rw [← this]
    exact Real.rpow_le_rpow (by norm_num) (by norm_num) (by norm_num)

theorem mag_infK (φ : Fmt) : φ.mag φ.infK = 2 ^ φ.mb * 2 ^ φ.emax := by
  have hp : 0 < 2 ^ φ.mb := by positivity
  unfold Fmt.mag Fmt.infK
  rw [Nat.mul_div_cancel _ hp, Nat.mul_mod_left, if_neg (by omega), Nat.add_zero, Nat.add_sub_cancel]

theorem logb_value {x : F64} (hf : x.Finite) (h0 : 0 < x.value) : |Real.logb 10 x.value| ≤ 400 := by
  obtain ⟨s, k, hk, rfl, k0⟩ := hf
  have hs : s = false := by
    cases s
    · rfl
    · unfold value at h0
      simp only [if_true] at h0
      have : (0 : ℝ) ≤ (Fmt.b64.mag k : ℝ) / 2 ^ Fmt.b64.u := by positivity
      linarith
  subst hs
  have e : (Fl.num false k hk : F64).value = (Fmt.b64.mag k : ℝ) / 2 ^ 1074 := by
    unfold value
    simp only [Bool.false_eq_true, if_false, one_mul]
    rfl
  rw [e] at h0 ⊢
  have m0 : 0 < Fmt.b64.mag k := by
    by_contra hc
    have : Fmt.b64.mag k = 0 := by omega
    rw [this] at h0
    simp at h0
  have m1 : (1 : ℝ) ≤ Fmt.b64.mag k := by exact_mod_cast m0
  have m2 : (Fmt.b64.mag k : ℝ) ≤ 2 ^ 2098 := by
    have h1 := Fmt.b64.mag_le hk
    have h2 : (Fmt.b64.mag k : ℝ) ≤ 2 ^ Fmt.b64.mb * 2 ^ Fmt.b64.emax := by
      rw [mag_infK] at h1
      exact_mod_cast h1
    rwa [← pow_add] at h2
  rw [Real.logb_div (by positivity) (by positivity), Real.logb_pow]
  have l1 : 0 ≤ Real.logb 10 (Fmt.b64.mag k : ℝ) := Real.logb_nonneg (by norm_num) m1
  have l2 : Real.logb 10 (Fmt.b64.mag k : ℝ) ≤ 2098 * Real.logb 10 2 := by
    have := Real.logb_le_logb_of_le (b := 10) (by norm_num) (by positivity) m2
    rwa [Real.logb_pow] at this
  obtain ⟨p0, p1⟩ := logb_two
  rw [abs_le]
  push_cast
  constructor <;> linarith

theorem value_lit_nat {n : Nat} (hn : n ≤ 2 * 2 ^ Fmt.b64.mb) : (Fl.lit Fmt.b64 (n : Int) 1).value = n := by
  rw [lit_pos, ← ofInt_pos]
  exact (value_ofInt Fmt.ok64 hn).1

theorem num_pos {x : F64} (h : x.Finite) (h0 : 0 < x.value) : Fl.le x (Fl.zero false) = false := by
  obtain ⟨s, k, hk, rfl, k0⟩ := h
  cases s
  · have hk0 : k ≠ 0 := by
      intro hz
      subst hz
      exact absurd (value_zero (φ := Fmt.b64) false) h0.ne'
    show decide (skey false k ≤ skey false 0) = false
    simp [skey]
    omega
  · unfold value at h0
    simp only [if_true] at h0
    have : (0 : ℝ) ≤ (Fmt.b64.mag k : ℝ) / 2 ^ Fmt.b64.u := by positivity
    linarith

/-- The level of a positive energy. -/
theorem level_near {δ : ℝ} (hδ : δ ≤ 1) (hm : LogWithin m δ) {x : F64} (hx : x.Finite) (h0 : 0 < x.value) :
    (level (ieeeEnv m bs t) x).Finite ∧ |(level (ieeeEnv m bs t) x).value - lufs x.value| ≤ 10 * δ + 1 / 10 ^ 12 := by
  obtain ⟨l1, l2⟩ := hm x hx h0
  have l3 := logb_value hx h0
  have hmb := b64_ok.1
  have e1 := eta64
  have e0 := (eta_pos Fmt.b64).le
  have ep := eps64
  have e : level (ieeeEnv m bs t) x = Fl.sub (Fl.mul (Fl.lit Fmt.b64 (10 : Nat) 1) (m.log10 x))
      (Fl.lit Fmt.b64 (691 : Nat) 1000) := by
    unfold level
    rw [show (ieeeEnv m bs t).f64.le x (ieeeEnv m bs t).f64.zero = false from num_pos hx h0, if_neg (by simp)]
    unfold ieeeEnv Fl.arith
    simp only [Nat.cast_ofNat]
  rw [e]
  have t10 : (10 : ℝ) ≤ top Fmt.b64 := _root_.le_trans (by norm_num) top64
  have f10 : (Fl.lit Fmt.b64 ((10 : Nat) : Int) 1).Finite := lit_finite Fmt.ok64 (by norm_num) (by push_cast; linarith)
  have f69 : (Fl.lit Fmt.b64 ((691 : Nat) : Int) 1000).Finite := lit_finite Fmt.ok64 (by norm_num) (by push_cast; linarith)
  have v10 : (Fl.lit Fmt.b64 ((10 : Nat) : Int) 1).value = 10 := by
    rw [value_lit_nat (by decide)]
    norm_num
  have v69 := lit_err hmb (by norm_num) f69
  generalize Fl.lit Fmt.b64 ((10 : Nat) : Int) 1 = ten at *
  generalize Fl.lit Fmt.b64 ((691 : Nat) : Int) 1000 = off at *
  generalize m.log10 x = lg at *
  unfold lufs
  generalize Real.logb 10 x.value = ℓ at *
  push_cast at v69
  rw [abs_le] at l2 l3
  have lgb : |lg.value| ≤ 401 := abs_le.2 ⟨by linarith, by linarith⟩
  have p1 : |ten.value * lg.value| ≤ 4010 := by
    rw [v10, abs_mul, abs_of_nonneg (by norm_num : (0 : ℝ) ≤ 10)]
    linarith
  have pf : (Fl.mul ten lg).Finite := mul_finite Fmt.ok64 f10 l1 (p1.trans (_root_.le_trans (by norm_num) top64))
  have pe := mul_err hmb f10 l1 pf
  rw [v10] at pe p1
  generalize Fl.mul ten lg = pr at *
  rw [ep] at pe v69
  have offb : |off.value| ≤ 2 := by
    have h1 := abs_sub_abs_le_abs_sub off.value (691 / 1000)
    rw [abs_of_nonneg (by norm_num : (0 : ℝ) ≤ 691 / 1000)] at h1
    linarith
  have prb : |pr.value| ≤ 4011 := by
    have h1 := abs_sub_abs_le_abs_sub pr.value (10 * lg.value)
    linarith
  have sb : |pr.value - off.value| ≤ 4013 := (abs_sub _ _).trans (by linarith)
  have sf : (Fl.sub pr off).Finite := sub_finite Fmt.ok64 pf f69 (sb.trans (_root_.le_trans (by norm_num) top64))
  have se := sub_err hmb pf f69 sf
  rw [ep] at se
  generalize Fl.sub pr off = r at *
  have rb : |r.value| ≤ 4014 := by
    have h1 := abs_sub_abs_le_abs_sub r.value (pr.value - off.value)
    linarith
  refine ⟨sf, ?_⟩
  have pe' : |pr.value - 10 * lg.value| ≤ 46 / 10 ^ 14 := by linarith
  have v69' : |off.value - 691 / 1000| ≤ 1 / 10 ^ 15 := by linarith
  have se' : |r.value - (pr.value - off.value)| ≤ 46 / 10 ^ 14 := by linarith
  rw [abs_le] at pe' v69' se' ⊢
  constructor <;> linarith

theorem log_ten : 2 ≤ Real.log 10 := by
  have h1 : Real.log 8 ≤ Real.log 10 := Real.log_le_log (by norm_num) (by norm_num)
  rw [show (8 : ℝ) = 2 ^ 3 by norm_num, Real.log_pow] at h1
  have := Real.log_two_gt_d9
  push_cast at h1
  linarith

/-- A relative error of the energy is an absolute error of the level. -/
theorem lufs_near {x X r : ℝ} (hX : 0 < X) (hr : r ≤ 1 / 2) (h : |x - X| ≤ r * X) :
    0 < x ∧ |lufs x - lufs X| ≤ 10 * r := by
  rw [abs_le] at h
  have hx : 0 < x := by nlinarith
  have hr0 : 0 ≤ r := by
    by_contra hc
    nlinarith
  refine ⟨hx, ?_⟩
  have l10 := log_ten
  have h1 : Real.log (x / X) ≤ r := by
    have := Real.log_le_sub_one_of_pos (x := x / X) (by positivity)
    have : x / X ≤ 1 + r := by rw [div_le_iff₀ hX]; linarith
    linarith
  have h2 : -Real.log (x / X) ≤ 2 * r := by
    rw [← Real.log_inv, inv_div]
    have := Real.log_le_sub_one_of_pos (x := X / x) (by positivity)
    have : X / x ≤ 1 + 2 * r := by
      rw [div_le_iff₀ hx]
      nlinarith
    linarith
  have e : lufs x - lufs X = 10 * (Real.log (x / X) / Real.log 10) := by
    unfold lufs Real.logb
    rw [Real.log_div hx.ne' hX.ne']
    ring
  rw [e, abs_mul, abs_of_nonneg (by norm_num : (0 : ℝ) ≤ 10), abs_div, abs_of_nonneg (by linarith : 0 ≤ Real.log 10)]
  have : |Real.log (x / X)| ≤ 2 * r := abs_le.2 ⟨by linarith, by linarith⟩
  have : |Real.log (x / X)| / Real.log 10 ≤ r := by
    rw [div_le_iff₀ (by linarith)]
    nlinarith
  linarith

/-- **C52.** The level of a window: within `10 δ + (N + C + 5) 2^-48 + 10^-12` dB of the exact level. -/
theorem C52_level {δ : ℝ} (hδ : δ ≤ 1) (hm : LogWithin m δ) (L : Nat) {N n : Nat} (cm : List Channel)
    (ys : Nat → List F64) (h0 : 0 < N) (hK : N + cm.length + 5 ≤ 2 ^ 49) (ht : ∀ c, ∀ x ∈ ys c, Tame x)
    (hp : 1 / 2 ^ 900 ≤ windowPower cm N n ys) :
    (level (ieeeEnv m bs t) (energy (ieeeEnv m bs t) L N n cm ys)).Finite ∧
    |(level (ieeeEnv m bs t) (energy (ieeeEnv m bs t) L N n cm ys)).value - lufs (windowPower cm N n ys)| ≤
      10 * δ + (N + cm.length + 5) / 2 ^ 48 + 1 / 10 ^ 12 := by
  have hf := C52_finite (m := m) (bs := bs) (t := t) L (n := n) cm ys h0 (by omega) (by omega) ht
  have he := C52_energy L cm ys (by omega) hf
  generalize hX : windowPower cm N n ys = X at *
  generalize energy (ieeeEnv m bs t) L N n cm ys = x at *
  have X0 : 0 < X := lt_of_lt_of_le (by positivity) hp
  have hKR : ((N + cm.length + 5 : Nat) : ℝ) ≤ (2 : ℝ) ^ 49 := by exact_mod_cast hK
  push_cast at hKR
  have hC : (0 : ℝ) ≤ cm.length := by positivity
  have hN : (0 : ℝ) ≤ N := by positivity
  have tiny : (8 * (cm.length : ℝ) + 1) / 2 ^ 1074 ≤ (N + cm.length + 5) / 2 ^ 60 * X := by
    have h1 : (1 : ℝ) / 2 ^ 1074 ≤ 1 / 2 ^ 70 * X := by
      refine _root_.le_trans ?_ (mul_le_mul_of_nonneg_left hp (by positivity))
      rw [div_mul_div_comm, one_mul, ← pow_add]
      exact one_div_le_one_div_of_le (by positivity) (big_le (by norm_num))
    have h2 : (8 * (cm.length : ℝ) + 1) / 2 ^ 1074 ≤ (8 * cm.length + 1) * (1 / 2 ^ 70 * X) := by
      rw [div_eq_mul_one_div]
      exact mul_le_mul_of_nonneg_left h1 (by positivity)
    refine h2.trans ?_
    rw [← mul_assoc]
    refine mul_le_mul_of_nonneg_right ?_ X0.le
    linarith
  obtain ⟨p, q⟩ := lufs_near (x := x.value) (r := (N + cm.length + 5) / 2 ^ 52 + (N + cm.length + 5) / 2 ^ 60) X0
    (by linarith) (he.trans (by rw [add_mul]; exact add_le_add le_rfl tiny))
  obtain ⟨lf, ln⟩ := level_near (bs := bs) (t := t) hδ hm hf p
  refine ⟨lf, ?_⟩
  have h3 := abs_sub_le (level (ieeeEnv m bs t) x).value (lufs x.value) (lufs X)
  linarith

/-! ## The analyzer -/

/-- **C52.** Momentary, short-term and window loudness of an analyzer are within
`10 δ + (N + C + 5) 2^-48 + 10^-12` dB of the exact level of the last `N` K-weighted frames. -/
theorem C52_windows {δ : ℝ} (hδ : δ ≤ 1) (hm : LogWithin m δ) {e0 e : Ebu F64 F32}
    (h : Started (ieeeEnv m bs t) e0) (hg : Adequate e0.mode e0.rate e0.window) {ops : List (Op F64 F32)}
    (hops : ∀ op ∈ ops, Feed op) (hrun : runOps (ieeeEnv m bs t) e0 ops = .done e)
    (ht : ∀ c, ∀ x ∈ signalOn (ieeeEnv m bs t) e0.rate e0.channels ops c, Tame x) :
    let E := ieeeEnv m bs t
    let L := capacity e0.rate e0.window
    let P := fun N => power e0.channelMap fun c => lastN (Fl.zero false) N (signalOn E e0.rate e0.channels ops c)
    let Accurate := fun (q : Query) (N : Nat) => 0 < N → N + e0.channelMap.length + 5 ≤ 2 ^ 49 → 1 / 2 ^ 900 ≤ P N →
      ∃ v : F64, ask E e q = .done (.ok v) ∧ v.Finite ∧
        |v.value - lufs (P N)| ≤ 10 * δ + (N + e0.channelMap.length + 5) / 2 ^ 48 + 1 / 10 ^ 12
    Accurate .loudnessMomentary (4 * hop e0.rate) ∧
    (30 * hop e0.rate ≤ L → Accurate .loudnessShortterm (30 * hop e0.rate)) ∧
    ∀ w : UInt32, e0.rate * w.toNat ≤ t.usizeMax → e0.rate * w.toNat / 1000 ≤ L →
      Accurate (.loudnessWindow w) (e0.rate * w.toNat / 1000) := by
  intro E L P Accurate
  obtain ⟨h1, h2, h3⟩ := C61_windows (E := E) (ieee_zero m bs t) h hg hops hrun
  have hP : ∀ N, P N = windowPower e0.channelMap N (measured E e0.channels ops) (signalOn E e0.rate e0.channels ops) := by
    intro N
    unfold windowPower
    show power _ _ = power _ _
    congr 1
    funext c
    rw [List.take_of_length_le]
    rw [signalOn_length]
  have key : ∀ (q : Query) (N : Nat), ask E e q = .done (.ok (level E (energy E L N (measured E e0.channels ops)
      e0.channelMap (signalOn E e0.rate e0.channels ops)))) → Accurate q N := by
    intro q N hq h0 hK hp
    rw [hP] at hp ⊢
    obtain ⟨a, b⟩ := C52_level (bs := bs) (t := t) hδ hm L e0.channelMap _ h0 hK ht hp
    exact ⟨_, hq, a, b⟩
  dsimp only at h1 h2 h3
  refine ⟨key _ _ h1, fun hc => key _ _ ?_, fun w hw hc => key _ _ ?_⟩
  · rw [h2, if_neg (by omega)]
  · rw [h3 w, if_neg]
    rintro (hh | hh)
    · exact absurd hh (Nat.not_lt.2 hw)
    · omega

/-! ## Examples -/

/-- A logarithm with six correct digits after the point. -/
noncomputable def Demo.log6 : Libm F64 where
  log10 x := Fl.lit Fmt.b64 ⌊Real.logb 10 x.value * 1000000⌋ 1000000
  tan x := x
  sin x := x
  cos x := x
  powf x _ := x

/-- The assumption about the logarithm can be met. -/
theorem Demo.log6_within : LogWithin Demo.log6 (1 / 10 ^ 5) := by
  intro x hx h0
  have h1 := logb_value hx h0
  rw [abs_le] at h1
  show (Fl.lit Fmt.b64 ⌊Real.logb 10 x.value * 1000000⌋ 1000000).Finite ∧
    |(Fl.lit Fmt.b64 ⌊Real.logb 10 x.value * 1000000⌋ 1000000).value - Real.logb 10 x.value| ≤ 1 / 10 ^ 5
  have f1 := Int.floor_le (Real.logb 10 x.value * 1000000)
  have f2 := Int.lt_floor_add_one (Real.logb 10 x.value * 1000000)
  generalize ⌊Real.logb 10 x.value * 1000000⌋ = n at *
  have hn : |(n : ℝ)| ≤ 401000000 := abs_le.2 ⟨by linarith, by linarith⟩
  have hf : (Fl.lit Fmt.b64 n 1000000).Finite := by
    refine lit_finite_int Fmt.ok64 (by norm_num) ?_
    have := top64
    push_cast
    linarith
  refine ⟨hf, ?_⟩
  have he := lit_err b64_ok.1 (by norm_num) hf
  rw [eps64] at he
  have e1 := eta64
  push_cast at he
  generalize (Fl.lit Fmt.b64 n 1000000).value = v at *
  have hq : |(n : ℝ) / 1000000| ≤ 401 := by
    rw [abs_div, abs_of_nonneg (by norm_num : (0 : ℝ) ≤ 1000000), div_le_iff₀ (by norm_num)]
    linarith
  have hv : |v| ≤ 402 := by
    have := abs_sub_abs_le_abs_sub v (n / 1000000)
    linarith
  have he' : |v - n / 1000000| ≤ 1 / 10 ^ 10 := by linarith
  rw [abs_le] at he' ⊢
  constructor <;> linarith

/-- Half and a quarter, on two channels. -/
def Demo.halves (c : Nat) : List F64 := if c = 0 then [Fl.lit _ 1 2, Fl.lit _ 1 4] else if c = 1 then [Fl.lit _ (-1) 2, Fl.lit _ 1 4] else []

theorem value_binade (s : Bool) {e j : Nat} (h1 : 1 ≤ e) (hj : e + j = 1023) (h : e * 2 ^ 52 ≤ Fmt.b64.infK) :
    (Fl.num s (e * 2 ^ 52) h : F64).value = (if s then -1 else 1) * (1 / 2 ^ j) := by
  have hm : Fmt.b64.mag (e * 2 ^ 52) = 2 ^ (51 + e) := by
    have hp : 0 < 2 ^ Fmt.b64.mb := by positivity
    show Fmt.b64.mag (e * 2 ^ Fmt.b64.mb) = _
    unfold Fmt.mag
    rw [Nat.mul_div_cancel _ hp, Nat.mul_mod_left, if_neg (by omega), Nat.add_zero, ← Nat.pow_add]
    congr 1
    show 52 + (e - 1) = _
    omega
  show (if s = true then -1 else 1) * ((Fmt.b64.mag (e * 2 ^ 52) : ℝ) / 2 ^ Fmt.b64.u) = _
  rw [hm]
  congr 1
  push_cast
  show (2 : ℝ) ^ (51 + e) / 2 ^ 1074 = _
  rw [div_eq_div_iff (by positivity) (by positivity), one_mul, ← pow_add]
  congr 1
  omega

theorem Demo.value_lit_half : (Fl.lit Fmt.b64 1 2).value = 1 / 2 ∧ (Fl.lit Fmt.b64 1 4).value = 1 / 4 ∧
    (Fl.lit Fmt.b64 (-1) 2).value = -(1 / 2) := by
  have k1 : Fl.lit Fmt.b64 1 2 = .num false (1022 * 2 ^ 52) (by decide) := by decide +kernel
  have k2 : Fl.lit Fmt.b64 1 4 = .num false (1021 * 2 ^ 52) (by decide) := by decide +kernel
  have k3 : Fl.lit Fmt.b64 (-1) 2 = .num true (1022 * 2 ^ 52) (by decide) := by decide +kernel
  rw [k1, k2, k3, value_binade false (j := 1) (by norm_num) (by norm_num),
    value_binade false (j := 2) (by norm_num) (by norm_num), value_binade true (j := 1) (by norm_num) (by norm_num)]
  norm_num

/-- The theorem about levels at work: the level of a window of two frames of two channels, one of them a surround
channel, is `lufs (2.41 · 5/32)` to within 0.00011 dB with a logarithm of six digits. -/
example (bs : BSearch) (t : Target) :
    |(level (ieeeEnv Demo.log6 bs t) (energy (ieeeEnv Demo.log6 bs t) 8 2 2 [.left, .leftSurround] Demo.halves)).value -
      lufs (2.41 * (5 / 32))| ≤ 11 / 10 ^ 5 := by
  obtain ⟨v1, v2, v3⟩ := Demo.value_lit_half
  have hp : windowPower [.left, .leftSurround] 2 2 Demo.halves = 2.41 * (5 / 32) := by
    unfold windowPower power
    simp [Demo.halves, lastN, realWeight, surrounds, meanSquare, List.zipIdx, v1, v2, v3]
    norm_num
  have h := (C52_level (bs := bs) (t := t) (by norm_num) Demo.log6_within 8 (N := 2) (n := 2) [.left, .leftSurround]
    Demo.halves (by norm_num) (by norm_num) (by
      have f1 : (Fl.lit Fmt.b64 1 2).Finite := lit_finite Fmt.ok64 (n := 1) (d := 2) (by norm_num) (by
        have := top64
        push_cast
        linarith)
      have f2 : (Fl.lit Fmt.b64 1 4).Finite := lit_finite Fmt.ok64 (n := 1) (d := 4) (by norm_num) (by
        have := top64
        push_cast
        linarith)
      have f3 : (Fl.lit Fmt.b64 (-1) 2).Finite := lit_finite_int Fmt.ok64 (by norm_num) (by
        have := top64
        norm_num
        linarith)
      have t1 : Tame (Fl.lit Fmt.b64 1 2) := ⟨f1, by rw [v1]; norm_num⟩
      have t2 : Tame (Fl.lit Fmt.b64 1 4) := ⟨f2, by rw [v2]; norm_num⟩
      have t3 : Tame (Fl.lit Fmt.b64 (-1) 2) := ⟨f3, by rw [v3]; norm_num⟩
      intro c x hx
      unfold Demo.halves at hx
      split at hx
      · rcases List.mem_cons.1 hx with rfl | hx
        · exact t1
        · rw [List.mem_singleton.1 hx]; exact t2
      · split at hx
        · rcases List.mem_cons.1 hx with rfl | hx
          · exact t3
          · rw [List.mem_singleton.1 hx]; exact t2
        · cases hx) (by
      rw [hp]
      refine (one_div_le_one_div_of_le (by positivity) (big_le (a := 4) (by norm_num))).trans ?_
      norm_num)).2
  rw [hp] at h
  refine h.trans ?_
  norm_num

/-- A rounding error does occur: the energy of the single sample 0.1 is not its square. -/
example : energy Demo.env 8 1 1 [.left] (fun _ => [Fl.lit _ 1 10]) ≠ Fl.lit _ 1 100 := by decide +kernel

end Verif
