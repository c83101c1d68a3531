import Verif.Proofs.ToneLoudness
import Verif.Proofs.ToneFile
/-!
# C72: the minimum requirements test signals of EBU Tech 3341

The synthetic signals with steady tones (cases 1, 2, 3, 5 and 6 of the table of minimum requirements): the integrated
loudness an analyzer reports, in IEEE arithmetic, is within the tolerance of 0.1 LU. The claim does not depend on the
phase of the tones, on how the samples were rounded (up to 1/4000 of the reference amplitude, more than 16 bits need for
cases 1, 3 and 5), on their format or on how they are cut into calls.
-/

namespace Verif
open Spec
variable {m : Libm F64} {bs : BSearch} {t : Target}

/-- What is assumed of the elementary functions. -/
structure Spec.GoodLibm (m : Libm F64) : Prop where
  log : LogWithin m (1 / 10 ^ 5)
  elem : ElemWithin m (1 / 2 ^ 50)
  tenth : TenthWithin m
  hundredth : HundredthWithin m

/-- A new analyzer. -/
theorem fresh {E : Env F64 F32} {channels : ℕ} {mode : Mode} {e0 : Ebu F64 F32} (h : Ebu.new E channels 48000 mode = .done (.ok e0))
    (hH : mode.contains Mode.HISTOGRAM = false) :
    e0.rate = 48000 ∧ e0.channels = channels ∧ e0.channelMap = defaultChannelMap channels ∧ e0.mode = mode ∧
      e0.blockEnergyHistory = .queue [] (E.usizeMax / 100) ∧
      e0.shortTermBlockEnergyHistory = .queue [] (E.usizeMax / 3000) ∧ Adequate e0.mode e0.rate e0.window := by
  have ha := (Ebu.new_inv2 h).inv.adequate
  obtain ⟨rfl, -⟩ := Ebu.new_ok h
  refine ⟨rfl, rfl, rfl, rfl, ?_, ?_, ha (by show 146 ≤ 48000; norm_num)⟩
  · show History.new (mode.contains Mode.HISTOGRAM) _ = _
    rw [hH]
    rfl
  · show History.new (mode.contains Mode.HISTOGRAM) _ = _
    rw [hH]
    rfl

/-! ## Levels -/

theorem rpow_le_of_pow {a : ℝ} {p q : ℕ} (q0 : q ≠ 0) (ha : 0 ≤ a) (h : (10 : ℝ) ^ p ≤ a ^ q) : (10 : ℝ) ^ ((p : ℝ) / q) ≤ a := by
  have e : (10 : ℝ) ^ ((p : ℝ) / q) = ((10 : ℝ) ^ p) ^ ((q : ℝ)⁻¹) := by
    rw [← Real.rpow_natCast, ← Real.rpow_mul (by norm_num), div_eq_mul_inv]
  rw [e, ← Real.pow_rpow_inv_natCast ha q0]
  exact Real.rpow_le_rpow (by positivity) h (by positivity)

theorem le_rpow_of_pow {a : ℝ} {p q : ℕ} (q0 : q ≠ 0) (ha : 0 ≤ a) (h : a ^ q ≤ (10 : ℝ) ^ p) : a ≤ (10 : ℝ) ^ ((p : ℝ) / q) := by
  have e : (10 : ℝ) ^ ((p : ℝ) / q) = ((10 : ℝ) ^ p) ^ ((q : ℝ)⁻¹) := by
    rw [← Real.rpow_natCast, ← Real.rpow_mul (by norm_num), div_eq_mul_inv]
  rw [e]
  nth_rewrite 1 [← Real.pow_rpow_inv_natCast ha q0]
  exact Real.rpow_le_rpow (by positivity) h (by positivity)

/-- Attenuations, to a millionth. -/
theorem att_near {a : ℝ} (p q : ℕ) (q0 : q ≠ 0) {x : ℝ} (hx : x = -((p : ℝ) / q)) (ha : 1 / 10 ^ 6 < a)
    (h1 : (a - 1 / 10 ^ 6) ^ q * 10 ^ p ≤ 1) (h2 : 1 ≤ (a + 1 / 10 ^ 6) ^ q * 10 ^ p) :
    |a - (10 : ℝ) ^ x| ≤ 1 / 10 ^ 6 := by
  subst hx
  have t0 : (0 : ℝ) < 10 ^ p := by positivity
  have u0 : (0 : ℝ) < a - 1 / 10 ^ 6 := by linarith
  have v0 : (0 : ℝ) < a + 1 / 10 ^ 6 := by linarith [show (0 : ℝ) < 1 / 10 ^ 6 by norm_num]
  have l1 := le_rpow_of_pow (a := (a + 1 / 10 ^ 6)⁻¹) (p := p) q0 (by positivity) (by
    rw [inv_pow, inv_le_comm₀ (by positivity) t0, inv_le_iff_one_le_mul₀ t0]
    exact h2)
  have l2 := rpow_le_of_pow (a := (a - 1 / 10 ^ 6)⁻¹) (p := p) q0 (by positivity) (by
    rw [inv_pow, le_inv_comm₀ t0 (by positivity), ← one_div, le_div_iff₀ t0]
    exact h1)
  rw [Real.rpow_neg (by norm_num)]
  have r0 : (0 : ℝ) < 10 ^ ((p : ℝ) / q) := by positivity
  rw [abs_le]
  constructor
  · have := (inv_le_comm₀ v0 r0).1 l1
    linarith
  · have := (le_inv_comm₀ r0 u0).1 l2
    linarith

theorem lufs_ge {x L : ℝ} (h : 1149 / 1000 * (10 : ℝ) ^ (L / 10) ≤ x) : L - 91 / 1000 ≤ lufs x := by
  have h0 : (0 : ℝ) < 10 ^ (L / 10) := by positivity
  have h1 : (10 : ℝ) ^ ((3 : ℝ) / 50 + L / 10) ≤ x := by
    rw [Real.rpow_add (by norm_num)]
    have := rpow_le_of_pow (a := 1149 / 1000) (p := 3) (q := 50) (by norm_num) (by norm_num) (by norm_num)
    push_cast at this
    exact (mul_le_mul_of_nonneg_right this h0.le).trans h
  have := Real.logb_le_logb_of_le (b := 10) (by norm_num) (by positivity) h1
  rw [Real.logb_rpow (by norm_num) (by norm_num)] at this
  unfold lufs
  linarith

theorem lufs_le {x L : ℝ} (hx : 0 < x) (h : x ≤ 1198 / 1000 * (10 : ℝ) ^ (L / 10)) : lufs x ≤ L + 94 / 1000 := by
  have h0 : (0 : ℝ) < 10 ^ (L / 10) := by positivity
  have h1 : x ≤ (10 : ℝ) ^ ((157 : ℝ) / 2000 + L / 10) := by
    rw [Real.rpow_add (by norm_num)]
    have := le_rpow_of_pow (a := 1198 / 1000) (p := 157) (q := 2000) (by norm_num) (by norm_num) (by
      calc (1198 / 1000 : ℝ) ^ 2000 = ((1198 / 1000) ^ 20) ^ 100 := by rw [← pow_mul]
        _ ≤ (371 / 10) ^ 100 := pow_le_pow_left₀ (by norm_num) (by norm_num) 100
        _ ≤ 10 ^ 157 := by norm_num)
    push_cast at this
    exact h.trans (mul_le_mul_of_nonneg_right this h0.le)
  have := Real.logb_le_logb_of_le (b := 10) (by norm_num) hx h1
  rw [Real.logb_rpow (by norm_num) (by norm_num)] at this
  unfold lufs
  linarith

/-! ## The steady tone -/

/-- The bounds of the first block and of all others. -/
theorem steady_bounds {K : ℕ} (hK : 5 ≤ K) :
    (blockTenths K).map (blockBounds [(K, 1000000)] 1000000 3263) =
      (1069845629051520000000000, 1184766210948480000000000) ::
        List.replicate (K - 4) (1113693226051520000000000, 1140918613948480000000000) := by
  have amp : ∀ i < K, ampAt [(K, 1000000)] i = 1000000 := fun i hi => by simp [ampAt, hi]
  have lp : ∀ i < K, leap (ampAt [(K, 1000000)]) i = if i = 0 then 1000000 else 0 := fun i hi => by
    unfold leap
    rw [amp i hi]
    split_ifs with h0
    · rfl
    · rw [amp _ (by omega)]
  obtain ⟨n, rfl⟩ : ∃ n, K = n + 5 := ⟨K - 5, by omega⟩
  have hks : blockTenths (n + 5) = (List.range (n + 2)).map (4 + ·) := by
    unfold blockTenths
    rw [show n + 5 + 1 = 4 + (n + 2) by omega, List.range_add, List.filter_append, List.filter_eq_nil_iff.2, List.nil_append,
      List.filter_eq_self.2]
    · intro x hx
      simp at hx ⊢
      omega
    · intro x hx
      simp at hx ⊢
      omega
  rw [hks, List.range_succ_eq_map, List.map_cons, List.map_cons, List.map_map, List.map_map]
  have e4 : ∀ (f : ℕ → ℕ) k, sumOver f k 4 = f k + f (k + 1) + f (k + 2) + f (k + 3) := fun f k => by
    simp [sumOver, List.range_succ]
    omega
  have m4 : ∀ (f : ℕ → ℕ) k, maxOver f k 4 = max (f k) (max (f (k + 1)) (max (f (k + 2)) (max (f (k + 3)) 0))) := fun f k => by
    simp [maxOver, List.range_succ]
  have bound : ∀ k < n + 2, blockBounds [(n + 5, 1000000)] 1000000 3263 (4 + k) =
      if k = 0 then (1069845629051520000000000, 1184766210948480000000000)
      else (1113693226051520000000000, 1140918613948480000000000) := by
    intro k hk
    unfold blockBounds low high slack
    rw [Nat.add_sub_cancel_left]
    simp only [e4, m4]
    rw [amp k (by omega), amp (k + 1) (by omega), amp (k + 2) (by omega), amp (k + 3) (by omega), lp k (by omega),
      lp (k + 1) (by omega), lp (k + 2) (by omega), lp (k + 3) (by omega)]
    rw [if_neg (Nat.succ_ne_zero k), if_neg (Nat.succ_ne_zero (k + 1)), if_neg (Nat.succ_ne_zero (k + 2))]
    split_ifs <;> rfl
  refine congrArg₂ List.cons ?_ ?_
  · exact bound 0 (by omega)
  · rw [show n + 5 - 4 = n + 1 by omega]
    refine List.eq_replicate_iff.2 ⟨by simp, ?_⟩
    intro x hx
    obtain ⟨k, hk, rfl⟩ := List.mem_map.1 hx
    have hk := List.mem_range.1 hk
    simp only [Function.comp]
    rw [bound (k + 1) (by omega), if_neg (by omega)]

theorem steady_leaps (K : ℕ) : sumOver (leap (ampAt [(K, 1000000)])) 0 K ≤ 1000000 := by
  unfold sumOver
  rw [list_sum_range]
  rcases K with - | K
  · simp
  · rw [Finset.sum_range_succ', Finset.sum_eq_zero]
    · simp [leap, ampAt]
    · intro i hi
      have hi := Finset.mem_range.1 hi
      have h1 : i < K + 1 := by omega
      simp [leap, ampAt, hi, h1]

theorem stereo_power (L : ℝ) : fullPower (defaultChannelMap 2) (fun _ => L) = 2 * (10 : ℝ) ^ (L / 10) := by
  have e : defaultChannelMap 2 = [.left, .right] := by decide
  rw [e]
  simp [fullPower, realWeight, surrounds]
  ring

theorem stereo_weight : totalWeight (defaultChannelMap 2) = 2 := by
  have e : defaultChannelMap 2 = [.left, .right] := by decide
  rw [e]
  simp [totalWeight, realWeight, surrounds]
  norm_num

/-- A level of at least -60 dB, as an amplitude and as a power. -/
theorem level_bounds {L : ℝ} (h0 : -60 ≤ L) (h1 : L ≤ 0) :
    1 / 1000 ≤ (10 : ℝ) ^ (L / 20) ∧ (10 : ℝ) ^ (L / 20) ≤ 1 ∧ ((10 : ℝ) ^ (L / 20)) ^ 2 = (10 : ℝ) ^ (L / 10) ∧
      1 / 10 ^ 6 ≤ (10 : ℝ) ^ (L / 10) := by
  have e1 : (1 : ℝ) / 1000 ≤ (10 : ℝ) ^ (L / 20) := by
    rw [show (1 : ℝ) / 1000 = 10 ^ (-3 : ℝ) by rw [Real.rpow_neg (by norm_num), one_div]; norm_num]
    exact Real.rpow_le_rpow_of_exponent_le (by norm_num) (by linarith)
  have e2 : ((10 : ℝ) ^ (L / 20)) ^ 2 = (10 : ℝ) ^ (L / 10) := by
    rw [← Real.rpow_natCast, ← Real.rpow_mul (by norm_num)]
    congr 1
    push_cast
    ring
  refine ⟨e1, Real.rpow_le_one_of_one_le_of_nonpos (by norm_num) (by linarith), e2, ?_⟩
  rw [← e2]
  have := pow_le_pow_left₀ (by norm_num) e1 2
  norm_num at this ⊢
  exact this

/-- What is computed about a programme: its blocks by the gate, their least power, and the mean of those above the gate. -/
structure Programme (segs : List (ℕ × ℝ)) (amps : List (ℕ × ℕ)) (K V n sl sh : ℕ) (μ c1 c2 : ℝ) : Prop where
  rounded : Rounded segs amps
  quiet : ∀ s ∈ segs, s.2 ≤ 0
  tenths : Spec.tenths amps = K
  short : 4 ≤ K
  long : K ≤ 10 ^ 6
  leaps : sumOver (leap (ampAt amps)) 0 K ≤ V
  split : Split 10 ((blockTenths K).map (blockBounds amps V 3263)) n sl sh
  least : 1 / 100 ≤ μ
  most : μ ≤ 1
  floor : ∀ j ∈ blockTenths K, μ * (1920000 * 10 ^ 18) ≤ (blockBounds amps V 3263 j).1
  first : 1 / 4 ≤ c1
  order : c1 ≤ c2
  mean : let g := ((blockTenths K).map (blockBounds amps V 3263)).filter fun x => passes 10 n sh x.1
      c1 * (1920000 * 10 ^ 18 * g.length) ≤ ((g.map Prod.fst).sum : ℕ) ∧
      (((g.map Prod.snd).sum : ℕ) : ℝ) ≤ c2 * (1920000 * 10 ^ 18 * g.length) ∧ g ≠ []

/-- The integrated loudness of a programme of tones. -/
theorem measured_tones (hm : GoodLibm m) (hu : 10 ^ 8 ≤ t.usizeMax) {mode : Mode} (hI : mode.contains Mode.I = true)
    (hH : mode.contains Mode.HISTOGRAM = false) {channels : ℕ} {e0 e : Ebu F64 F32}
    (hnew : Ebu.new (ieeeEnv m bs t) channels 48000 mode = .done (.ok e0)) {ops : List (Op F64 F32)} (hops : ∀ op ∈ ops, Feed op)
    (hrun : runOps (ieeeEnv m bs t) e0 ops = .done e) {segs : List (ℕ × ℝ)} {amps : List (ℕ × ℕ)} {gain : ℕ → ℝ}
    {φ : ℕ → ℝ} (hp : Plays (1 / 4000) segs channels gain φ (heard (ieeeEnv m bs t) channels ops)) {K V n sl sh : ℕ} {μ c1 c2 : ℝ}
    (hM : Programme segs amps K V n sl sh μ c1 c2) {X : ℝ} (hX : 1 / 2 ^ 13 ≤ X) (hX' : X ≤ 2)
    (hXs : ∀ c < channels, 1001 / 1000 * (10 : ℝ) ^ (gain c / 20) ≤ X) {W : ℝ}
    (hW : fullPower (defaultChannelMap channels) gain = W) (hW3 : totalWeight (defaultChannelMap channels) * X ^ 2 ≤ 3 * W)
    (hμW : 3 / 10 ^ 7 ≤ W * μ) {T : ℝ} (hT1 : 1149 / 1000 * (10 : ℝ) ^ (T / 10) ≤ W * c1)
    (hT2 : W * c2 ≤ 1198 / 1000 * (10 : ℝ) ^ (T / 10)) :
    ∃ v : F64, ask (ieeeEnv m bs t) e .loudnessGlobal = .done (.ok v) ∧ v.Finite ∧ |v.value - T| ≤ 1 / 10 := by
  obtain ⟨f1, f2, f3, f4, f5, f6, f7⟩ := fresh hnew hH
  obtain ⟨m1, m2, rfl, m4, m5, m6, m7, m8, m9, m10, m11, m12, m13⟩ := hM
  obtain ⟨v, hv1, hv2, hv3, hv4⟩ := tones_integrated (bs := bs) (t := t) (X := X) (ε := 3263)
    (gain := gain) (c1 := c1) (c2 := c2)
    le_rfl hm.log hm.elem hm.tenth (Started.new hnew) f1 f7 (by rw [f4]; exact hI) f5 hops hrun
    (by rw [f2]; exact hp) m1 (by norm_num) m2
    (m5.trans (by
      have : (10 : ℕ) ^ 6 ≤ t.usizeMax / 100 := (Nat.le_div_iff_mul_le (by norm_num)).2 (by omega)
      exact this)) m5 m4 hX (hX'.trans (by norm_num))
    (fun c hc => (mul_le_mul_of_nonneg_right (by norm_num) (by positivity)).trans (hXs c (by rw [← f2]; exact hc)))
    (by rw [f3, hW]; exact hW3) m6 (by norm_num) m7 m8 m9 (by rw [f3, hW]; exact hμW) m10 m11 m13
  refine ⟨v, hv1, hv2, ?_⟩
  rw [f3, hW] at hv3 hv4
  have hW0 : 0 < W := by
    by_contra hc
    nlinarith
  have a1 := lufs_ge hT1
  have a2 := lufs_le (mul_pos hW0 (by linarith)) hT2
  rw [abs_le]
  constructor <;> linarith

/-- What is common to the stereo cases. -/
theorem stereo_tones (hm : GoodLibm m) (hu : 10 ^ 8 ≤ t.usizeMax) {mode : Mode} (hI : mode.contains Mode.I = true)
    (hH : mode.contains Mode.HISTOGRAM = false) {e0 e : Ebu F64 F32}
    (hnew : Ebu.new (ieeeEnv m bs t) 2 48000 mode = .done (.ok e0)) {ops : List (Op F64 F32)} (hops : ∀ op ∈ ops, Feed op)
    (hrun : runOps (ieeeEnv m bs t) e0 ops = .done e) {segs : List (ℕ × ℝ)} {amps : List (ℕ × ℕ)} {L : ℝ} (hL : -60 ≤ L)
    (hL' : L ≤ 0) {φ : ℕ → ℝ} (hp : Plays (1 / 4000) segs 2 (fun _ => L) φ (heard (ieeeEnv m bs t) 2 ops))
    {K V n sl sh : ℕ} {μ c1 c2 : ℝ} (hM : Programme segs amps K V n sl sh μ c1 c2)
    (hμW : 3 / 10 ^ 7 ≤ 2 * (10 : ℝ) ^ (L / 10) * μ) {T : ℝ}
    (hT1 : 1149 / 1000 * (10 : ℝ) ^ (T / 10) ≤ 2 * (10 : ℝ) ^ (L / 10) * c1)
    (hT2 : 2 * (10 : ℝ) ^ (L / 10) * c2 ≤ 1198 / 1000 * (10 : ℝ) ^ (T / 10)) :
    ∃ v : F64, ask (ieeeEnv m bs t) e .loudnessGlobal = .done (.ok v) ∧ v.Finite ∧ |v.value - T| ≤ 1 / 10 := by
  obtain ⟨l1, l2, l3, l4⟩ := level_bounds hL hL'
  exact measured_tones hm hu hI hH hnew hops hrun hp hM (X := 1001 / 1000 * (10 : ℝ) ^ (L / 20)) (by norm_num; linarith)
    (by linarith) (fun _ _ => le_rfl) (stereo_power L) (by
      rw [stereo_weight, mul_pow, l3]
      norm_num
      linarith) hμW hT1 hT2

theorem steady_tenths (K : ℕ) : Spec.tenths [(K, 1000000)] = K := by simp [Spec.tenths]

theorem steady_rounded (K : ℕ) : Rounded [(K, 0)] [(K, 1000000)] := by
  refine .cons ⟨rfl, ?_⟩ .nil
  norm_num

theorem steady_filter {K : ℕ} (hK : 20 ≤ K) :
    ((blockTenths K).map (blockBounds [(K, 1000000)] 1000000 3263)).filter (fun x => passes 10 (K - 3)
      (1184766210948480000000000 + (K - 4) * 1140918613948480000000000) x.1) =
      (blockTenths K).map (blockBounds [(K, 1000000)] 1000000 3263) := by
  have hb := steady_bounds (K := K) (by omega)
  refine List.filter_eq_self.2 fun x hx => ?_
  rw [hb] at hx
  have : 1069845629051520000000000 ≤ x.1 := by
    rcases List.mem_cons.1 hx with rfl | h
    · exact le_rfl
    · rw [List.eq_of_mem_replicate h]
      norm_num
  unfold passes
  refine decide_eq_true ?_
  have h2 := Nat.mul_le_mul_left (10 * (K - 3)) this
  omega

theorem steady_split {K : ℕ} (hK : 20 ≤ K) :
    Split 10 ((blockTenths K).map (blockBounds [(K, 1000000)] 1000000 3263)) (K - 3)
      (1069845629051520000000000 + (K - 4) * 1113693226051520000000000)
      (1184766210948480000000000 + (K - 4) * 1140918613948480000000000) := by
  have hb := steady_bounds (K := K) (by omega)
  refine ⟨?_, ?_, ?_, fun x hx => ?_⟩
  · rw [hb]; simp; omega
  · rw [hb]; simp
  · rw [hb]; simp
  · rw [← steady_filter hK] at hx
    rw [(List.mem_filter.1 hx).2, Bool.true_or]

theorem steady_floor {K : ℕ} (hK : 20 ≤ K) :
    ∀ j ∈ blockTenths K, (1 / 2 : ℝ) * (1920000 * 10 ^ 18) ≤ (blockBounds [(K, 1000000)] 1000000 3263 j).1 := by
  intro j hj
  have hx : blockBounds [(K, 1000000)] 1000000 3263 j ∈ (blockTenths K).map (blockBounds [(K, 1000000)] 1000000 3263) :=
    List.mem_map.2 ⟨j, hj, rfl⟩
  rw [steady_bounds (K := K) (by omega)] at hx
  rcases List.mem_cons.1 hx with h | h
  · rw [h]; norm_num
  · rw [List.eq_of_mem_replicate h]; norm_num

theorem steady_mean {K : ℕ} (hK : 20 ≤ K) :
    let g := ((blockTenths K).map (blockBounds [(K, 1000000)] 1000000 3263)).filter fun x => passes 10 (K - 3)
      (1184766210948480000000000 + (K - 4) * 1140918613948480000000000) x.1
    (578 / 1000 : ℝ) * (1920000 * 10 ^ 18 * g.length) ≤ ((g.map Prod.fst).sum : ℕ) ∧
      (((g.map Prod.snd).sum : ℕ) : ℝ) ≤ 597 / 1000 * (1920000 * 10 ^ 18 * g.length) ∧ g ≠ [] := by
  dsimp only
  rw [steady_filter hK, steady_bounds (K := K) (by omega)]
  obtain ⟨n, rfl⟩ : ∃ n, K = n + 20 := ⟨K - 20, by omega⟩
  rw [show n + 20 - 4 = n + 16 by omega]
  have n0 : (0 : ℝ) ≤ n := Nat.cast_nonneg n
  refine ⟨?_, ?_, by simp⟩
  · simp
    nlinarith
  · simp
    nlinarith

theorem steady_measured {K : ℕ} (hK : 20 ≤ K) (hK' : K ≤ 10 ^ 6) :
    Programme [(K, 0)] [(K, 1000000)] K 1000000 (K - 3)
      (1069845629051520000000000 + (K - 4) * 1113693226051520000000000)
      (1184766210948480000000000 + (K - 4) * 1140918613948480000000000) (1 / 2) (578 / 1000) (597 / 1000) where
  rounded := steady_rounded K
  quiet := by simp
  tenths := steady_tenths K
  short := by omega
  long := hK'
  leaps := steady_leaps K
  split := steady_split hK
  least := by norm_num
  most := by norm_num
  floor := steady_floor hK
  first := by norm_num
  order := by norm_num
  mean := steady_mean hK

/-- **C72.** Cases 1 and 2, at every level and for every duration: a stereo tone of 1 kHz of level `L` dBFS, for two seconds
or more, has an integrated loudness of `L` LUFS, to 0.1 LU. -/
theorem C72_steady (hm : GoodLibm m) (hu : 10 ^ 8 ≤ t.usizeMax) {mode : Mode} (hI : mode.contains Mode.I = true)
    (hH : mode.contains Mode.HISTOGRAM = false) {e0 e : Ebu F64 F32}
    (hnew : Ebu.new (ieeeEnv m bs t) 2 48000 mode = .done (.ok e0)) {ops : List (Op F64 F32)} (hops : ∀ op ∈ ops, Feed op)
    (hrun : runOps (ieeeEnv m bs t) e0 ops = .done e) {K : ℕ} (hK : 20 ≤ K) (hK' : K ≤ 10 ^ 6) {L : ℝ} (hL : -60 ≤ L)
    (hL' : L ≤ 0) {φ : ℕ → ℝ} (hp : Plays (1 / 4000) [(K, 0)] 2 (fun _ => L) φ (heard (ieeeEnv m bs t) 2 ops)) :
    ∃ v : F64, ask (ieeeEnv m bs t) e .loudnessGlobal = .done (.ok v) ∧ v.Finite ∧ |v.value - L| ≤ 1 / 10 := by
  obtain ⟨l1, l2, l3, l4⟩ := level_bounds hL hL'
  exact stereo_tones hm hu hI hH hnew hops hrun hL hL' hp (steady_measured hK hK') (by linarith) (by linarith) (by linarith)

/-! ## Case 3 -/

theorem case3_rounded : Rounded [(100, -13), (600, 0), (100, -13)] [(100, 223872), (600, 1000000), (100, 223872)] := by
  have h : |((223872 : ℕ) : ℝ) / 10 ^ 6 - (10 : ℝ) ^ (-13 / 20 : ℝ)| ≤ 1 / 10 ^ 6 :=
    att_near 13 20 (by norm_num) (by norm_num) (by norm_num) (by norm_num) (by norm_num)
  exact .cons ⟨rfl, h⟩ (.cons ⟨rfl, by norm_num⟩ (.cons ⟨rfl, h⟩ .nil))

def case3 : List (ℕ × ℕ) := (blockTenths 800).map (blockBounds [(100, 223872), (600, 1000000), (100, 223872)] 1776128 3263)

set_option maxRecDepth 100000 in
theorem case3_leaps : sumOver (leap (ampAt [(100, 223872), (600, 1000000), (100, 223872)])) 0 800 ≤ 1776128 := by decide +kernel

set_option maxRecDepth 100000 in
theorem case3_split : Split 10 case3 797 678474114744513610022912000 696553625231409733009408000 :=
  ⟨by decide +kernel, by decide +kernel, by decide +kernel, by decide +kernel⟩

set_option maxRecDepth 100000 in
theorem case3_floor : ∀ x ∈ case3, 35000000000000000000000 ≤ x.1 := by decide +kernel

set_option maxRecDepth 100000 in
theorem case3_gated : let g := case3.filter fun x => passes 10 797 696553625231409733009408000 x.1
    g.length = 603 ∧ (g.map Prod.fst).sum = 668128187676967687884800000 ∧ (g.map Prod.snd).sum = 684977910779518454394880000 := by
  decide +kernel

theorem mean_of {g : List (ℕ × ℕ)} {n a b : ℕ} {c1 c2 : ℝ} (hg : g.length = n ∧ (g.map Prod.fst).sum = a ∧ (g.map Prod.snd).sum = b)
    (hn : 0 < n) (h1 : c1 * (1920000 * 10 ^ 18 * n) ≤ a) (h2 : b ≤ c2 * (1920000 * 10 ^ 18 * n)) :
    c1 * (1920000 * 10 ^ 18 * g.length) ≤ ((g.map Prod.fst).sum : ℕ) ∧
      (((g.map Prod.snd).sum : ℕ) : ℝ) ≤ c2 * (1920000 * 10 ^ 18 * g.length) ∧ g ≠ [] := by
  obtain ⟨rfl, rfl, rfl⟩ := hg
  exact ⟨h1, h2, List.length_pos_iff.1 hn⟩

theorem case3_mean : let g := ((blockTenths 800).map (blockBounds [(100, 223872), (600, 1000000), (100, 223872)] 1776128 3263)).filter fun x => passes 10 797 696553625231409733009408000 x.1
    (577 / 1000 : ℝ) * (1920000 * 10 ^ 18 * g.length) ≤ ((g.map Prod.fst).sum : ℕ) ∧
      (((g.map Prod.snd).sum : ℕ) : ℝ) ≤ 592 / 1000 * (1920000 * 10 ^ 18 * g.length) ∧ g ≠ [] :=
  mean_of case3_gated (by norm_num) (by norm_num) (by norm_num)

theorem case3_measured : Programme [(100, -13), (600, 0), (100, -13)] [(100, 223872), (600, 1000000), (100, 223872)] 800 1776128 797 678474114744513610022912000 696553625231409733009408000 (1 / 100) (577 / 1000) (592 / 1000) where
  rounded := case3_rounded
  quiet := by simp
  tenths := rfl
  short := by norm_num
  long := by norm_num
  leaps := case3_leaps
  split := case3_split
  least := by norm_num
  most := by norm_num
  floor := by
    intro j hj
    have : ((35000000000000000000000 : ℕ) : ℝ) ≤ _ := Nat.cast_le.2 (case3_floor _ (List.mem_map.2 ⟨j, hj, rfl⟩))
    refine le_trans ?_ this
    norm_num
  first := by norm_num
  order := by norm_num
  mean := case3_mean

/-- **C72.** Case 3: 10 s at -36 dBFS, 60 s at -23 dBFS, 10 s at -36 dBFS, in stereo; integrated loudness -23 LUFS, to
0.1 LU. The quiet parts are below the relative gate. -/
theorem C72_gated (hm : GoodLibm m) (hu : 10 ^ 8 ≤ t.usizeMax) {mode : Mode} (hI : mode.contains Mode.I = true)
    (hH : mode.contains Mode.HISTOGRAM = false) {e0 e : Ebu F64 F32}
    (hnew : Ebu.new (ieeeEnv m bs t) 2 48000 mode = .done (.ok e0)) {ops : List (Op F64 F32)} (hops : ∀ op ∈ ops, Feed op)
    (hrun : runOps (ieeeEnv m bs t) e0 ops = .done e) {L : ℝ} (hL : -40 ≤ L) (hL' : L ≤ 0) {φ : ℕ → ℝ}
    (hp : Plays (1 / 4000) [(100, -13), (600, 0), (100, -13)] 2 (fun _ => L) φ (heard (ieeeEnv m bs t) 2 ops)) :
    ∃ v : F64, ask (ieeeEnv m bs t) e .loudnessGlobal = .done (.ok v) ∧ v.Finite ∧ |v.value - L| ≤ 1 / 10 := by
  obtain ⟨l1, l2, l3, l4⟩ := level_bounds (by linarith) hL'
  have l5 : 1 / 10 ^ 4 ≤ (10 : ℝ) ^ (L / 10) := by
    rw [show (1 : ℝ) / 10 ^ 4 = 10 ^ (-4 : ℝ) by rw [Real.rpow_neg (by norm_num), one_div]; norm_num]
    exact Real.rpow_le_rpow_of_exponent_le (by norm_num) (by linarith)
  exact stereo_tones hm hu hI hH hnew hops hrun (by linarith) hL' hp case3_measured (by linarith) (by linarith) (by linarith)

/-! ## Case 5 -/

theorem case5_rounded : Rounded [(200, -6), (201, 0), (200, -6)] [(200, 501187), (201, 1000000), (200, 501187)] := by
  have h : |((501187 : ℕ) : ℝ) / 10 ^ 6 - (10 : ℝ) ^ (-6 / 20 : ℝ)| ≤ 1 / 10 ^ 6 :=
    att_near 3 10 (by norm_num) (by norm_num) (by norm_num) (by norm_num) (by norm_num)
  exact .cons ⟨rfl, h⟩ (.cons ⟨rfl, by norm_num⟩ (.cons ⟨rfl, h⟩ .nil))

def case5 : List (ℕ × ℕ) := (blockTenths 601).map (blockBounds [(200, 501187), (201, 1000000), (200, 501187)] 1498813 3263)

set_option maxRecDepth 100000 in
theorem case5_leaps : sumOver (leap (ampAt [(200, 501187), (201, 1000000), (200, 501187)])) 0 601 ≤ 1498813 := by decide +kernel

set_option maxRecDepth 100000 in
theorem case5_split : Split 10 case5 598 333398336275309545982752000 344612590854801482422368000 :=
  ⟨by decide +kernel, by decide +kernel, by decide +kernel, by decide +kernel⟩

set_option maxRecDepth 100000 in
theorem case5_floor : ∀ x ∈ case5, 192000000000000000000000 ≤ x.1 := by decide +kernel

set_option maxRecDepth 100000 in
theorem case5_gated : let g := case5.filter fun x => passes 10 598 344612590854801482422368000 x.1
    g.length = 598 ∧ (g.map Prod.fst).sum = 333398336275309545982752000 ∧ (g.map Prod.snd).sum = 344612590854801482422368000 := by
  decide +kernel

theorem case5_mean : let g := ((blockTenths 601).map (blockBounds [(200, 501187), (201, 1000000), (200, 501187)] 1498813 3263)).filter fun x => passes 10 598 344612590854801482422368000 x.1
    (2903 / 10000 : ℝ) * (1920000 * 10 ^ 18 * g.length) ≤ ((g.map Prod.fst).sum : ℕ) ∧
      (((g.map Prod.snd).sum : ℕ) : ℝ) ≤ 30015 / 100000 * (1920000 * 10 ^ 18 * g.length) ∧ g ≠ [] :=
  mean_of case5_gated (by norm_num) (by norm_num) (by norm_num)

theorem case5_measured : Programme [(200, -6), (201, 0), (200, -6)] [(200, 501187), (201, 1000000), (200, 501187)] 601 1498813 598 333398336275309545982752000 344612590854801482422368000 (1 / 10) (2903 / 10000) (30015 / 100000) where
  rounded := case5_rounded
  quiet := by simp
  tenths := rfl
  short := by norm_num
  long := by norm_num
  leaps := case5_leaps
  split := case5_split
  least := by norm_num
  most := by norm_num
  floor := by
    intro j hj
    have : ((192000000000000000000000 : ℕ) : ℝ) ≤ _ := Nat.cast_le.2 (case5_floor _ (List.mem_map.2 ⟨j, hj, rfl⟩))
    refine le_trans ?_ this
    norm_num
  first := by norm_num
  order := by norm_num
  mean := case5_mean

/-- **C72.** Case 5: 20 s at -26 dBFS, 20.1 s at -20 dBFS, 20 s at -26 dBFS, in stereo; integrated loudness -23 LUFS, to
0.1 LU. -/
theorem C72_mixed (hm : GoodLibm m) (hu : 10 ^ 8 ≤ t.usizeMax) {mode : Mode} (hI : mode.contains Mode.I = true)
    (hH : mode.contains Mode.HISTOGRAM = false) {e0 e : Ebu F64 F32}
    (hnew : Ebu.new (ieeeEnv m bs t) 2 48000 mode = .done (.ok e0)) {ops : List (Op F64 F32)} (hops : ∀ op ∈ ops, Feed op)
    (hrun : runOps (ieeeEnv m bs t) e0 ops = .done e) {L : ℝ} (hL : -40 ≤ L) (hL' : L ≤ 0) {φ : ℕ → ℝ}
    (hp : Plays (1 / 4000) [(200, -6), (201, 0), (200, -6)] 2 (fun _ => L) φ (heard (ieeeEnv m bs t) 2 ops)) :
    ∃ v : F64, ask (ieeeEnv m bs t) e .loudnessGlobal = .done (.ok v) ∧ v.Finite ∧ |v.value - (L - 3)| ≤ 1 / 10 := by
  obtain ⟨l1, l2, l3, l4⟩ := level_bounds (by linarith) hL'
  have l5 : 1 / 10 ^ 4 ≤ (10 : ℝ) ^ (L / 10) := by
    rw [show (1 : ℝ) / 10 ^ 4 = 10 ^ (-4 : ℝ) by rw [Real.rpow_neg (by norm_num), one_div]; norm_num]
    exact Real.rpow_le_rpow_of_exponent_le (by norm_num) (by linarith)
  have h3 : |(5011872 / 10 ^ 7 : ℝ) - (10 : ℝ) ^ (-3 / 10 : ℝ)| ≤ 1 / 10 ^ 6 :=
    att_near 3 10 (by norm_num) (by norm_num) (by norm_num) (by norm_num) (by norm_num)
  have e3 : (10 : ℝ) ^ ((L - 3) / 10) = (10 : ℝ) ^ (-3 / 10 : ℝ) * (10 : ℝ) ^ (L / 10) := by
    rw [← Real.rpow_add (by norm_num)]
    congr 1
    ring
  have h3 := abs_le.1 h3
  have hP : 0 < (10 : ℝ) ^ (L / 10) := by positivity
  refine stereo_tones hm hu hI hH hnew hops hrun (by linarith) hL' hp case5_measured (by linarith) ?_ ?_
  · rw [e3]
    generalize (10 : ℝ) ^ (-3 / 10 : ℝ) = a at *
    have : 1149 / 1000 * a ≤ 2 * (2903 / 10000) := by linarith [h3.1]
    nlinarith
  · rw [e3]
    generalize (10 : ℝ) ^ (-3 / 10 : ℝ) = a at *
    have : 2 * (30015 / 100000) ≤ 1198 / 1000 * a := by linarith [h3.2]
    nlinarith

/-! ## Case 6 -/

/-- The levels of the five channels of case 6 relative to the centre. -/
noncomputable def Spec.fiveLevels (L : ℝ) (c : ℕ) : ℝ := L + [-4, -4, 0, -6, -6].getD c 0

theorem five_power (L : ℝ) : fullPower (defaultChannelMap 5) (fiveLevels L) =
    (2 * (10 : ℝ) ^ (-1 / 2 : ℝ) + (10 : ℝ) ^ (-1 / 10 : ℝ) + 282 / 100 * (10 : ℝ) ^ (-7 / 10 : ℝ)) * (10 : ℝ) ^ ((L + 1) / 10) := by
  have e : defaultChannelMap 5 = [.left, .right, .center, .leftSurround, .rightSurround] := by decide
  have s : ∀ x y : ℝ, (10 : ℝ) ^ (x / 10) * (10 : ℝ) ^ ((L + 1) / 10) = (10 : ℝ) ^ ((L + (x + 1)) / 10) := fun x _ => by
    rw [← Real.rpow_add (by norm_num)]
    congr 1
    ring
  rw [e]
  simp [fullPower, realWeight, surrounds, fiveLevels]
  have s1 := s (-5) 0
  have s2 := s (-1) 0
  have s3 := s (-7) 0
  norm_num at s1 s2 s3 ⊢
  rw [add_mul, add_mul, mul_assoc, mul_assoc, s1, s2, s3]
  ring

theorem five_weight : totalWeight (defaultChannelMap 5) = 582 / 100 := by
  have e : defaultChannelMap 5 = [.left, .right, .center, .leftSurround, .rightSurround] := by decide
  rw [e]
  simp [totalWeight, realWeight, surrounds]
  norm_num

/-- **C72.** Case 6: five channels, left and right 4 dB and the surrounds 6 dB below the centre; the integrated loudness is
1 LU above the level of the centre, to 0.1 LU. (In the specification the centre is at -24 dBFS, for 20 s.) -/
theorem C72_surround (hm : GoodLibm m) (hu : 10 ^ 8 ≤ t.usizeMax) {mode : Mode} (hI : mode.contains Mode.I = true)
    (hH : mode.contains Mode.HISTOGRAM = false) {e0 e : Ebu F64 F32}
    (hnew : Ebu.new (ieeeEnv m bs t) 5 48000 mode = .done (.ok e0)) {ops : List (Op F64 F32)} (hops : ∀ op ∈ ops, Feed op)
    (hrun : runOps (ieeeEnv m bs t) e0 ops = .done e) {K : ℕ} (hK : 20 ≤ K) (hK' : K ≤ 10 ^ 6) {L : ℝ} (hL : -60 ≤ L)
    (hL' : L ≤ 0) {φ : ℕ → ℝ} (hp : Plays (1 / 4000) [(K, 0)] 5 (fiveLevels L) φ (heard (ieeeEnv m bs t) 5 ops)) :
    ∃ v : F64, ask (ieeeEnv m bs t) e .loudnessGlobal = .done (.ok v) ∧ v.Finite ∧ |v.value - (L + 1)| ≤ 1 / 10 := by
  obtain ⟨l1, l2, l3, l4⟩ := level_bounds hL hL'
  have a1 : |(316228 / 10 ^ 6 : ℝ) - (10 : ℝ) ^ (-1 / 2 : ℝ)| ≤ 1 / 10 ^ 6 :=
    att_near 1 2 (by norm_num) (by norm_num) (by norm_num) (by norm_num) (by norm_num)
  have a2 : |(794328 / 10 ^ 6 : ℝ) - (10 : ℝ) ^ (-1 / 10 : ℝ)| ≤ 1 / 10 ^ 6 :=
    att_near 1 10 (by norm_num) (by norm_num) (by norm_num) (by norm_num) (by norm_num)
  have a3 : |(199526 / 10 ^ 6 : ℝ) - (10 : ℝ) ^ (-7 / 10 : ℝ)| ≤ 1 / 10 ^ 6 :=
    att_near 7 10 (by norm_num) (by norm_num) (by norm_num) (by norm_num) (by norm_num)
  have a1 := abs_le.1 a1
  have a2 := abs_le.1 a2
  have a3 := abs_le.1 a3
  have e1 : (10 : ℝ) ^ (L / 10) = (10 : ℝ) ^ (-1 / 10 : ℝ) * (10 : ℝ) ^ ((L + 1) / 10) := by
    rw [← Real.rpow_add (by norm_num)]
    congr 1
    ring
  have p1 : (10 : ℝ) ^ (L / 10) ≤ (10 : ℝ) ^ ((L + 1) / 10) :=
    Real.rpow_le_rpow_of_exponent_le (by norm_num) (by linarith)
  have hg : ∀ c, fiveLevels L c ≤ L := by
    intro c
    unfold fiveLevels
    rcases c with - | - | - | - | - | c <;> simp
  refine measured_tones hm hu hI hH hnew hops hrun hp (steady_measured hK hK') (X := 1001 / 1000 * (10 : ℝ) ^ (L / 20))
    (by norm_num; linarith) (by linarith) (fun c _ => ?_) (five_power L) ?_ ?_ ?_ ?_
  · refine mul_le_mul_of_nonneg_left (Real.rpow_le_rpow_of_exponent_le (by norm_num) ?_) (by norm_num)
    linarith [hg c]
  · rw [five_weight, mul_pow, l3, e1]
    generalize (10 : ℝ) ^ (-1 / 2 : ℝ) = x at *
    generalize (10 : ℝ) ^ (-1 / 10 : ℝ) = y at *
    generalize (10 : ℝ) ^ (-7 / 10 : ℝ) = z at *
    have : 582 / 100 * (1001 / 1000) ^ 2 * y ≤ 3 * (2 * x + y + 282 / 100 * z) := by norm_num at *; linarith
    have P0 : 0 < (10 : ℝ) ^ ((L + 1) / 10) := by positivity
    nlinarith
  · generalize (10 : ℝ) ^ (-1 / 2 : ℝ) = x at *
    generalize (10 : ℝ) ^ (-1 / 10 : ℝ) = y at *
    generalize (10 : ℝ) ^ (-7 / 10 : ℝ) = z at *
    have : 1 ≤ 2 * x + y + 282 / 100 * z := by norm_num at *; linarith
    have P0 : 0 < (10 : ℝ) ^ ((L + 1) / 10) := by positivity
    nlinarith
  · generalize (10 : ℝ) ^ (-1 / 2 : ℝ) = x at *
    generalize (10 : ℝ) ^ (-1 / 10 : ℝ) = y at *
    generalize (10 : ℝ) ^ (-7 / 10 : ℝ) = z at *
    have : 1149 / 1000 ≤ (2 * x + y + 282 / 100 * z) * (578 / 1000) := by norm_num at *; linarith
    have P0 : 0 < (10 : ℝ) ^ ((L + 1) / 10) := by positivity
    nlinarith
  · generalize (10 : ℝ) ^ (-1 / 2 : ℝ) = x at *
    generalize (10 : ℝ) ^ (-1 / 10 : ℝ) = y at *
    generalize (10 : ℝ) ^ (-7 / 10 : ℝ) = z at *
    have : (2 * x + y + 282 / 100 * z) * (597 / 1000) ≤ 1198 / 1000 := by norm_num at *; linarith
    have P0 : 0 < (10 : ℝ) ^ ((L + 1) / 10) := by positivity
    nlinarith

/-! ## Momentary and short-term loudness -/

/-- A window of the steady tone, not at the beginning. -/
theorem steady_window {K w k : ℕ} (hk : k + w ≤ K) (k0 : 0 < k) (hw : 4 ≤ w) :
    579 * (480000 * w * 10 ^ 15) ≤ low (ampAt [(K, 1000000)]) 1000000 3263 w k ∧
      high (ampAt [(K, 1000000)]) 1000000 3263 w k ≤ 596 * (480000 * w * 10 ^ 15) := by
  have amp : ∀ i < K, ampAt [(K, 1000000)] i = 1000000 := fun i hi => by simp [ampAt, hi]
  have s1 : sumOver (leap (ampAt [(K, 1000000)])) k w = 0 := by
    unfold sumOver
    rw [list_sum_range]
    refine Finset.sum_eq_zero fun i hi => ?_
    have hi := Finset.mem_range.1 hi
    unfold leap
    rw [if_neg (by omega), amp _ (by omega), amp _ (by omega)]
    exact Nat.sub_self _
  have s2 : sumOver (fun i => ampAt [(K, 1000000)] i ^ 2) k w = w * 1000000 ^ 2 := by
    unfold sumOver
    rw [list_sum_range, Finset.sum_congr rfl (g := fun _ => 1000000 ^ 2)]
    · simp
    · intro i hi
      have hi := Finset.mem_range.1 hi
      simp only []
      rw [amp _ (by omega)]
  have s3 : maxOver (ampAt [(K, 1000000)]) k w ≤ 1000000 := by
    unfold maxOver
    have : ∀ l : List ℕ, (∀ x ∈ l, x ≤ 1000000) → l.foldr max 0 ≤ 1000000 := by
      intro l
      induction l with
      | nil => simp
      | cons a l ih =>
        intro h
        rw [List.foldr_cons]
        exact max_le (h a List.mem_cons_self) (ih fun x hx => h x (List.mem_cons_of_mem _ hx))
    refine this _ fun x hx => ?_
    obtain ⟨i, hi, rfl⟩ := List.mem_map.1 hx
    rw [amp _ (by have := List.mem_range.1 hi; omega)]
  unfold low high slack
  rw [s1, s2]
  generalize maxOver (ampAt [(K, 1000000)]) k w = M at *
  have hM : (2168 * M + 1000 * 3263) * (480000 * w * 3263) ≤ (2168 * 1000000 + 1000 * 3263) * (480000 * w * 3263) := by
    gcongr
  have hM2 : (2168 * M + 2400 * 0 + 40 * 1000000 + 2000 * 3263) * (9500 * 0 + 4 * 1000000) ≤
      (2168 * 1000000 + 2400 * 0 + 40 * 1000000 + 2000 * 3263) * (9500 * 0 + 4 * 1000000) := by
    gcongr
  constructor <;> omega

/-- **C72.** The first requirement for the momentary and the short-term loudness: with a steady stereo tone of level `L`, from
0.5 s on for the momentary and from 3.1 s on for the short-term loudness, both are `L` LUFS, to 0.1 LU. -/
theorem C72_windows (hm : GoodLibm m) {mode : Mode} (hH : mode.contains Mode.HISTOGRAM = false) {e0 e : Ebu F64 F32}
    (hnew : Ebu.new (ieeeEnv m bs t) 2 48000 mode = .done (.ok e0)) {ops : List (Op F64 F32)} (hops : ∀ op ∈ ops, Feed op)
    (hrun : runOps (ieeeEnv m bs t) e0 ops = .done e) {K : ℕ} {L : ℝ} (hL : -60 ≤ L)
    (hL' : L ≤ 0) {φ : ℕ → ℝ} (hp : Plays (1 / 4000) [(K, 0)] 2 (fun _ => L) φ (heard (ieeeEnv m bs t) 2 ops)) :
    (5 ≤ K → ∃ v : F64, ask (ieeeEnv m bs t) e .loudnessMomentary = .done (.ok v) ∧ v.Finite ∧ |v.value - L| ≤ 1 / 10) ∧
    (31 ≤ K → mode.contains Mode.S = true →
      ∃ v : F64, ask (ieeeEnv m bs t) e .loudnessShortterm = .done (.ok v) ∧ v.Finite ∧ |v.value - L| ≤ 1 / 10) := by
  obtain ⟨f1, f2, f3, f4, f5, f6, f7⟩ := fresh hnew hH
  obtain ⟨l1, l2, l3, l4⟩ := level_bounds hL hL'
  have hs : ∀ s ∈ [(K, (0 : ℝ))], s.2 ≤ 0 := by simp
  have hmeas : measured (ieeeEnv m bs t) 2 ops = K * 4800 := by
    have := plays_count hp
    rw [show tenths [(K, (0 : ℝ))] = K by simp [tenths]] at this
    exact this
  have key := C57_windows (bs' := bs) (u := 0) (by norm_num) hm.log hm.elem (Started.new hnew) f7 (by omega) (by omega) hops hrun
    (X := 1001 / 1000 * (10 : ℝ) ^ (L / 20))
    ((one_div_le_one_div_of_le (by positivity) (big_le (by norm_num))).trans (b := 1 / 2 ^ 13) (by norm_num; linarith))
    (by norm_num; linarith) (.inr (by norm_num; linarith))
    (by rw [f2]; exact plays_within hp hs fun c _ => mul_le_mul_of_nonneg_right (by norm_num) (by positivity))
  dsimp only at key
  rw [f1, f2, f3, hmeas, show hop 48000 = 4800 by decide, stereo_weight] at key
  have hl2 : (defaultChannelMap 2).length = 2 := by decide
  have g48 := stateGain48
  have g0 : 0 ≤ stateGain 48000 := by unfold stateGain; positivity
  -- one window
  have one : ∀ w, 4 ≤ w → w ≤ 30 → w < K → ∀ q : Query,
      (∀ r : ℝ, 0 < r → r ≤ 1 / 10 → 0 < w * 4800 → w * 4800 + (defaultChannelMap 2).length + 5 ≤ 2 ^ 49 →
        1 / 2 ^ 300 ≤ idealPower (defaultChannelMap 2) (w * 4800) (K * 4800) (idealOuts bs 0 48000 (heard (ieeeEnv m bs t) 2 ops)) →
        2 * (stateGain 48000 / 2 ^ 38 * (1001 / 1000 * (10 : ℝ) ^ (L / 20))) ^ 2 ≤
          r ^ 2 * idealPower (defaultChannelMap 2) (w * 4800) (K * 4800) (idealOuts bs 0 48000 (heard (ieeeEnv m bs t) 2 ops)) →
        ∃ v : F64, ask (ieeeEnv m bs t) e q = .done (.ok v) ∧ v.Finite ∧
          |v.value - lufs (idealPower (defaultChannelMap 2) (w * 4800) (K * 4800) (idealOuts bs 0 48000 (heard (ieeeEnv m bs t) 2 ops)))| ≤
            12 * r + 10 * (1 / 10 ^ 5) + ((w * 4800 : ℕ) + ((defaultChannelMap 2).length : ℝ) + 5) / 2 ^ 48 + 1 / 10 ^ 12) →
      ∃ v : F64, ask (ieeeEnv m bs t) e q = .done (.ok v) ∧ v.Finite ∧ |v.value - L| ≤ 1 / 10 := by
    intro w hw hw30 hwK q hq
    have hb := window_bounds bs 0 hp (steady_rounded K) (by norm_num) (cm := defaultChannelMap 2) (by decide)
      (w := w) (k := K - w) (V := 1000000) (e := 3263) (by omega)
      (by rw [show tenths [(K, (0 : ℝ))] = K by simp [tenths]]; omega)
      ((sumOver_mono _ (by omega)).trans (steady_leaps K)) (by norm_num)
    dsimp only at hb
    obtain ⟨q1, q2⟩ := steady_window (K := K) (w := w) (k := K - w) (by omega) (by omega) hw
    rw [Nat.sub_add_cancel hwK.le, stereo_power] at hb
    generalize idealPower (defaultChannelMap 2) (w * 4800) (K * 4800) (idealOuts bs 0 48000 (heard (ieeeEnv m bs t) 2 ops)) = P at hq hb
    generalize low (ampAt [(K, 1000000)]) 1000000 3263 w (K - w) = a at hb q1
    generalize high (ampAt [(K, 1000000)]) 1000000 3263 w (K - w) = b at hb q2
    have w1 : (0 : ℝ) < w := by exact_mod_cast (by omega : 0 < w)
    have q1 : (579 * (480000 * w * 10 ^ 15) : ℝ) ≤ a := by exact_mod_cast q1
    have q2 : (b : ℝ) ≤ 596 * (480000 * w * 10 ^ 15) := by exact_mod_cast q2
    have d1 : (579 / 1000 : ℝ) ≤ a / (480000 * w * 10 ^ 18) := by
      rw [le_div_iff₀ (by positivity)]
      linarith
    have d2 : b / (480000 * w * 10 ^ 18) ≤ (596 / 1000 : ℝ) := by
      rw [div_le_iff₀ (by positivity)]
      linarith
    generalize (a : ℝ) / (480000 * w * 10 ^ 18) = c1 at hb d1
    generalize (b : ℝ) / (480000 * w * 10 ^ 18) = c2 at hb d2
    have P0 : (0 : ℝ) < (10 : ℝ) ^ (L / 10) := by positivity
    have p1 : 1158 / 1000 * (10 : ℝ) ^ (L / 10) ≤ P := by nlinarith [hb.1]
    have p2 : P ≤ 1192 / 1000 * (10 : ℝ) ^ (L / 10) := by nlinarith [hb.2]
    obtain ⟨v, hv1, hv2, hv3⟩ := hq (1 / 10000) (by norm_num) (by norm_num) (by omega) (by rw [hl2]; omega)
      (by
        refine le_trans ?_ p1
        refine le_trans (b := 1 / 2 ^ 30) (one_div_le_one_div_of_le (by positivity) (big_le (by norm_num))) ?_
        norm_num at l4 ⊢
        linarith)
      (by
        rw [mul_pow, mul_pow, l3]
        have : (stateGain 48000 / 2 ^ 38) ^ 2 ≤ (3000000 / 2 ^ 38) ^ 2 :=
          pow_le_pow_left₀ (by positivity) (div_le_div_of_nonneg_right g48 (by positivity)) 2
        generalize (stateGain 48000 / 2 ^ 38) ^ 2 = G at *
        generalize (10 : ℝ) ^ (L / 10) = Q at *
        norm_num at this ⊢
        nlinarith)
    refine ⟨v, hv1, hv2, ?_⟩
    have a1 := lufs_ge (x := P) (L := L) (by linarith)
    have a2 := lufs_le (x := P) (L := L) (by linarith) (by linarith)
    rw [hl2] at hv3
    have w30 : (w : ℝ) ≤ 30 := by exact_mod_cast hw30
    have hz : (((w * 4800 : ℕ) : ℝ) + ((2 : ℕ) : ℝ) + 5) / 2 ^ 48 ≤ 1 / 10 ^ 6 := by
      rw [div_le_iff₀ (by positivity)]
      push_cast
      norm_num
      linarith
    generalize (((w * 4800 : ℕ) : ℝ) + ((2 : ℕ) : ℝ) + 5) / 2 ^ 48 = z at hv3 hz
    have hv3 := abs_le.1 hv3
    rw [abs_le]
    norm_num at hv3 hz ⊢
    constructor <;> linarith
  constructor
  · intro hK
    exact one 4 (by omega) (by omega) (by omega) _ key.1
  · intro hK hS
    refine one 30 (by omega) (by omega) (by omega) _ (key.2.1 ?_)
    have : e0.window = 3000 := by
      obtain ⟨rfl, -⟩ := Ebu.new_ok hnew
      show (if mode.contains Mode.S then 3000 else 400) = 3000
      rw [if_pos hS]
    rw [this]
    decide

/-! ## The files -/

theorem Demo.good57 : GoodLibm Demo.libm57 := ⟨Demo.libm57_within.1, Demo.libm57_within.2, Demo.libm57_tenth, Demo.libm57_hundredth⟩

/-- **C72.** The 16-bit files of the cases 1, 3 and 5, whatever the phases of the two channels, are read in any number of calls of
any sizes: every one of them is measured at -23 LUFS, to 0.1 LU. -/
theorem C72_files (hm : GoodLibm m) (hu : 2 ^ 64 - 1 ≤ t.usizeMax) (φ : ℕ → ℝ) {segs : List (ℕ × ℝ)} {L : ℝ}
    (hc : (segs = [(200, 0)] ∧ L = -23) ∨ (segs = [(100, -13), (600, 0), (100, -13)] ∧ L = -23) ∨
      (segs = [(200, -6), (201, 0), (200, -6)] ∧ L = -20)) {parts : List (List (List Int16))}
    (hp : parts.flatten = file16 segs 2 (fun _ => L) φ) :
    ∃ (e0 e : Ebu F64 F32) (v : F64), Ebu.new (ieeeEnv m bs t) 2 48000 Mode.I = .done (.ok e0) ∧
      runOps (ieeeEnv m bs t) e0 (parts.map fun fs => .addFrames (.i16 fs.flatten)) = .done e ∧
      ask (ieeeEnv m bs t) e .loudnessGlobal = .done (.ok v) ∧ v.Finite ∧ |v.value + 23| ≤ 1 / 10 := by
  have hu8 : 10 ^ 8 ≤ t.usizeMax := le_trans (by norm_num) hu
  obtain ⟨e0, h0⟩ := (C01_new_64 (ieeeEnv m bs t) hu 2 48000 Mode.I).1.2 ⟨by unfold ValidArgs; decide, by decide⟩
  obtain ⟨e, h1⟩ := C09_plain hu h0 (by norm_num) (parts.map fun fs => .addFrames (.i16 fs.flatten)) (by
    intro op hop
    obtain ⟨fs, -, rfl⟩ := List.mem_map.1 hop
    trivial)
  have hf : ∀ op ∈ parts.map (fun fs => (.addFrames (.i16 fs.flatten) : Op F64 F32)), Feed op := by
    intro op hop
    obtain ⟨fs, -, rfl⟩ := List.mem_map.1 hop
    trivial
  have hI : Mode.I.contains Mode.I = true := by decide
  have hH : Mode.I.contains Mode.HISTOGRAM = false := by decide
  have g23 : (1 : ℝ) / 65536 ≤ 1 / 4000 * (10 : ℝ) ^ (-23 / 20 : ℝ) := by
    have : |(70795 / 10 ^ 6 : ℝ) - (10 : ℝ) ^ (-23 / 20 : ℝ)| ≤ 1 / 10 ^ 6 :=
      att_near 23 20 (by norm_num) (by norm_num) (by norm_num) (by norm_num) (by norm_num)
    have := abs_le.1 this
    norm_num at this ⊢
    linarith
  refine ⟨e0, e, ?_⟩
  rcases hc with ⟨rfl, rfl⟩ | ⟨rfl, rfl⟩ | ⟨rfl, rfl⟩
  · obtain ⟨v, hv⟩ := C72_steady hm hu8 hI hH h0 hf h1 (K := 200) (by norm_num) (by norm_num) (L := -23) (by norm_num) (by norm_num)
      (file16_plays (by norm_num) (by simp) (fun c _ => ⟨by norm_num, g23⟩) hp)
    exact ⟨v, h0, h1, hv.1, hv.2.1, by rw [← sub_neg_eq_add]; exact hv.2.2⟩
  · obtain ⟨v, hv⟩ := C72_gated hm hu8 hI hH h0 hf h1 (L := -23) (by norm_num) (by norm_num)
      (file16_plays (by norm_num) (by simp) (fun c _ => ⟨by norm_num, g23⟩) hp)
    exact ⟨v, h0, h1, hv.1, hv.2.1, by rw [← sub_neg_eq_add]; exact hv.2.2⟩
  · obtain ⟨v, hv⟩ := C72_mixed hm hu8 hI hH h0 hf h1 (L := -20) (by norm_num) (by norm_num)
      (file16_plays (by norm_num) (by simp) (fun c _ => ⟨by norm_num, g23.trans
        (mul_le_mul_of_nonneg_left (Real.rpow_le_rpow_of_exponent_le (by norm_num) (by norm_num)) (by norm_num))⟩) hp)
    exact ⟨v, h0, h1, hv.1, hv.2.1, by rw [← sub_neg_eq_add]; norm_num at hv ⊢; exact hv.2.2⟩

/-- The file of case 3 read in one call, with the elementary functions of the earlier examples. -/
example (bs : BSearch) (h64 : 2 ^ 64 - 1 ≤ t.usizeMax) :
    ∃ (e0 e : Ebu F64 F32) (v : F64), Ebu.new (ieeeEnv Demo.libm57 bs t) 2 48000 Mode.I = .done (.ok e0) ∧
      runOps (ieeeEnv Demo.libm57 bs t) e0
        [.addFrames (.i16 (file16 [(100, -13), (600, 0), (100, -13)] 2 (fun _ => -23) fun _ => 0).flatten)] = .done e ∧
      ask (ieeeEnv Demo.libm57 bs t) e .loudnessGlobal = .done (.ok v) ∧ v.Finite ∧ |v.value + 23| ≤ 1 / 10 :=
  C72_files Demo.good57 h64 (fun _ => 0) (.inr (.inl ⟨rfl, rfl⟩))
    (parts := [file16 [(100, -13), (600, 0), (100, -13)] 2 (fun _ => -23) fun _ => 0]) (by simp)

end Verif
