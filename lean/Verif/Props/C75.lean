import Verif.Proofs.ToneBins
import Verif.Props.C73
import Verif.Spec.File24
import Verif.Proofs.Long
/-!
# C75: the test signals of EBU Tech 3341 and 3342, measured in histogram mode

In histogram mode an analyzer keeps only the number of blocks in every 0.1 LU. It still meets the requirements of C72 and C73:
the integrated loudness of the tones of the cases 1, 2, 3, 5 and 6 of EBU Tech 3341 is within 0.1 LU, half of which the bins
use up, and the loudness range of the four cases of EBU Tech 3342 within 0.65 LU, where 1 LU is allowed. For the loudness the
samples have to be within 1/20000 of the reference amplitude; 24 bits are enough for that.
-/

namespace Verif
open Spec
variable {m : Libm F64} {bs : BSearch} {t : Target}

/-- A new analyzer in histogram mode. -/
theorem fresh_bins {E : Env F64 F32} {channels : ℕ} {mode : Mode} {e0 : Ebu F64 F32} (h : Ebu.new E channels 48000 mode = .done (.ok e0))
    (hH : mode.contains Mode.HISTOGRAM = true) :
    e0.rate = 48000 ∧ e0.channels = channels ∧ e0.channelMap = defaultChannelMap channels ∧ e0.mode = mode ∧
      e0.blockEnergyHistory = .histogram (List.replicate 1000 0) ∧
      e0.shortTermBlockEnergyHistory = .histogram (List.replicate 1000 0) ∧ Adequate e0.mode e0.rate e0.window := by
  have ha := (Ebu.new_inv2 h).inv.adequate
  obtain ⟨rfl, -⟩ := Ebu.new_ok h
  refine ⟨rfl, rfl, rfl, rfl, ?_, ?_, ha (by show 146 ≤ 48000; norm_num)⟩
  · show History.new (mode.contains Mode.HISTOGRAM) _ = _
    rw [hH]
    rfl
  · show History.new (mode.contains Mode.HISTOGRAM) _ = _
    rw [hH]
    rfl

theorem no_blocks : (List.replicate 1000 0 : List Nat).sum = 0 := by
  rw [List.sum_replicate, smul_zero]

theorem lufs_ge_bins {x L : ℝ} (h : 1161 / 1000 * (10 : ℝ) ^ (L / 10) ≤ x) : L - 459 / 10000 ≤ lufs x := by
  have h0 : (0 : ℝ) < 10 ^ (L / 10) := by positivity
  have h1 : (10 : ℝ) ^ ((2 : ℝ) / 31 + L / 10) ≤ x := by
    rw [Real.rpow_add (by norm_num)]
    have := rpow_le_of_pow (a := 1161 / 1000) (p := 2) (q := 31) (by norm_num) (by norm_num) (by norm_num)
    push_cast at this
    exact (mul_le_mul_of_nonneg_right this h0.le).trans h
  have := Real.logb_le_logb_of_le (b := 10) (by norm_num) (by positivity) h1
  rw [Real.logb_rpow (by norm_num) (by norm_num)] at this
  unfold lufs
  linarith

theorem lufs_le_bins {x L : ℝ} (hx : 0 < x) (h : x ≤ 1184 / 1000 * (10 : ℝ) ^ (L / 10)) : lufs x ≤ L + 459 / 10000 := by
  have h0 : (0 : ℝ) < 10 ^ (L / 10) := by positivity
  have h1 : x ≤ (10 : ℝ) ^ ((7 : ℝ) / 95 + L / 10) := by
    rw [Real.rpow_add (by norm_num)]
    have := le_rpow_of_pow (a := 1184 / 1000) (p := 7) (q := 95) (by norm_num) (by norm_num) (by norm_num)
    push_cast at this
    exact h.trans (mul_le_mul_of_nonneg_right this h0.le)
  have := Real.logb_le_logb_of_le (b := 10) (by norm_num) hx h1
  rw [Real.logb_rpow (by norm_num) (by norm_num)] at this
  unfold lufs
  linarith

/-! ## Programmes of tones -/

/-- What is computed about a programme: its blocks by the gate, their least and greatest power, and the mean of those above the gate. -/
structure BinProgramme (segs : List (ℕ × ℝ)) (amps : List (ℕ × ℕ)) (K V n sl sh : ℕ) (μ c1 c2 : ℝ) : Prop where
  rounded : Rounded segs amps
  quiet : ∀ s ∈ segs, s.2 ≤ 0
  tenths : Spec.tenths amps = K
  short : 4 ≤ K
  long : K ≤ 10 ^ 6
  leaps : sumOver (leap (ampAt amps)) 0 K ≤ V
  split : Split 10 ((blockTenths K).map (blockBounds amps V 663)) n sl sh
  least : 1 / 100 ≤ μ
  most : μ ≤ 1
  floor : ∀ j ∈ blockTenths K, μ * (1920000 * 10 ^ 18) ≤ (blockBounds amps V 663 j).1
  ceil : ∀ j ∈ blockTenths K, (blockBounds amps V 663 j).2 ≤ (1 : ℝ) * (1920000 * 10 ^ 18)
  first : 1 / 4 ≤ c1
  order : c1 ≤ c2
  mean : let g := ((blockTenths K).map (blockBounds amps V 663)).filter fun x => passes 10 n sh x.1
      c1 * (1920000 * 10 ^ 18 * g.length) ≤ ((g.map Prod.fst).sum : ℕ) ∧
      (((g.map Prod.snd).sum : ℕ) : ℝ) ≤ c2 * (1920000 * 10 ^ 18 * g.length) ∧ g ≠ []

/-- The integrated loudness of a programme of tones, in histogram mode. -/
theorem measured_tones_bins (hm : GoodLibm m) {mode : Mode} (hI : mode.contains Mode.I = true)
    (hH : mode.contains Mode.HISTOGRAM = true) {channels : ℕ} {e0 e : Ebu F64 F32}
    (hnew : Ebu.new (ieeeEnv m bs t) channels 48000 mode = .done (.ok e0)) {ops : List (Op F64 F32)} (hops : ∀ op ∈ ops, Feed op)
    (hrun : runOps (ieeeEnv m bs t) e0 ops = .done e) {segs : List (ℕ × ℝ)} {amps : List (ℕ × ℕ)} {gain : ℕ → ℝ}
    {φ : ℕ → ℝ} (hp : Plays (1 / 20000) segs channels gain φ (heard (ieeeEnv m bs t) channels ops)) {K V n sl sh : ℕ} {μ c1 c2 : ℝ}
    (hM : BinProgramme segs amps K V n sl sh μ c1 c2) {X : ℝ} (hX : 1 / 2 ^ 13 ≤ X) (hX' : X ≤ 2)
    (hXs : ∀ c < channels, 1001 / 1000 * (10 : ℝ) ^ (gain c / 20) ≤ X) {W : ℝ}
    (hW : fullPower (defaultChannelMap channels) gain = W) (hW3 : totalWeight (defaultChannelMap channels) * X ^ 2 ≤ 3 * W)
    (hμW : 3 / 10 ^ 7 ≤ W * μ) (hW9 : W ≤ 900) {T : ℝ} (hT1 : 1161 / 1000 * (10 : ℝ) ^ (T / 10) ≤ W * c1)
    (hT2 : W * c2 ≤ 1184 / 1000 * (10 : ℝ) ^ (T / 10)) :
    ∃ v : F64, ask (ieeeEnv m bs t) e .loudnessGlobal = .done (.ok v) ∧ v.Finite ∧ |v.value - T| ≤ 1 / 10 := by
  obtain ⟨f1, f2, f3, f4, f5, f6, f7⟩ := fresh_bins hnew hH
  obtain ⟨m1, m2, rfl, m4, m5, m6, m7, m8, m9, m10, mc, m11, m12, m13⟩ := hM
  obtain ⟨v, hv1, hv2, hv3, hv4⟩ := tones_integrated_bins (bs := bs) (t := t) (X := X) (ε := 663)
    (gain := gain) (c1 := c1) (c2 := c2)
    le_rfl hm.log hm.elem hm.tenth (Started.new hnew) f1 f7 (by rw [f4]; exact hI) f5 no_blocks hops hrun
    (by rw [f2]; exact hp) m1 (by norm_num) m2
    m5 m4 hX (hX'.trans (by norm_num))
    (fun c hc => (mul_le_mul_of_nonneg_right (by norm_num) (by positivity)).trans (hXs c (by rw [← f2]; exact hc)))
    (by rw [f3, hW]; exact hW3) m6 (by norm_num) m7 m8 m9 (by rw [f3, hW]; exact hμW) m10 mc
    (by rw [f3, hW, mul_one]; linarith) (by rw [f3, hW]; linarith) m11 m13
  refine ⟨v, hv1, hv2, ?_⟩
  rw [f3, hW] at hv3 hv4
  have hW0 : 0 < W := by
    by_contra hc
    nlinarith
  have a1 := lufs_ge_bins hT1
  have a2 := lufs_le_bins (mul_pos hW0 (by linarith)) hT2
  have hb : halfBin = 1 / 20 + 1 / 10 ^ 9 := rfl
  rw [hb] at hv3 hv4
  rw [abs_le]
  constructor <;> linarith

/-- What is common to the stereo cases, in histogram mode. -/
theorem stereo_tones_bins (hm : GoodLibm m) {mode : Mode} (hI : mode.contains Mode.I = true)
    (hH : mode.contains Mode.HISTOGRAM = true) {e0 e : Ebu F64 F32}
    (hnew : Ebu.new (ieeeEnv m bs t) 2 48000 mode = .done (.ok e0)) {ops : List (Op F64 F32)} (hops : ∀ op ∈ ops, Feed op)
    (hrun : runOps (ieeeEnv m bs t) e0 ops = .done e) {segs : List (ℕ × ℝ)} {amps : List (ℕ × ℕ)} {L : ℝ} (hL : -60 ≤ L)
    (hL' : L ≤ 0) {φ : ℕ → ℝ} (hp : Plays (1 / 20000) segs 2 (fun _ => L) φ (heard (ieeeEnv m bs t) 2 ops))
    {K V n sl sh : ℕ} {μ c1 c2 : ℝ} (hM : BinProgramme segs amps K V n sl sh μ c1 c2)
    (hμW : 3 / 10 ^ 7 ≤ 2 * (10 : ℝ) ^ (L / 10) * μ) {T : ℝ}
    (hT1 : 1161 / 1000 * (10 : ℝ) ^ (T / 10) ≤ 2 * (10 : ℝ) ^ (L / 10) * c1)
    (hT2 : 2 * (10 : ℝ) ^ (L / 10) * c2 ≤ 1184 / 1000 * (10 : ℝ) ^ (T / 10)) :
    ∃ v : F64, ask (ieeeEnv m bs t) e .loudnessGlobal = .done (.ok v) ∧ v.Finite ∧ |v.value - T| ≤ 1 / 10 := by
  obtain ⟨l1, l2, l3, l4⟩ := level_bounds hL hL'
  exact measured_tones_bins hm hI hH hnew hops hrun hp hM (X := 1001 / 1000 * (10 : ℝ) ^ (L / 20)) (by norm_num; linarith)
    (by linarith) (fun _ _ => le_rfl) (stereo_power L) (by
      rw [stereo_weight, mul_pow, l3]
      norm_num
      linarith) hμW (by linarith [Real.rpow_le_one_of_one_le_of_nonpos (x := 10) (z := L / 10) (by norm_num) (by linarith)]) hT1 hT2

/-! ## The steady tone -/

/-- The bounds of the first block and of all others. -/
theorem steady_bounds_bins {K : ℕ} (hK : 5 ≤ K) :
    (blockTenths K).map (blockBounds [(K, 1000000)] 1000000 663) =
      (1080737304443520000000000, 1173874535556480000000000) ::
        List.replicate (K - 4) (1124535501443520000000000, 1130076338556480000000000) := by
  have amp : ∀ i < K, ampAt [(K, 1000000)] i = 1000000 := fun i hi => by simp [ampAt, hi]
  have lp : ∀ i < K, leap (ampAt [(K, 1000000)]) i = if i = 0 then 1000000 else 0 := fun i hi => by
    unfold leap
    rw [amp i hi]
    split_ifs with h0
    · rfl
    · rw [amp _ (by omega)]
  obtain ⟨n, rfl⟩ : ∃ n, K = n + 5 := ⟨K - 5, by omega⟩
  have hks : blockTenths (n + 5) = (List.range (n + 2)).map (4 + ·) := by
    unfold blockTenths
    rw [show n + 5 + 1 = 4 + (n + 2) by omega, List.range_add, List.filter_append, List.filter_eq_nil_iff.2, List.nil_append,
      List.filter_eq_self.2]
    · intro x hx
      simp at hx ⊢
      omega
    · intro x hx
      simp at hx ⊢
      omega
  rw [hks, List.range_succ_eq_map, List.map_cons, List.map_cons, List.map_map, List.map_map]
  have e4 : ∀ (f : ℕ → ℕ) k, sumOver f k 4 = f k + f (k + 1) + f (k + 2) + f (k + 3) := fun f k => by
    simp [sumOver, List.range_succ]
    omega
  have m4 : ∀ (f : ℕ → ℕ) k, maxOver f k 4 = max (f k) (max (f (k + 1)) (max (f (k + 2)) (max (f (k + 3)) 0))) := fun f k => by
    simp [maxOver, List.range_succ]
  have bound : ∀ k < n + 2, blockBounds [(n + 5, 1000000)] 1000000 663 (4 + k) =
      if k = 0 then (1080737304443520000000000, 1173874535556480000000000)
      else (1124535501443520000000000, 1130076338556480000000000) := by
    intro k hk
    unfold blockBounds low high slack
    rw [Nat.add_sub_cancel_left]
    simp only [e4, m4]
    rw [amp k (by omega), amp (k + 1) (by omega), amp (k + 2) (by omega), amp (k + 3) (by omega), lp k (by omega),
      lp (k + 1) (by omega), lp (k + 2) (by omega), lp (k + 3) (by omega)]
    rw [if_neg (Nat.succ_ne_zero k), if_neg (Nat.succ_ne_zero (k + 1)), if_neg (Nat.succ_ne_zero (k + 2))]
    split_ifs <;> rfl
  refine congrArg₂ List.cons ?_ ?_
  · exact bound 0 (by omega)
  · rw [show n + 5 - 4 = n + 1 by omega]
    refine List.eq_replicate_iff.2 ⟨by simp, ?_⟩
    intro x hx
    obtain ⟨k, hk, rfl⟩ := List.mem_map.1 hx
    have hk := List.mem_range.1 hk
    simp only [Function.comp]
    rw [bound (k + 1) (by omega), if_neg (by omega)]

theorem steady_filter_bins {K : ℕ} (hK : 20 ≤ K) :
    ((blockTenths K).map (blockBounds [(K, 1000000)] 1000000 663)).filter (fun x => passes 10 (K - 3)
      (1173874535556480000000000 + (K - 4) * 1130076338556480000000000) x.1) =
      (blockTenths K).map (blockBounds [(K, 1000000)] 1000000 663) := by
  have hb := steady_bounds_bins (K := K) (by omega)
  refine List.filter_eq_self.2 fun x hx => ?_
  rw [hb] at hx
  have : 1080737304443520000000000 ≤ x.1 := by
    rcases List.mem_cons.1 hx with rfl | h
    · exact le_rfl
    · rw [List.eq_of_mem_replicate h]
      norm_num
  unfold passes
  refine decide_eq_true ?_
  have h2 := Nat.mul_le_mul_left (10 * (K - 3)) this
  omega

theorem steady_split_bins {K : ℕ} (hK : 20 ≤ K) :
    Split 10 ((blockTenths K).map (blockBounds [(K, 1000000)] 1000000 663)) (K - 3)
      (1080737304443520000000000 + (K - 4) * 1124535501443520000000000)
      (1173874535556480000000000 + (K - 4) * 1130076338556480000000000) := by
  have hb := steady_bounds_bins (K := K) (by omega)
  refine ⟨?_, ?_, ?_, fun x hx => ?_⟩
  · rw [hb]; simp; omega
  · rw [hb]; simp
  · rw [hb]; simp
  · rw [← steady_filter_bins hK] at hx
    rw [(List.mem_filter.1 hx).2, Bool.true_or]

theorem steady_floor_bins {K : ℕ} (hK : 20 ≤ K) :
    ∀ j ∈ blockTenths K, (1 / 2 : ℝ) * (1920000 * 10 ^ 18) ≤ (blockBounds [(K, 1000000)] 1000000 663 j).1 := by
  intro j hj
  have hx : blockBounds [(K, 1000000)] 1000000 663 j ∈ (blockTenths K).map (blockBounds [(K, 1000000)] 1000000 663) :=
    List.mem_map.2 ⟨j, hj, rfl⟩
  rw [steady_bounds_bins (K := K) (by omega)] at hx
  rcases List.mem_cons.1 hx with h | h
  · rw [h]; norm_num
  · rw [List.eq_of_mem_replicate h]; norm_num

theorem steady_ceil_bins {K : ℕ} (hK : 20 ≤ K) :
    ∀ j ∈ blockTenths K, (blockBounds [(K, 1000000)] 1000000 663 j).2 ≤ (1 : ℝ) * (1920000 * 10 ^ 18) := by
  intro j hj
  have hx : blockBounds [(K, 1000000)] 1000000 663 j ∈ (blockTenths K).map (blockBounds [(K, 1000000)] 1000000 663) :=
    List.mem_map.2 ⟨j, hj, rfl⟩
  rw [steady_bounds_bins (K := K) (by omega)] at hx
  rcases List.mem_cons.1 hx with h | h
  · rw [h]; norm_num
  · rw [List.eq_of_mem_replicate h]; norm_num

theorem steady_mean_bins {K : ℕ} (hK : 20 ≤ K) :
    let g := ((blockTenths K).map (blockBounds [(K, 1000000)] 1000000 663)).filter fun x => passes 10 (K - 3)
      (1173874535556480000000000 + (K - 4) * 1130076338556480000000000) x.1
    (584 / 1000 : ℝ) * (1920000 * 10 ^ 18 * g.length) ≤ ((g.map Prod.fst).sum : ℕ) ∧
      (((g.map Prod.snd).sum : ℕ) : ℝ) ≤ 590 / 1000 * (1920000 * 10 ^ 18 * g.length) ∧ g ≠ [] := by
  dsimp only
  rw [steady_filter_bins hK, steady_bounds_bins (K := K) (by omega)]
  obtain ⟨n, rfl⟩ : ∃ n, K = n + 20 := ⟨K - 20, by omega⟩
  rw [show n + 20 - 4 = n + 16 by omega]
  have n0 : (0 : ℝ) ≤ n := Nat.cast_nonneg n
  refine ⟨?_, ?_, by simp⟩
  · simp
    nlinarith
  · simp
    nlinarith

theorem steady_measured_bins {K : ℕ} (hK : 20 ≤ K) (hK' : K ≤ 10 ^ 6) :
    BinProgramme [(K, 0)] [(K, 1000000)] K 1000000 (K - 3)
      (1080737304443520000000000 + (K - 4) * 1124535501443520000000000)
      (1173874535556480000000000 + (K - 4) * 1130076338556480000000000) (1 / 2) (584 / 1000) (590 / 1000) where
  rounded := steady_rounded K
  quiet := by simp
  tenths := steady_tenths K
  short := by omega
  long := hK'
  leaps := steady_leaps K
  split := steady_split_bins hK
  least := by norm_num
  most := by norm_num
  floor := steady_floor_bins hK
  ceil := steady_ceil_bins hK
  first := by norm_num
  order := by norm_num
  mean := steady_mean_bins hK

/-- **C75.** Cases 1 and 2, at every level and for every duration: a stereo tone of 1 kHz of level `L` dBFS, for two seconds
or more, has an integrated loudness of `L` LUFS, to 0.1 LU. -/
theorem C75_steady (hm : GoodLibm m) {mode : Mode} (hI : mode.contains Mode.I = true)
    (hH : mode.contains Mode.HISTOGRAM = true) {e0 e : Ebu F64 F32}
    (hnew : Ebu.new (ieeeEnv m bs t) 2 48000 mode = .done (.ok e0)) {ops : List (Op F64 F32)} (hops : ∀ op ∈ ops, Feed op)
    (hrun : runOps (ieeeEnv m bs t) e0 ops = .done e) {K : ℕ} (hK : 20 ≤ K) (hK' : K ≤ 10 ^ 6) {L : ℝ} (hL : -60 ≤ L)
    (hL' : L ≤ 0) {φ : ℕ → ℝ} (hp : Plays (1 / 20000) [(K, 0)] 2 (fun _ => L) φ (heard (ieeeEnv m bs t) 2 ops)) :
    ∃ v : F64, ask (ieeeEnv m bs t) e .loudnessGlobal = .done (.ok v) ∧ v.Finite ∧ |v.value - L| ≤ 1 / 10 := by
  obtain ⟨l1, l2, l3, l4⟩ := level_bounds hL hL'
  exact stereo_tones_bins hm hI hH hnew hops hrun hL hL' hp (steady_measured_bins hK hK') (by linarith) (by linarith) (by linarith)

/-! ## Case 3 -/

def case3_bins : List (ℕ × ℕ) := (blockTenths 800).map (blockBounds [(100, 223872), (600, 1000000), (100, 223872)] 1776128 663)

set_option maxRecDepth 100000 in
theorem case3_bins_split : Split 10 case3_bins 797 685486184210281750822912000 689541555765641592209408000 :=
  ⟨by decide +kernel, by decide +kernel, by decide +kernel, by decide +kernel⟩

set_option maxRecDepth 100000 in
theorem case3_bins_floor : ∀ x ∈ case3_bins, 35000000000000000000000 ≤ x.1 := by decide +kernel

set_option maxRecDepth 100000 in
theorem case3_bins_gated : let g := case3_bins.filter fun x => passes 10 797 689541555765641592209408000 x.1
    g.length = 603 ∧ (g.map Prod.fst).sum = 674666357857913915084800000 ∧ (g.map Prod.snd).sum = 678439740598572227194880000 := by
  decide +kernel

set_option maxRecDepth 100000 in
theorem case3_bins_ceil : ∀ x ∈ case3_bins, x.2 ≤ 1920000000000000000000000 := by decide +kernel

theorem case3_bins_mean : let g := ((blockTenths 800).map (blockBounds [(100, 223872), (600, 1000000), (100, 223872)] 1776128 663)).filter fun x => passes 10 797 689541555765641592209408000 x.1
    (5825 / 10000 : ℝ) * (1920000 * 10 ^ 18 * g.length) ≤ ((g.map Prod.fst).sum : ℕ) ∧
      (((g.map Prod.snd).sum : ℕ) : ℝ) ≤ 586 / 1000 * (1920000 * 10 ^ 18 * g.length) ∧ g ≠ [] :=
  mean_of case3_bins_gated (by norm_num) (by norm_num) (by norm_num)

theorem case3_bins_measured : BinProgramme [(100, -13), (600, 0), (100, -13)] [(100, 223872), (600, 1000000), (100, 223872)] 800 1776128 797 685486184210281750822912000 689541555765641592209408000 (1 / 100) (5825 / 10000) (586 / 1000) where
  rounded := case3_rounded
  quiet := by simp
  tenths := rfl
  short := by norm_num
  long := by norm_num
  leaps := case3_leaps
  split := case3_bins_split
  least := by norm_num
  most := by norm_num
  floor := by
    intro j hj
    have : ((35000000000000000000000 : ℕ) : ℝ) ≤ _ := Nat.cast_le.2 (case3_bins_floor _ (List.mem_map.2 ⟨j, hj, rfl⟩))
    refine le_trans ?_ this
    norm_num
  ceil := by
    intro j hj
    have : _ ≤ ((1920000000000000000000000 : ℕ) : ℝ) := Nat.cast_le.2 (case3_bins_ceil _ (List.mem_map.2 ⟨j, hj, rfl⟩))
    refine this.trans ?_
    norm_num
  first := by norm_num
  order := by norm_num
  mean := case3_bins_mean

/-- **C75.** Case 3: 10 s at -36 dBFS, 60 s at -23 dBFS, 10 s at -36 dBFS, in stereo; integrated loudness -23 LUFS, to
0.1 LU. The quiet parts are below the relative gate. -/
theorem C75_gated (hm : GoodLibm m) {mode : Mode} (hI : mode.contains Mode.I = true)
    (hH : mode.contains Mode.HISTOGRAM = true) {e0 e : Ebu F64 F32}
    (hnew : Ebu.new (ieeeEnv m bs t) 2 48000 mode = .done (.ok e0)) {ops : List (Op F64 F32)} (hops : ∀ op ∈ ops, Feed op)
    (hrun : runOps (ieeeEnv m bs t) e0 ops = .done e) {L : ℝ} (hL : -40 ≤ L) (hL' : L ≤ 0) {φ : ℕ → ℝ}
    (hp : Plays (1 / 20000) [(100, -13), (600, 0), (100, -13)] 2 (fun _ => L) φ (heard (ieeeEnv m bs t) 2 ops)) :
    ∃ v : F64, ask (ieeeEnv m bs t) e .loudnessGlobal = .done (.ok v) ∧ v.Finite ∧ |v.value - L| ≤ 1 / 10 := by
  obtain ⟨l1, l2, l3, l4⟩ := level_bounds (by linarith) hL'
  have l5 : 1 / 10 ^ 4 ≤ (10 : ℝ) ^ (L / 10) := by
    rw [show (1 : ℝ) / 10 ^ 4 = 10 ^ (-4 : ℝ) by rw [Real.rpow_neg (by norm_num), one_div]; norm_num]
    exact Real.rpow_le_rpow_of_exponent_le (by norm_num) (by linarith)
  exact stereo_tones_bins hm hI hH hnew hops hrun (by linarith) hL' hp case3_bins_measured (by linarith) (by linarith) (by linarith)

/-! ## Case 5 -/

def case5_bins : List (ℕ × ℕ) := (blockTenths 601).map (blockBounds [(200, 501187), (201, 1000000), (200, 501187)] 1498813 663)

set_option maxRecDepth 100000 in
theorem case5_bins_split : Split 10 case5_bins 598 337755243339809333182752000 340255683790301695222368000 :=
  ⟨by decide +kernel, by decide +kernel, by decide +kernel, by decide +kernel⟩

set_option maxRecDepth 100000 in
theorem case5_bins_floor : ∀ x ∈ case5_bins, 192000000000000000000000 ≤ x.1 := by decide +kernel

set_option maxRecDepth 100000 in
theorem case5_bins_gated : let g := case5_bins.filter fun x => passes 10 598 340255683790301695222368000 x.1
    g.length = 598 ∧ (g.map Prod.fst).sum = 337755243339809333182752000 ∧ (g.map Prod.snd).sum = 340255683790301695222368000 := by
  decide +kernel

set_option maxRecDepth 100000 in
theorem case5_bins_ceil : ∀ x ∈ case5_bins, x.2 ≤ 1920000000000000000000000 := by decide +kernel

theorem case5_bins_mean : let g := ((blockTenths 601).map (blockBounds [(200, 501187), (201, 1000000), (200, 501187)] 1498813 663)).filter fun x => passes 10 598 340255683790301695222368000 x.1
    (2941 / 10000 : ℝ) * (1920000 * 10 ^ 18 * g.length) ≤ ((g.map Prod.fst).sum : ℕ) ∧
      (((g.map Prod.snd).sum : ℕ) : ℝ) ≤ 2964 / 10000 * (1920000 * 10 ^ 18 * g.length) ∧ g ≠ [] :=
  mean_of case5_bins_gated (by norm_num) (by norm_num) (by norm_num)

theorem case5_bins_measured : BinProgramme [(200, -6), (201, 0), (200, -6)] [(200, 501187), (201, 1000000), (200, 501187)] 601 1498813 598 337755243339809333182752000 340255683790301695222368000 (1 / 10) (2941 / 10000) (2964 / 10000) where
  rounded := case5_rounded
  quiet := by simp
  tenths := rfl
  short := by norm_num
  long := by norm_num
  leaps := case5_leaps
  split := case5_bins_split
  least := by norm_num
  most := by norm_num
  floor := by
    intro j hj
    have : ((192000000000000000000000 : ℕ) : ℝ) ≤ _ := Nat.cast_le.2 (case5_bins_floor _ (List.mem_map.2 ⟨j, hj, rfl⟩))
    refine le_trans ?_ this
    norm_num
  ceil := by
    intro j hj
    have : _ ≤ ((1920000000000000000000000 : ℕ) : ℝ) := Nat.cast_le.2 (case5_bins_ceil _ (List.mem_map.2 ⟨j, hj, rfl⟩))
    refine this.trans ?_
    norm_num
  first := by norm_num
  order := by norm_num
  mean := case5_bins_mean

/-- **C75.** Case 5: 20 s at -26 dBFS, 20.1 s at -20 dBFS, 20 s at -26 dBFS, in stereo; integrated loudness -23 LUFS, to
0.1 LU. -/
theorem C75_mixed (hm : GoodLibm m) {mode : Mode} (hI : mode.contains Mode.I = true)
    (hH : mode.contains Mode.HISTOGRAM = true) {e0 e : Ebu F64 F32}
    (hnew : Ebu.new (ieeeEnv m bs t) 2 48000 mode = .done (.ok e0)) {ops : List (Op F64 F32)} (hops : ∀ op ∈ ops, Feed op)
    (hrun : runOps (ieeeEnv m bs t) e0 ops = .done e) {L : ℝ} (hL : -40 ≤ L) (hL' : L ≤ 0) {φ : ℕ → ℝ}
    (hp : Plays (1 / 20000) [(200, -6), (201, 0), (200, -6)] 2 (fun _ => L) φ (heard (ieeeEnv m bs t) 2 ops)) :
    ∃ v : F64, ask (ieeeEnv m bs t) e .loudnessGlobal = .done (.ok v) ∧ v.Finite ∧ |v.value - (L - 3)| ≤ 1 / 10 := by
  obtain ⟨l1, l2, l3, l4⟩ := level_bounds (by linarith) hL'
  have l5 : 1 / 10 ^ 4 ≤ (10 : ℝ) ^ (L / 10) := by
    rw [show (1 : ℝ) / 10 ^ 4 = 10 ^ (-4 : ℝ) by rw [Real.rpow_neg (by norm_num), one_div]; norm_num]
    exact Real.rpow_le_rpow_of_exponent_le (by norm_num) (by linarith)
  have h3 : |(5011872 / 10 ^ 7 : ℝ) - (10 : ℝ) ^ (-3 / 10 : ℝ)| ≤ 1 / 10 ^ 6 :=
    att_near 3 10 (by norm_num) (by norm_num) (by norm_num) (by norm_num) (by norm_num)
  have e3 : (10 : ℝ) ^ ((L - 3) / 10) = (10 : ℝ) ^ (-3 / 10 : ℝ) * (10 : ℝ) ^ (L / 10) := by
    rw [← Real.rpow_add (by norm_num)]
    congr 1
    ring
  have h3 := abs_le.1 h3
  have hP : 0 < (10 : ℝ) ^ (L / 10) := by positivity
  refine stereo_tones_bins hm hI hH hnew hops hrun (by linarith) hL' hp case5_bins_measured (by linarith) ?_ ?_
  · rw [e3]
    generalize (10 : ℝ) ^ (-3 / 10 : ℝ) = a at *
    have : 1161 / 1000 * a ≤ 2 * (2941 / 10000) := by linarith [h3.1]
    nlinarith
  · rw [e3]
    generalize (10 : ℝ) ^ (-3 / 10 : ℝ) = a at *
    have : 2 * (2964 / 10000) ≤ 1184 / 1000 * a := by linarith [h3.2]
    nlinarith

/-! ## Case 6 -/

/-- **C75.** Case 6: five channels, left and right 4 dB and the surrounds 6 dB below the centre; the integrated loudness is
1 LU above the level of the centre, to 0.1 LU. (In the specification the centre is at -24 dBFS, for 20 s.) -/
theorem C75_surround (hm : GoodLibm m) {mode : Mode} (hI : mode.contains Mode.I = true)
    (hH : mode.contains Mode.HISTOGRAM = true) {e0 e : Ebu F64 F32}
    (hnew : Ebu.new (ieeeEnv m bs t) 5 48000 mode = .done (.ok e0)) {ops : List (Op F64 F32)} (hops : ∀ op ∈ ops, Feed op)
    (hrun : runOps (ieeeEnv m bs t) e0 ops = .done e) {K : ℕ} (hK : 20 ≤ K) (hK' : K ≤ 10 ^ 6) {L : ℝ} (hL : -60 ≤ L)
    (hL' : L ≤ 0) {φ : ℕ → ℝ} (hp : Plays (1 / 20000) [(K, 0)] 5 (fiveLevels L) φ (heard (ieeeEnv m bs t) 5 ops)) :
    ∃ v : F64, ask (ieeeEnv m bs t) e .loudnessGlobal = .done (.ok v) ∧ v.Finite ∧ |v.value - (L + 1)| ≤ 1 / 10 := by
  obtain ⟨l1, l2, l3, l4⟩ := level_bounds hL hL'
  have a1 : |(316228 / 10 ^ 6 : ℝ) - (10 : ℝ) ^ (-1 / 2 : ℝ)| ≤ 1 / 10 ^ 6 :=
    att_near 1 2 (by norm_num) (by norm_num) (by norm_num) (by norm_num) (by norm_num)
  have a2 : |(794328 / 10 ^ 6 : ℝ) - (10 : ℝ) ^ (-1 / 10 : ℝ)| ≤ 1 / 10 ^ 6 :=
    att_near 1 10 (by norm_num) (by norm_num) (by norm_num) (by norm_num) (by norm_num)
  have a3 : |(199526 / 10 ^ 6 : ℝ) - (10 : ℝ) ^ (-7 / 10 : ℝ)| ≤ 1 / 10 ^ 6 :=
    att_near 7 10 (by norm_num) (by norm_num) (by norm_num) (by norm_num) (by norm_num)
  have a1 := abs_le.1 a1
  have a2 := abs_le.1 a2
  have a3 := abs_le.1 a3
  have e1 : (10 : ℝ) ^ (L / 10) = (10 : ℝ) ^ (-1 / 10 : ℝ) * (10 : ℝ) ^ ((L + 1) / 10) := by
    rw [← Real.rpow_add (by norm_num)]
    congr 1
    ring
  have p1 : (10 : ℝ) ^ (L / 10) ≤ (10 : ℝ) ^ ((L + 1) / 10) :=
    Real.rpow_le_rpow_of_exponent_le (by norm_num) (by linarith)
  have hg : ∀ c, fiveLevels L c ≤ L := by
    intro c
    unfold fiveLevels
    rcases c with - | - | - | - | - | c <;> simp
  refine measured_tones_bins hm hI hH hnew hops hrun hp (steady_measured_bins hK hK') (X := 1001 / 1000 * (10 : ℝ) ^ (L / 20))
    (by norm_num; linarith) (by linarith) (fun c _ => ?_) (five_power L) ?_ ?_ ?_ ?_ ?_
  · refine mul_le_mul_of_nonneg_left (Real.rpow_le_rpow_of_exponent_le (by norm_num) ?_) (by norm_num)
    linarith [hg c]
  · rw [five_weight, mul_pow, l3, e1]
    generalize (10 : ℝ) ^ (-1 / 2 : ℝ) = x at *
    generalize (10 : ℝ) ^ (-1 / 10 : ℝ) = y at *
    generalize (10 : ℝ) ^ (-7 / 10 : ℝ) = z at *
    have : 582 / 100 * (1001 / 1000) ^ 2 * y ≤ 3 * (2 * x + y + 282 / 100 * z) := by norm_num at *; linarith
    have P0 : 0 < (10 : ℝ) ^ ((L + 1) / 10) := by positivity
    nlinarith
  · generalize (10 : ℝ) ^ (-1 / 2 : ℝ) = x at *
    generalize (10 : ℝ) ^ (-1 / 10 : ℝ) = y at *
    generalize (10 : ℝ) ^ (-7 / 10 : ℝ) = z at *
    have : 1 ≤ 2 * x + y + 282 / 100 * z := by norm_num at *; linarith
    have P0 : 0 < (10 : ℝ) ^ ((L + 1) / 10) := by positivity
    nlinarith
  · have p2 : (10 : ℝ) ^ ((L + 1) / 10) ≤ 10 := by
      calc (10 : ℝ) ^ ((L + 1) / 10) ≤ 10 ^ (1 : ℝ) := Real.rpow_le_rpow_of_exponent_le (by norm_num) (by linarith)
        _ = 10 := Real.rpow_one _
    have P0 : 0 < (10 : ℝ) ^ ((L + 1) / 10) := by positivity
    generalize (10 : ℝ) ^ (-1 / 2 : ℝ) = x at *
    generalize (10 : ℝ) ^ (-1 / 10 : ℝ) = y at *
    generalize (10 : ℝ) ^ (-7 / 10 : ℝ) = z at *
    have : 2 * x + y + 282 / 100 * z ≤ 3 := by norm_num at *; linarith
    nlinarith
  · generalize (10 : ℝ) ^ (-1 / 2 : ℝ) = x at *
    generalize (10 : ℝ) ^ (-1 / 10 : ℝ) = y at *
    generalize (10 : ℝ) ^ (-7 / 10 : ℝ) = z at *
    have : 1161 / 1000 ≤ (2 * x + y + 282 / 100 * z) * (584 / 1000) := by norm_num at *; linarith
    have P0 : 0 < (10 : ℝ) ^ ((L + 1) / 10) := by positivity
    nlinarith
  · generalize (10 : ℝ) ^ (-1 / 2 : ℝ) = x at *
    generalize (10 : ℝ) ^ (-1 / 10 : ℝ) = y at *
    generalize (10 : ℝ) ^ (-7 / 10 : ℝ) = z at *
    have : (2 * x + y + 282 / 100 * z) * (590 / 1000) ≤ 1184 / 1000 := by norm_num at *; linarith
    have P0 : 0 < (10 : ℝ) ^ ((L + 1) / 10) := by positivity
    nlinarith

/-! ## The loudness range -/

/-- The loudness range of a programme of tones, in histogram mode. -/
theorem stereo_range_bins (hm : GoodLibm m) (hu' : t.usizeMax ≤ 2 ^ 64) {mode : Mode}
    (hI : mode.contains Mode.LRA = true) (hH : mode.contains Mode.HISTOGRAM = true) {e0 e : Ebu F64 F32}
    (hnew : Ebu.new (ieeeEnv m bs t) 2 48000 mode = .done (.ok e0)) {ops : List (Op F64 F32)} (hops : ∀ op ∈ ops, Feed op)
    (hrun : runOps (ieeeEnv m bs t) e0 ops = .done e) {segs : List (ℕ × ℝ)} {amps : List (ℕ × ℕ)} {L : ℝ} (hL : -30 ≤ L)
    (hL' : L ≤ 0) {φ : ℕ → ℝ} (hp : Plays (1 / 6000) segs 2 (fun _ => L) φ (heard (ieeeEnv m bs t) 2 ops))
    {K V n sl sh a1 a2 b1 b2 : ℕ} {ρ1 ρ2 : ℝ} (hM : RangeProgramme segs amps K V n sl sh a1 a2 b1 b2 ρ1 ρ2)
    (hsh : sh ≤ 288000000000000000000000000) {R : ℝ}
    (h1 : (10 : ℝ) ^ ((R - 12 / 25) / 10) ≤ ρ1) (h2 : ρ2 ≤ (10 : ℝ) ^ ((R + 12 / 25) / 10)) :
    ∃ v : F64, ask (ieeeEnv m bs t) e .loudnessRange = .done (.ok v) ∧ v.Finite ∧ |v.value - R| ≤ 13 / 20 := by
  obtain ⟨f1, f2, f3, f4, f5, f6, f7⟩ := fresh_bins hnew hH
  obtain ⟨l1, l2, l3, l4⟩ := level_bounds (by linarith) hL'
  have l6 : (10 : ℝ) ^ (L / 10) ≤ 1 := Real.rpow_le_one_of_one_le_of_nonpos (by norm_num) (by linarith)
  have l5 : 1 / 10 ^ 3 ≤ (10 : ℝ) ^ (L / 10) := by
    rw [show (1 : ℝ) / 10 ^ 3 = 10 ^ (-3 : ℝ) by rw [Real.rpow_neg (by norm_num), one_div]; norm_num]
    exact Real.rpow_le_rpow_of_exponent_le (by norm_num) (by linarith)
  obtain ⟨m1, m2, rfl, m4, m5, m6, m7, m8, m9, m10, ⟨m11, m12⟩, m13, m14⟩ := hM
  obtain ⟨v, hv1, hv2, hv3, hv4⟩ := tones_range_bins (bs := bs) (t := t) (X := 1001 / 1000 * (10 : ℝ) ^ (L / 20)) (ε := 2180)
    (gain := fun _ => L) (μ := 38 / 10 ^ 5) (M := 20)
    le_rfl hm.log hm.elem hm.hundredth hu' (Started.new hnew) f1 f7 (by rw [f4]; exact hI) f6 no_blocks hops hrun
    (by rw [f2]; exact hp) m1 (by norm_num) m2
    (by omega) m4 (by norm_num; linarith) (by norm_num; linarith)
    (fun c _ => mul_le_mul_of_nonneg_right (by norm_num) (by positivity))
    (by
      rw [f3, stereo_weight, stereo_power, mul_pow, l3]
      norm_num
      linarith) m6 (by norm_num) m7 (by norm_num) (by norm_num) (by rw [f3, stereo_power]; norm_num at l5 ⊢; linarith)
    (fun j hj => by
      have : ((5472000000000000000000 : ℕ) : ℝ) ≤ _ := Nat.cast_le.2 (m8 _ (List.mem_map.2 ⟨j, hj, rfl⟩))
      refine le_trans ?_ this
      norm_num)
    (fun j hj => by
      have h3 := List.le_sum_of_mem (List.mem_map.2 ⟨_, List.mem_map.2 ⟨j, hj, rfl⟩, rfl⟩ :
        (shortBounds amps V 2180 j).2 ∈ ((shortTenths (Spec.tenths amps)).map (shortBounds amps V 2180)).map Prod.snd)
      rw [m7.high] at h3
      have : _ ≤ ((288000000000000000000000000 : ℕ) : ℝ) := Nat.cast_le.2 (h3.trans hsh)
      refine this.trans ?_
      norm_num)
    (by rw [f3, stereo_power]; linarith) (by rw [f3, stereo_power]; linarith) m9 (by
      have : ((72000000000000000000000 : ℕ) : ℝ) ≤ _ := Nat.cast_le.2 m10
      refine le_trans ?_ this
      norm_num) m11 m12 m13 m14
  refine ⟨v, hv1, hv2, ?_⟩
  have g1 := (Real.le_logb_iff_rpow_le (by norm_num) m11).2 h1
  have g2 := (Real.logb_le_iff_le_rpow (by norm_num) m12).2 h2
  have hb : halfBin = 1 / 20 + 1 / 10 ^ 9 := rfl
  rw [hb] at hv3 hv4
  rw [abs_le]
  constructor <;> linarith

/-- **C75.** The four cases of EBU Tech 3342 (10, 5, 20 and 15 LU), at every reference level. -/
theorem C75_range (hm : GoodLibm m) (hu' : t.usizeMax ≤ 2 ^ 64) {mode : Mode}
    (hI : mode.contains Mode.LRA = true) (hH : mode.contains Mode.HISTOGRAM = true) {e0 e : Ebu F64 F32}
    (hnew : Ebu.new (ieeeEnv m bs t) 2 48000 mode = .done (.ok e0)) {ops : List (Op F64 F32)} (hops : ∀ op ∈ ops, Feed op)
    (hrun : runOps (ieeeEnv m bs t) e0 ops = .done e) {L : ℝ} (hL : -30 ≤ L) (hL' : L ≤ 0) {φ : ℕ → ℝ} {segs : List (ℕ × ℝ)} {R : ℝ}
    (hc : (segs = [(200, 0), (200, -10)] ∧ R = 10) ∨ (segs = [(200, -5), (200, 0)] ∧ R = 5) ∨
      (segs = [(200, -20), (200, 0)] ∧ R = 20) ∨ (segs = [(200, -30), (200, -15), (200, 0), (200, -15), (200, -30)] ∧ R = 15))
    (hp : Plays (1 / 6000) segs 2 (fun _ => L) φ (heard (ieeeEnv m bs t) 2 ops)) :
    ∃ v : F64, ask (ieeeEnv m bs t) e .loudnessRange = .done (.ok v) ∧ v.Finite ∧ |v.value - R| ≤ 13 / 20 := by
  rcases hc with ⟨rfl, rfl⟩ | ⟨rfl, rfl⟩ | ⟨rfl, rfl⟩ | ⟨rfl, rfl⟩
  · obtain ⟨h1, h2⟩ := near_ratio (R := 10) (ρ1 := 9) (ρ2 := 111 / 10) 20 21 22 21 (by norm_num) (by norm_num) (by norm_num) (by norm_num)
      (by norm_num) (by norm_num) (by norm_num) (by norm_num)
    exact stereo_range_bins hm hu' hI hH hnew hops hrun hL hL' hp range1_programme (by norm_num) h1 h2
  · obtain ⟨h1, h2⟩ := near_ratio (R := 5) (ρ1 := 286 / 100) (ρ2 := 35 / 10) 5 11 6 11 (by norm_num) (by norm_num) (by norm_num) (by norm_num)
      (by norm_num) (by norm_num) (by norm_num) (by norm_num)
    exact stereo_range_bins hm hu' hI hH hnew hops hrun hL hL' hp range2_programme (by norm_num) h1 h2
  · obtain ⟨h1, h2⟩ := near_ratio (R := 20) (ρ1 := 90) (ρ2 := 111) 41 21 43 21 (by norm_num) (by norm_num) (by norm_num) (by norm_num)
      (by norm_num) (by norm_num) (by norm_num) (by norm_num)
    exact stereo_range_bins hm hu' hI hH hnew hops hrun hL hL' hp range3_programme (by norm_num) h1 h2
  · obtain ⟨h1, h2⟩ := near_ratio (R := 15) (ρ1 := 286 / 10) (ρ2 := 35) 16 11 17 11 (by norm_num) (by norm_num) (by norm_num) (by norm_num)
      (by norm_num) (by norm_num) (by norm_num) (by norm_num)
    exact stereo_range_bins hm hu' hI hH hnew hops hrun hL hL' hp range4_programme (by norm_num) h1 h2

/-! ## The files -/

/-- The file is a programme of tones. -/
theorem file24_plays {segs : List (ℕ × ℝ)} {channels : ℕ} (hc : 0 < channels) {gain φ : ℕ → ℝ} {tol : ℝ}
    (hs : ∀ s ∈ segs, s.2 ≤ 0) (hg : ∀ c < channels, gain c ≤ -1 ∧ 1 / 16777216 ≤ tol * (10 : ℝ) ^ (gain c / 20))
    {parts : List (List (List Int32))} (hp : parts.flatten = file24 segs channels gain φ) :
    Plays tol segs channels gain φ
      (heard (ieeeEnv m bs t) channels (parts.map fun fs => .addFrames (.i32 fs.flatten))) := by
  have hl : ∀ fs ∈ parts, ∀ f ∈ fs, f.length = channels := by
    intro fs hfs f hf
    have : f ∈ parts.flatten := List.mem_flatten.2 ⟨fs, hfs, hf⟩
    rw [hp] at this
    obtain ⟨n, -, rfl⟩ := List.mem_map.1 this
    simp
  rw [heard_frames32 channels hc parts hl, hp]
  refine ⟨by simp [file24], ?_, ?_⟩
  · intro ev hev
    obtain ⟨f, hf, rfl⟩ := List.mem_map.1 hev
    obtain ⟨n, -, rfl⟩ := List.mem_map.1 hf
    simp
  · intro n hn c hc
    simp only [file24, List.getElem_map, List.getElem_range, List.length_map, List.length_range] at hc ⊢
    obtain ⟨g1, g2⟩ := hg c hc
    have hv := long_value (m := m) (bs := bs) (t := t) (Int32.ofInt (256 * round (8388608 *
      ((10 : ℝ) ^ ((levelAt segs (n / 4800) + gain c) / 20) * Real.sin (2 * Real.pi * 1000 * (n / 48000) + φ c)))))
    refine ⟨hv.1, ?_⟩
    rw [hv.2]
    refine (long_round ?_).trans g2
    have l0 := levelAt_le le_rfl hs (n / 4800)
    have a1 : (10 : ℝ) ^ ((levelAt segs (n / 4800) + gain c) / 20) ≤ 99 / 100 := by
      have h1 : (10 : ℝ) ^ ((levelAt segs (n / 4800) + gain c) / 20) ≤ (10 : ℝ) ^ (-(1 / 20 : ℝ)) :=
        Real.rpow_le_rpow_of_exponent_le (by norm_num) (by linarith)
      refine h1.trans ?_
      rw [Real.rpow_neg (by norm_num), inv_le_comm₀ (by positivity) (by norm_num)]
      rw [show (1 / 20 : ℝ) = (20 : ℝ)⁻¹ by norm_num, Real.le_rpow_inv_iff_of_pos (by norm_num) (by norm_num) (by norm_num)]
      rw [show (20 : ℝ) = ((20 : ℕ) : ℝ) by norm_num, Real.rpow_natCast]
      norm_num
    rw [abs_mul, abs_of_pos (by positivity)]
    have := Real.abs_sin_le_one (2 * Real.pi * 1000 * (n / 48000) + φ c)
    have a0 : (0 : ℝ) < (10 : ℝ) ^ ((levelAt segs (n / 4800) + gain c) / 20) := by positivity
    nlinarith

/-- **C75.** The 24-bit files of the cases 1, 3 and 5 of EBU Tech 3341, whatever the phases of the two channels, read in any number of
calls of any sizes, and measured in histogram mode: -23 LUFS, to 0.1 LU. -/
theorem C75_files (hm : GoodLibm m) (hu : 2 ^ 64 - 1 ≤ t.usizeMax) (φ : ℕ → ℝ) {segs : List (ℕ × ℝ)} {L : ℝ}
    (hc : (segs = [(200, 0)] ∧ L = -23) ∨ (segs = [(100, -13), (600, 0), (100, -13)] ∧ L = -23) ∨
      (segs = [(200, -6), (201, 0), (200, -6)] ∧ L = -20)) {parts : List (List (List Int32))}
    (hp : parts.flatten = file24 segs 2 (fun _ => L) φ) :
    ∃ (e0 e : Ebu F64 F32) (v : F64), Ebu.new (ieeeEnv m bs t) 2 48000 (Mode.I ||| Mode.HISTOGRAM) = .done (.ok e0) ∧
      runOps (ieeeEnv m bs t) e0 (parts.map fun fs => .addFrames (.i32 fs.flatten)) = .done e ∧
      ask (ieeeEnv m bs t) e .loudnessGlobal = .done (.ok v) ∧ v.Finite ∧ |v.value + 23| ≤ 1 / 10 := by
  obtain ⟨e0, h0⟩ := (C01_new_64 (ieeeEnv m bs t) hu 2 48000 (Mode.I ||| Mode.HISTOGRAM)).1.2 ⟨by unfold ValidArgs; decide, by decide⟩
  obtain ⟨e, h1⟩ := C09_plain hu h0 (by norm_num) (parts.map fun fs => .addFrames (.i32 fs.flatten)) (by
    intro op hop
    obtain ⟨fs, -, rfl⟩ := List.mem_map.1 hop
    trivial)
  have hf : ∀ op ∈ parts.map (fun fs => (.addFrames (.i32 fs.flatten) : Op F64 F32)), Feed op := by
    intro op hop
    obtain ⟨fs, -, rfl⟩ := List.mem_map.1 hop
    trivial
  have hI : (Mode.I ||| Mode.HISTOGRAM).contains Mode.I = true := by decide
  have hH : (Mode.I ||| Mode.HISTOGRAM).contains Mode.HISTOGRAM = true := by decide
  have g23 : (1 : ℝ) / 16777216 ≤ 1 / 20000 * (10 : ℝ) ^ (-23 / 20 : ℝ) := by
    have : (10 : ℝ) ^ (-2 : ℝ) ≤ (10 : ℝ) ^ (-23 / 20 : ℝ) := Real.rpow_le_rpow_of_exponent_le (by norm_num) (by norm_num)
    have e : (10 : ℝ) ^ (-2 : ℝ) = 1 / 100 := by rw [Real.rpow_neg (by norm_num), one_div]; norm_num
    rw [e] at this
    linarith
  have g20 : (1 : ℝ) / 16777216 ≤ 1 / 20000 * (10 : ℝ) ^ (-20 / 20 : ℝ) :=
    g23.trans (mul_le_mul_of_nonneg_left (Real.rpow_le_rpow_of_exponent_le (by norm_num) (by norm_num)) (by norm_num))
  refine ⟨e0, e, ?_⟩
  rcases hc with ⟨rfl, rfl⟩ | ⟨rfl, rfl⟩ | ⟨rfl, rfl⟩
  · obtain ⟨v, hv1, hv2, hv3⟩ := C75_steady hm hI hH h0 hf h1 (K := 200) (L := -23) (by norm_num) (by norm_num) (by norm_num) (by norm_num)
      (file24_plays (by norm_num) (by simp) (fun c _ => ⟨by norm_num, g23⟩) hp)
    exact ⟨v, h0, h1, hv1, hv2, by rwa [sub_neg_eq_add] at hv3⟩
  · obtain ⟨v, hv1, hv2, hv3⟩ := C75_gated hm hI hH h0 hf h1 (L := -23) (by norm_num) (by norm_num)
      (file24_plays (by norm_num) (by simp) (fun c _ => ⟨by norm_num, g23⟩) hp)
    exact ⟨v, h0, h1, hv1, hv2, by rwa [sub_neg_eq_add] at hv3⟩
  · obtain ⟨v, hv1, hv2, hv3⟩ := C75_mixed hm hI hH h0 hf h1 (L := -20) (by norm_num) (by norm_num)
      (file24_plays (by norm_num) (by simp) (fun c _ => ⟨by norm_num, g20⟩) hp)
    exact ⟨v, h0, h1, hv1, hv2, by rwa [show (-20 - 3 : ℝ) = -23 by norm_num, sub_neg_eq_add] at hv3⟩

/-- The file of case 3 read in one call, with the elementary functions of the earlier examples. -/
example (bs : BSearch) (h64 : 2 ^ 64 - 1 ≤ t.usizeMax) :
    ∃ (e0 e : Ebu F64 F32) (v : F64), Ebu.new (ieeeEnv Demo.libm57 bs t) 2 48000 (Mode.I ||| Mode.HISTOGRAM) = .done (.ok e0) ∧
      runOps (ieeeEnv Demo.libm57 bs t) e0 [.addFrames (.i32 (file24
        [(100, -13), (600, 0), (100, -13)] 2 (fun _ => -23) fun _ => 0).flatten)] = .done e ∧
      ask (ieeeEnv Demo.libm57 bs t) e .loudnessGlobal = .done (.ok v) ∧ v.Finite ∧ |v.value + 23| ≤ 1 / 10 :=
  C75_files Demo.good57 h64 (fun _ => 0) (.inr (.inl ⟨rfl, rfl⟩))
    (parts := [file24 [(100, -13), (600, 0), (100, -13)] 2 (fun _ => -23) fun _ => 0]) (by simp)

end Verif
