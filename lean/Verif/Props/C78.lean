import Verif.Proofs.RobustGate
import Verif.Props.C77
/-!
# C78: a tone among quieter ones

The integrated loudness of a tone that takes up most of a programme, whatever else there is in it at 13 dB less or lower: the
other parts are gated out, even if it is not known on which side of the absolute gate they are. Case 4 of EBU Tech 3341 is such
a programme, with parts at -72 and at -36 dBFS around a tone of -23 dBFS.
-/

namespace Verif
open Spec
variable {m : Libm F64} {bs : BSearch} {t : Target}

/-! ## The blocks that touch the tone -/

/-- How many of the four tenths of a second before tenth `j` are within the `d` tenths from `s` on. -/
def overlap (s d j : ℕ) : ℕ := ∑ p ∈ Finset.range 4, if s ≤ j - 4 + p ∧ j - 4 + p < s + d then 1 else 0

theorem sum_forty (f : ℕ → ℝ) : ∑ i ∈ Finset.range 40, f i = ∑ p ∈ Finset.range 4, ∑ q ∈ Finset.range 10, f (10 * p + q) := by
  simp only [Finset.sum_range_succ, Finset.sum_range_zero]
  norm_num
  ring

/-- Together the blocks contain each tenth of the tone four times. -/
theorem overlap_sum {s d : ℕ} (s3 : 3 ≤ s) : ∑ x ∈ Finset.range (d + 3), overlap s d (s + 1 + x) = 4 * d := by
  unfold overlap
  rw [Finset.sum_comm]
  have : ∀ p ∈ Finset.range 4, ∑ x ∈ Finset.range (d + 3), (if s ≤ s + 1 + x - 4 + p ∧ s + 1 + x - 4 + p < s + d then 1 else 0) = d := by
    intro p hp
    have hp := Finset.mem_range.1 hp
    rw [Finset.sum_ite, Finset.sum_const_zero, Nat.add_zero, Finset.sum_const, smul_eq_mul, Nat.mul_one]
    have : (Finset.range (d + 3)).filter (fun x => s ≤ s + 1 + x - 4 + p ∧ s + 1 + x - 4 + p < s + d) = Finset.Ico (3 - p) (3 - p + d) := by
      ext x
      simp only [Finset.mem_filter, Finset.mem_range, Finset.mem_Ico]
      omega
    rw [this, Nat.card_Ico]
    omega
  rw [Finset.sum_congr rfl this]
  simp

theorem overlap_le (s d j : ℕ) : overlap s d j ≤ 4 := by
  unfold overlap
  refine (Finset.sum_le_card_nsmul _ _ 1 fun p _ => ?_).trans (by simp)
  split <;> omega

theorem overlap_zero {s d j : ℕ} (h : overlap s d j = 0) {p : ℕ} (hp : p < 4) : ¬ (s ≤ j - 4 + p ∧ j - 4 + p < s + d) := by
  have := Finset.sum_eq_zero_iff.1 h p (Finset.mem_range.2 hp)
  intro hc
  rw [if_pos hc] at this
  omega

/-- The blocks that touch the tone. -/
theorem touching {s d K : ℕ} (s3 : 3 ≤ s) (hK : s + d + 3 ≤ K) (d0 : 0 < d) :
    ((blockTenths K).filter fun j => overlap s d j ≠ 0).Perm ((List.range (d + 3)).map (s + 1 + ·)) := by
  refine (List.perm_ext_iff_of_nodup ?_ ?_).2 fun j => ?_
  · exact (List.nodup_range.filter _).filter _
  · exact List.nodup_range.map fun a b h => by
      have : s + 1 + a = s + 1 + b := h
      omega
  · simp only [blockTenths, List.mem_filter, List.mem_range, List.mem_map, decide_eq_true_eq]
    constructor
    · rintro ⟨⟨h1, h2⟩, h3⟩
      unfold overlap at h3
      obtain ⟨p, hp, hp'⟩ := Finset.exists_ne_zero_of_sum_ne_zero h3
      have hp := Finset.mem_range.1 hp
      have : s ≤ j - 4 + p ∧ j - 4 + p < s + d := by
        by_contra hc
        exact hp' (if_neg hc)
      exact ⟨j - (s + 1), by omega, by omega⟩
    · rintro ⟨x, hx, rfl⟩
      refine ⟨⟨by omega, by omega⟩, fun h => ?_⟩
      have z := fun p hp => overlap_zero h (p := p) hp
      rcases Nat.lt_or_ge x 3 with h3 | h3
      · exact z (3 - x) (by omega) (by omega)
      · rcases Nat.lt_or_ge (x - 3) d with h4 | h4
        · exact z 0 (by omega) (by omega)
        · omega

section
variable {A : ℕ → ℝ} {a : ℝ} {s d K : ℕ} {φ : ℕ → ℝ} {evs : List (Event F64)}

/-- The powers of the blocks. -/
theorem foreground_power (bs : BSearch) (u : Nat) (h : Sounds (a / 4600) A (K * 10) 2 φ evs) (a0 : 0 ≤ a)
    (hA : ∀ i < K * 10, s ≤ i / 10 → i / 10 < s + d → A i = a) (hB : ∀ i < K * 10, i / 10 < s ∨ s + d ≤ i / 10 → |A i| ≤ 9 / 40 * a)
    (hV : ∑ i ∈ Finset.range (K * 10), |jump A i| ≤ 2 * a) {j : ℕ} (h4 : 4 ≤ j) (hj : j ≤ K) :
    let P := idealPower (defaultChannelMap 2) (4 * 4800) (j * 4800) (idealOuts bs u 48000 evs)
    2 * a ^ 2 * (587138 / 10 ^ 6 * (overlap s d j / 4) - 907 / 10 ^ 5) ≤ P ∧ P ≤ 2 * a ^ 2 * (597 / 1000) ∧
      (overlap s d j = 0 → P ≤ 2 * a ^ 2 * (322 / 10 ^ 4)) := by
  intro P
  have hall : ∀ i < K * 10, |A i| ≤ a := by
    intro i hi
    by_cases hc : s ≤ i / 10 ∧ i / 10 < s + d
    · rw [hA i hi hc.1 hc.2, abs_of_nonneg a0]
    · exact (hB i hi (by omega)).trans (by linarith)
  have V0 : ∀ k W : ℕ, k + W ≤ K * 10 → ∑ i ∈ Finset.range W, |jump A (k + i)| ≤ a * 2 := by
    intro k W hkW
    have e := Finset.sum_range_add (fun i => |jump A i|) k W
    have l := Finset.sum_le_sum_of_subset_of_nonneg (Finset.range_subset_range.2 hkW) (f := fun i => |jump A i|)
      fun i _ _ => abs_nonneg _
    have p : 0 ≤ ∑ i ∈ Finset.range k, |jump A i| := Finset.sum_nonneg fun i _ => abs_nonneg _
    rw [e] at l
    linarith
  have win : ∀ S : ℝ, (∀ i < 40, |A ((j - 4) * 10 + i)| ≤ a * S) →
      2 * (587138 / 10 ^ 6 * ((∑ i ∈ Finset.range 40, A ((j - 4) * 10 + i) ^ 2) / (40 : ℕ)) - a ^ 2 * stepSlack S 2 2 (1 / 4600) (40 : ℕ)) ≤ P ∧
      P ≤ 2 * (587139 / 10 ^ 6 * ((∑ i ∈ Finset.range 40, A ((j - 4) * 10 + i) ^ 2) / (40 : ℕ)) + a ^ 2 * stepSlack S 2 2 (1 / 4600) (40 : ℕ)) := by
    intro S hS
    have := sounds_window bs u h (by positivity) (cm := defaultChannelMap 2) (by decide) (w := 40) (k := (j - 4) * 10) (by norm_num)
      (by omega) (S := a * S) (R := a * 2) (O := a * 2) hS (V0 _ _ (by omega)) (by
        have := V0 0 ((j - 4) * 10 - 10) (by omega)
        simpa only [Nat.zero_add] using this)
    dsimp only at this
    rw [show a / 4600 = a * (1 / 4600) by ring, stepSlack_scale, stereo_weight,
      show ((j - 4) * 10 + 40) * 480 = j * 4800 by omega, show 40 * 480 = 4 * 4800 by norm_num] at this
    exact this
  have a2 : 0 ≤ a ^ 2 := by positivity
  have sl1 : stepSlack 1 2 2 (1 / 4600) (40 : ℕ) ≤ 907 / 10 ^ 5 := by
    unfold stepSlack
    norm_num
  have sl2 : stepSlack (9 / 40) 2 2 (1 / 4600) (40 : ℕ) ≤ 23 / 10 ^ 4 := by
    unfold stepSlack
    norm_num
  have m1 := mul_le_mul_of_nonneg_left sl1 a2
  have m2 := mul_le_mul_of_nonneg_left sl2 a2
  have w1 := win 1 fun i hi => by
    rw [mul_one]
    exact hall _ (by omega)
  refine ⟨le_trans ?_ w1.1, w1.2.trans ?_, fun h0 => ?_⟩
  · have sq : a ^ 2 * (overlap s d j * 10) ≤ ∑ i ∈ Finset.range 40, A ((j - 4) * 10 + i) ^ 2 := by
      rw [sum_forty]
      unfold overlap
      push_cast
      rw [Finset.sum_mul, Finset.mul_sum]
      refine Finset.sum_le_sum fun p hp => ?_
      have hp := Finset.mem_range.1 hp
      split_ifs with hc
      · have : ∀ q ∈ Finset.range 10, A ((j - 4) * 10 + (10 * p + q)) ^ 2 = a ^ 2 := by
          intro q hq
          have hq := Finset.mem_range.1 hq
          rw [hA _ (by omega) (by omega) (by omega)]
        rw [Finset.sum_congr rfl this]
        simp
        linarith
      · rw [zero_mul, mul_zero]
        exact Finset.sum_nonneg fun _ _ => by positivity
    push_cast at w1 m1 m2 ⊢
    generalize ∑ i ∈ Finset.range 40, A ((j - 4) * 10 + i) ^ 2 = Q at *
    norm_num at m1 ⊢
    linarith
  · have sq : ∑ i ∈ Finset.range 40, A ((j - 4) * 10 + i) ^ 2 ≤ 40 * a ^ 2 := by
      refine (Finset.sum_le_card_nsmul _ _ (a ^ 2) fun i hi => ?_).trans (by simp)
      have hi := Finset.mem_range.1 hi
      exact sq_le_sq' (by linarith [(abs_le.1 (hall ((j - 4) * 10 + i) (by omega))).1]) (abs_le.1 (hall _ (by omega))).2
    push_cast at w1 m1 m2 ⊢
    generalize ∑ i ∈ Finset.range 40, A ((j - 4) * 10 + i) ^ 2 = Q at *
    norm_num at m1 ⊢
    linarith
  · have hq : ∀ i < 40, |A ((j - 4) * 10 + i)| ≤ 9 / 40 * a := by
      intro i hi
      have := overlap_zero h0 (p := i / 10) (by omega)
      exact hB _ (by omega) (by omega)
    have w2 := (win (9 / 40) fun i hi => by
      rw [mul_comm a]
      exact hq i hi).2
    have sq : ∑ i ∈ Finset.range 40, A ((j - 4) * 10 + i) ^ 2 ≤ 40 * (9 / 40 * a) ^ 2 := by
      refine (Finset.sum_le_card_nsmul _ _ ((9 / 40 * a) ^ 2) fun i hi => ?_).trans (by simp)
      have hi := abs_le.1 (hq i (Finset.mem_range.1 hi))
      exact sq_le_sq' (by linarith [hi.1]) hi.2
    refine w2.trans ?_
    rw [mul_pow] at sq
    push_cast at w2 m1 m2 ⊢
    generalize ∑ i ∈ Finset.range 40, A ((j - 4) * 10 + i) ^ 2 = Q at *
    norm_num at m2 sq ⊢
    linarith

end

/-- **C78.** A stereo programme of `K` tenths of a second. From tenth `s` on there is a tone of 1 kHz at `L` dBFS for `d` tenths,
50 s or more and four sevenths of the programme or more. Elsewhere the amplitude is arbitrary, up to 9/40 of that of the tone;
it may change every 10 ms, as long as all its changes together are at most twice the amplitude of the tone. The integrated
loudness is `L` LUFS, to 0.1 LU. -/
theorem C78_foreground (hm : GoodLibm m) (hu : 10 ^ 8 ≤ t.usizeMax) {mode : Mode} (hI : mode.contains Mode.I = true)
    (hH : mode.contains Mode.HISTOGRAM = false) {e0 e : Ebu F64 F32}
    (hnew : Ebu.new (ieeeEnv m bs t) 2 48000 mode = .done (.ok e0)) {ops : List (Op F64 F32)} (hops : ∀ op ∈ ops, Feed op)
    (hrun : runOps (ieeeEnv m bs t) e0 ops = .done e) {A : ℕ → ℝ} {L : ℝ} (hL : -40 ≤ L) (hL' : L ≤ 0) {s d K : ℕ} {φ : ℕ → ℝ}
    (hp : Sounds (dBFS L / 4600) A (K * 10) 2 φ (heard (ieeeEnv m bs t) 2 ops)) (s3 : 3 ≤ s) (hsK : s + d + 3 ≤ K)
    (hd : 500 ≤ d) (hdK : 4 * K ≤ 7 * d) (hK : K ≤ 10 ^ 6)
    (hA : ∀ i < K * 10, s ≤ i / 10 → i / 10 < s + d → A i = dBFS L)
    (hB : ∀ i < K * 10, i / 10 < s ∨ s + d ≤ i / 10 → |A i| ≤ 9 / 40 * dBFS L)
    (hV : ∑ i ∈ Finset.range (K * 10), |jump A i| ≤ 2 * dBFS L) :
    ∃ v : F64, ask (ieeeEnv m bs t) e .loudnessGlobal = .done (.ok v) ∧ v.Finite ∧ |v.value - L| ≤ 1 / 10 := by
  obtain ⟨f1, f2, f3, f4, f5, f6, f7⟩ := fresh hnew hH
  obtain ⟨l1, l2⟩ := dBFS_range hL hL'
  have lsq := dBFS_sq L
  have pw := fun {j} h4 hj => foreground_power bs 0 hp (dBFS_pos L).le hA hB hV (j := j) h4 hj
  have hmeas : measured (ieeeEnv m bs t) 2 ops = K * 10 * 480 := sounds_count hp
  have hPs : idealBlocks bs 0 48000 (defaultChannelMap 2) (heard (ieeeEnv m bs t) 2 ops) (measured (ieeeEnv m bs t) 2 ops) =
      (blockTenths K).map fun j => idealPower (defaultChannelMap 2) (4 * 4800) (j * 4800)
        (idealOuts bs 0 48000 (heard (ieeeEnv m bs t) 2 ops)) := by
    unfold idealBlocks blockEnds blockTenths
    rw [hmeas, show hop 48000 = 4800 by decide, show K * 10 * 480 = K * 4800 by omega, Nat.mul_div_cancel _ (by norm_num), List.map_map]
    rfl
  have a1 : 1 / 10 ^ 4 ≤ dBFS L ^ 2 := by
    have := pow_le_pow_left₀ (by norm_num) l1 2
    norm_num at this ⊢
    linarith
  have key := fun lo hi => robust_integrated (bs' := bs) (u := 0) (by norm_num) hm.log hm.elem hm.tenth (Started.new hnew) f7
    (by rw [f4]; exact hI) f5 (by omega) (by omega) hops hrun (X := 1001 / 1000 * dBFS L)
    (le_trans (one_div_le_one_div_of_le (by positivity) (big_le (by norm_num : 13 ≤ 100))) (by norm_num; linarith))
    (by norm_num; linarith) (.inr (by norm_num; linarith)) (by
      rw [f2]
      refine sounds_within hp fun i hi => ?_
      have : |A i| ≤ dBFS L := by
        by_cases hc : s ≤ i / 10 ∧ i / 10 < s + d
        · rw [hA i hi hc.1 hc.2, abs_of_nonneg (dBFS_pos L).le]
        · exact (hB i hi (by omega)).trans (by linarith)
      linarith) (r := 1 / 10000) (by norm_num) (lo := lo) (hi := hi)
  dsimp only at key
  rw [f1, f2, f3, hPs] at key
  generalize hPe : (fun j => idealPower (defaultChannelMap 2) (4 * 4800) (j * 4800)
      (idealOuts bs 0 48000 (heard (ieeeEnv m bs t) 2 ops))) = P at *
  have pw : ∀ {j}, 4 ≤ j → j ≤ K → 2 * dBFS L ^ 2 * (587138 / 10 ^ 6 * (overlap s d j / 4) - 907 / 10 ^ 5) ≤ P j ∧
      P j ≤ 2 * dBFS L ^ 2 * (597 / 1000) ∧ (overlap s d j = 0 → P j ≤ 2 * dBFS L ^ 2 * (322 / 10 ^ 4)) := by
    rw [← hPe]
    exact pw
  obtain ⟨n0, n1⟩ := noise48 (cm := defaultChannelMap 2) (X := 1001 / 1000 * dBFS L) (W := 2 * dBFS L ^ 2) (r := 1 / 10000) (by
    rw [stereo_weight, mul_pow]
    norm_num
    linarith) (by norm_num at a1 ⊢; linarith) (by norm_num) (by norm_num)
  have hlen : ((blockTenths K).map P).length ≤ K := by
    rw [List.length_map]
    unfold blockTenths
    rw [List.range_succ_eq_map, List.filter_cons_of_neg (by simp)]
    refine (List.length_filter_le _ _).trans ?_
    simp
  have hη : (1 : ℝ) / 10000 + (4 * hop 48000 + (2 : ℕ) + ((blockTenths K).map P).length + 64 : ℝ) / 2 ^ 50 ≤ 1 / 9999 := by
    rw [show hop 48000 = 4800 by decide]
    have l6 := hlen.trans hK
    generalize ((blockTenths K).map P).length = N at *
    have l6 : (N : ℝ) ≤ 10 ^ 6 := by exact_mod_cast l6
    have : (4 * (4800 : ℕ) + (2 : ℕ) + N + 64 : ℝ) / 2 ^ 50 ≤ (4 * 4800 + 64 + 10 ^ 6 + 64) / 2 ^ 50 := by
      refine div_le_div_of_nonneg_right ?_ (by positivity)
      push_cast
      linarith
    norm_num at this ⊢
    linarith
  have hη0 : (0 : ℝ) ≤ (1 : ℝ) / 10000 + (4 * hop 48000 + (2 : ℕ) + ((blockTenths K).map P).length + 64 : ℝ) / 2 ^ 50 := by positivity
  generalize (1 : ℝ) / 10000 + (4 * hop 48000 + (2 : ℕ) + ((blockTenths K).map P).length + 64 : ℝ) / 2 ^ 50 = η at *
  generalize 3 / (1 / 10000) * noisePower (defaultChannelMap 2) 48000 (1001 / 1000 * dBFS L) + 1 / 2 ^ 300 = θ at *
  have hmem : ∀ j ∈ blockTenths K, 4 ≤ j ∧ j ≤ K := by
    intro j hj
    obtain ⟨h1, h2⟩ := List.mem_filter.1 hj
    have := List.mem_range.1 h1
    exact ⟨of_decide_eq_true h2, by omega⟩
  have W0 : 0 < 2 * dBFS L ^ 2 := by norm_num at a1; linarith
  have W1 : 2 / 10 ^ 4 ≤ 2 * dBFS L ^ 2 := by norm_num at a1 ⊢; linarith
  generalize hW : 2 * dBFS L ^ 2 = W at *
  have hcls : ∀ j ∈ blockTenths K, (overlap s d j ≠ 0 → W * (13 / 100) ≤ P j) ∧ (overlap s d j = 0 → P j ≤ W * (322 / 10 ^ 4)) := by
    intro j hj
    obtain ⟨j1, j2⟩ := hmem j hj
    obtain ⟨p1, -, p3⟩ := pw j1 j2
    refine ⟨fun h0 => le_trans (mul_le_mul_of_nonneg_left ?_ W0.le) p1, p3⟩
    have : (1 : ℝ) ≤ overlap s d j := by exact_mod_cast Nat.one_le_iff_ne_zero.2 h0
    norm_num
    linarith
  have hfil : ((blockTenths K).map P).filter (fun x => decide (W * (13 / 100) ≤ x)) =
      ((blockTenths K).filter fun j => overlap s d j ≠ 0).map P := by
    rw [List.filter_map]
    congr 1
    refine List.filter_congr fun j hj => ?_
    obtain ⟨c1, c2⟩ := hcls j hj
    show decide _ = decide _
    rw [decide_eq_decide]
    refine ⟨fun h1 h0 => ?_, c1⟩
    have := c2 h0
    norm_num at this h1
    linarith
  have hperm := (touching s3 hsK (by omega)).map P
  have hsum : (((blockTenths K).filter fun j => overlap s d j ≠ 0).map P).sum = ∑ x ∈ Finset.range (d + 3), P (s + 1 + x) := by
    rw [hperm.sum_eq, List.map_map, list_sum_range]
    rfl
  have hcount : (((blockTenths K).filter fun j => overlap s d j ≠ 0).map P).length = d + 3 := by
    rw [hperm.length_eq]
    simp
  have s1 : W * (587138 / 10 ^ 6 * d - 907 / 10 ^ 5 * (d + 3)) ≤ ∑ x ∈ Finset.range (d + 3), P (s + 1 + x) := by
    have e : W * (587138 / 10 ^ 6 * d - 907 / 10 ^ 5 * (d + 3)) =
        ∑ x ∈ Finset.range (d + 3), W * (587138 / 10 ^ 6 * (overlap s d (s + 1 + x) / 4) - 907 / 10 ^ 5) := by
      rw [← Finset.mul_sum, Finset.sum_sub_distrib, ← Finset.mul_sum, ← Finset.sum_div, ← Nat.cast_sum, overlap_sum s3]
      simp
      ring_nf
      simp
    rw [e]
    refine Finset.sum_le_sum fun x hx => (pw ?_ ?_).1
    · omega
    · have := Finset.mem_range.1 hx
      omega
  have s2 : ∑ x ∈ Finset.range (d + 3), P (s + 1 + x) ≤ W * (597 / 1000) * (d + 3) := by
    refine (Finset.sum_le_card_nsmul _ _ (W * (597 / 1000)) fun x hx => (pw ?_ ?_).2.1).trans (le_of_eq ?_)
    · omega
    · have := Finset.mem_range.1 hx
      omega
    · simp
      ring
  have hlen' : (((blockTenths K).map P).length : ℝ) ≤ K := by exact_mod_cast hlen
  have hge : d + 3 ≤ ((blockTenths K).map P).length := by
    rw [← hcount, ← hfil]
    exact List.length_filter_le ..
  have hge' : (d : ℝ) + 3 ≤ ((blockTenths K).map P).length := by exact_mod_cast hge
  have key := key (W * (322 / 10 ^ 4)) (W * (13 / 100)) (hη.trans (by norm_num)) (hlen.trans (hK.trans (by
      have : (10 : ℕ) ^ 6 ≤ t.usizeMax / 100 := (Nat.le_div_iff_mul_le (by norm_num)).2 (by omega)
      exact this))) (hlen.trans (hK.trans (by norm_num)))
  rw [hfil] at key
  unfold meanR at key
  rw [hsum, hcount] at key
  generalize (((blockTenths K).map P).length : ℝ) = N at *
  generalize ∑ x ∈ Finset.range (d + 3), P (s + 1 + x) = Q at *
  have hd' : (500 : ℝ) ≤ d := by exact_mod_cast hd
  have hdK' : 4 * (K : ℝ) ≤ 7 * d := by exact_mod_cast hdK
  push_cast at key
  generalize (d : ℝ) = D at *
  have N0 : 0 < N := by linarith
  have D3 : 0 < D + 3 := by linarith
  -- bounds of the means
  have q1 : W * (33 / 100) ≤ Q / N := by
    rw [le_div_iff₀ N0]
    refine le_trans ?_ s1
    rw [mul_assoc]
    refine mul_le_mul_of_nonneg_left ?_ W0.le
    norm_num
    linarith
  have q2 : W * (5745 / 10 ^ 4) ≤ Q / (D + 3) := by
    rw [le_div_iff₀ D3]
    refine le_trans ?_ s1
    rw [mul_assoc]
    refine mul_le_mul_of_nonneg_left ?_ W0.le
    norm_num
    linarith
  have q3 : Q / (D + 3) ≤ W * (597 / 1000) := by
    rw [div_le_iff₀ D3]
    exact s2
  have q4 : Q / N ≤ W * (597 / 1000) := by
    rw [div_le_iff₀ N0]
    exact s2.trans (mul_le_mul_of_nonneg_left hge' (by positivity))
  generalize Q / N = G at *
  generalize Q / (D + 3) = M at *
  have e70 := energy70_le
  have n1 : θ ≤ 11 / 10 ^ 6 * W := by
    norm_num at n1 ⊢
    linarith
  have hηW : η * W ≤ 1 / 9999 * W := mul_le_mul_of_nonneg_right hη W0.le
  have hηG : η * G ≤ 1 / 9999 * G := mul_le_mul_of_nonneg_right hη (by norm_num at q1; linarith)
  have hηM : η * M ≤ 1 / 9999 * M := mul_le_mul_of_nonneg_right hη (by norm_num at q2; linarith)
  obtain ⟨v, v1, v2, v3⟩ := key (by
      intro x hx
      obtain ⟨j, hj, rfl⟩ := List.mem_map.1 hx
      obtain ⟨c1, c2⟩ := hcls j hj
      by_cases h0 : overlap s d j = 0
      · exact .inl (c2 h0)
      · exact .inr (c1 h0))
    (by
      intro hc
      have := congrArg List.length hc
      rw [hcount] at this
      simp at this)
    (by norm_num at *; linarith) (by norm_num at *; linarith) (by norm_num at *; linarith) (by norm_num at *; linarith)
  refine ⟨v, v1, v2, ?_⟩
  have M0 : 0 < M := lt_of_lt_of_le (by positivity) q2
  have hq : θ / M ≤ 2 / 10 ^ 5 := by
    rw [div_le_iff₀ M0]
    norm_num at n1 q2 ⊢
    linarith
  have b1 := lufs_ge (x := M) (L := L) (by rw [← lsq]; norm_num at q2 ⊢; linarith)
  have b2 := lufs_le (x := M) (L := L) M0 (by rw [← lsq]; norm_num at q3 ⊢; linarith)
  have v3 := abs_le.1 v3
  rw [abs_le]
  norm_num at v3 hη hq ⊢
  constructor <;> linarith [v3.1, v3.2]

/-! ## Case 4 -/

/-- A programme of steady tones, at multiples of 10 ms. -/
theorem plays_sounds {tol L : ℝ} {segs : List (ℕ × ℝ)} {channels : ℕ} {φ : ℕ → ℝ} {evs : List (Event F64)}
    (h : Plays tol segs channels (fun _ => L) φ evs) :
    Sounds (tol * dBFS L) (fun i => dBFS (levelAt segs (i / 10) + L)) (Spec.tenths segs * 10) channels φ evs := by
  refine ⟨by rw [h.length]; omega, h.measured, fun n hn c hc => ?_⟩
  rw [show n / 480 / 10 = n / 4800 by omega]
  exact h.sample n hn c hc

/-- The changes of an amplitude that rises and then falls. -/
theorem rise_fall {A : ℕ → ℝ} (A0 : ∀ i, 0 ≤ A i) {p : ℕ} (h1 : ∀ i < p, A i ≤ A (i + 1)) (h2 : ∀ i, p ≤ i → A (i + 1) ≤ A i) (N : ℕ) :
    ∑ i ∈ Finset.range N, |jump A i| ≤ 2 * A p := by
  have up : ∀ n ≤ p, ∑ i ∈ Finset.range (n + 1), |jump A i| = A n := by
    intro n
    induction n with
    | zero =>
      intro _
      simp [jump, abs_of_nonneg (A0 0)]
    | succ n ih =>
      intro hn
      rw [Finset.sum_range_succ, ih (by omega)]
      have := h1 n (by omega)
      simp [jump, abs_of_nonneg (sub_nonneg.2 this)]
  have down : ∀ n, ∑ i ∈ Finset.range (p + n + 1), |jump A i| = 2 * A p - A (p + n) := by
    intro n
    induction n with
    | zero =>
      rw [Nat.add_zero, up p le_rfl]
      ring
    | succ n ih =>
      rw [show p + (n + 1) + 1 = p + n + 1 + 1 by omega, Finset.sum_range_succ, ih]
      have := h2 (p + n) (by omega)
      simp only [jump, Nat.add_eq_zero_iff, one_ne_zero, and_false, if_false, Nat.add_sub_cancel]
      rw [abs_of_nonpos (by linarith), show p + (n + 1) = p + n + 1 by omega]
      ring
  refine (Finset.sum_le_sum_of_subset_of_nonneg (Finset.range_subset_range.2 (by omega : N ≤ p + N + 1))
    fun i _ _ => abs_nonneg _).trans ?_
  rw [down]
  linarith [A0 (p + N)]

/-- The levels of case 4, relative to that of the tone: 10 s at -49 dB, 10 s at -13 dB, the tone for 60 s, and the same backwards. -/
def Spec.case4 : List (ℕ × ℝ) := [(100, -49), (100, -13), (600, 0), (100, -13), (100, -49)]

theorem quiet13 : dBFS (-13) ≤ 9 / 40 := by
  have : |(223872 / 10 ^ 6 : ℝ) - (10 : ℝ) ^ (-13 / 20 : ℝ)| ≤ 1 / 10 ^ 6 :=
    att_near 13 20 (by norm_num) (by norm_num) (by norm_num) (by norm_num) (by norm_num)
  have := abs_le.1 this
  unfold dBFS
  norm_num at this ⊢
  linarith

/-- **C78.** Case 4: tones at -49, -13, 0, -13 and -49 dB relative to `L` dBFS (-72, -36, -23, -36 and -72 dBFS), for 10, 10, 60, 10
and 10 s. The integrated loudness is `L` LUFS, to 0.1 LU. -/
theorem C78_quiet (hm : GoodLibm m) (hu : 10 ^ 8 ≤ t.usizeMax) {mode : Mode} (hI : mode.contains Mode.I = true)
    (hH : mode.contains Mode.HISTOGRAM = false) {e0 e : Ebu F64 F32}
    (hnew : Ebu.new (ieeeEnv m bs t) 2 48000 mode = .done (.ok e0)) {ops : List (Op F64 F32)} (hops : ∀ op ∈ ops, Feed op)
    (hrun : runOps (ieeeEnv m bs t) e0 ops = .done e) {L : ℝ} (hL : -40 ≤ L) (hL' : L ≤ 0) {φ : ℕ → ℝ}
    (hp : Plays (1 / 4600) case4 2 (fun _ => L) φ (heard (ieeeEnv m bs t) 2 ops)) :
    ∃ v : F64, ask (ieeeEnv m bs t) e .loudnessGlobal = .done (.ok v) ∧ v.Finite ∧ |v.value - L| ≤ 1 / 10 := by
  have hs := plays_sounds hp
  rw [show (1 / 4600 : ℝ) * dBFS L = dBFS L / 4600 by ring] at hs
  have ha : ∀ i < 1000 * 10, 200 ≤ i / 10 → i / 10 < 200 + 600 → dBFS (levelAt case4 (i / 10) + L) = dBFS L := by
    intro i _ h1 h2
    have : levelAt case4 (i / 10) = 0 := by
      unfold case4
      simp only [levelAt]
      rw [if_neg (by omega), if_neg (by omega), if_pos (by omega)]
    rw [this, zero_add]
  refine C78_foreground (A := fun i => dBFS (levelAt case4 (i / 10) + L)) hm hu hI hH hnew hops hrun hL hL' (s := 200) (d := 600)
    (K := 1000) hs (by norm_num) (by norm_num) (by norm_num) (by norm_num) (by norm_num) ha ?_ ?_
  · intro i hi h1
    rw [abs_of_pos (dBFS_pos _)]
    have : levelAt case4 (i / 10) ≤ -13 := by
      unfold case4
      simp only [levelAt]
      split_ifs
      all_goals first | (exfalso; omega) | norm_num
    have e : dBFS (-13 + L) = dBFS (-13) * dBFS L := by
      unfold dBFS
      rw [← Real.rpow_add (by norm_num)]
      congr 1
      ring
    refine (dBFS_mono (by linarith : levelAt case4 (i / 10) + L ≤ -13 + L)).trans ?_
    rw [e]
    exact mul_le_mul_of_nonneg_right quiet13 (dBFS_pos L).le
  · -- beyond its end the tone is continued at the last level
    have e : ∀ i < 1000 * 10, levelAt case4 (i / 10) = if i < 1000 then -49 else if i < 2000 then -13 else if i < 8000 then 0 else
        if i < 9000 then -13 else -49 := by
      intro i hi
      unfold case4
      simp only [levelAt]
      split_ifs
      all_goals first | rfl | (exfalso; omega)
    have main := rise_fall (A := fun i => dBFS ((if i < 1000 then -49 else if i < 2000 then -13 else if i < 8000 then 0 else
        if i < 9000 then -13 else -49) + L)) (p := 2000) (fun i => (dBFS_pos _).le) (fun i hi => dBFS_mono (by
          split_ifs
          all_goals linarith)) (fun i hi => dBFS_mono (by
          split_ifs
          all_goals linarith)) (1000 * 10)
    refine le_trans (le_of_eq (Finset.sum_congr rfl fun i hi => ?_)) (main.trans (le_of_eq (by norm_num)))
    have hi := Finset.mem_range.1 hi
    simp only [jump]
    rw [e i hi, e (i - 1) (by omega)]

/-- **C78.** The 16-bit file of case 4, whatever the phases of the two channels, is read in any number of calls of any sizes: it is
measured at -23 LUFS, to 0.1 LU. -/
theorem C78_files (hm : GoodLibm m) (hu : 2 ^ 64 - 1 ≤ t.usizeMax) (φ : ℕ → ℝ) {parts : List (List (List Int16))}
    (hp : parts.flatten = file16 case4 2 (fun _ => -23) φ) :
    ∃ (e0 e : Ebu F64 F32) (v : F64), Ebu.new (ieeeEnv m bs t) 2 48000 Mode.I = .done (.ok e0) ∧
      runOps (ieeeEnv m bs t) e0 (parts.map fun fs => .addFrames (.i16 fs.flatten)) = .done e ∧
      ask (ieeeEnv m bs t) e .loudnessGlobal = .done (.ok v) ∧ v.Finite ∧ |v.value + 23| ≤ 1 / 10 := by
  obtain ⟨e0, h0⟩ := (C01_new_64 (ieeeEnv m bs t) hu 2 48000 Mode.I).1.2 ⟨by unfold ValidArgs; decide, by decide⟩
  obtain ⟨e, h1⟩ := C09_plain hu h0 (by norm_num) (parts.map fun fs => .addFrames (.i16 fs.flatten)) (by
    intro op hop
    obtain ⟨fs, -, rfl⟩ := List.mem_map.1 hop
    trivial)
  have hf : ∀ op ∈ parts.map (fun fs => (.addFrames (.i16 fs.flatten) : Op F64 F32)), Feed op := by
    intro op hop
    obtain ⟨fs, -, rfl⟩ := List.mem_map.1 hop
    trivial
  have g23 : (1 : ℝ) / 65536 ≤ 1 / 4600 * (10 : ℝ) ^ (-23 / 20 : ℝ) := by
    have : |(70795 / 10 ^ 6 : ℝ) - (10 : ℝ) ^ (-23 / 20 : ℝ)| ≤ 1 / 10 ^ 6 :=
      att_near 23 20 (by norm_num) (by norm_num) (by norm_num) (by norm_num) (by norm_num)
    have := abs_le.1 this
    norm_num at this ⊢
    linarith
  obtain ⟨v, hv⟩ := C78_quiet hm (le_trans (by norm_num) hu) (by decide) (by decide) h0 hf h1 (L := -23) (by norm_num) (by norm_num)
    (file16_plays (by norm_num) (by simp [case4]) (fun c _ => ⟨by norm_num, g23⟩) hp)
  exact ⟨e0, e, v, h0, h1, hv.1, hv.2.1, by rw [← sub_neg_eq_add]; exact hv.2.2⟩

/-- The file of case 4 read in one call, with the elementary functions of the earlier examples. -/
example (bs : BSearch) (h64 : 2 ^ 64 - 1 ≤ t.usizeMax) :
    ∃ (e0 e : Ebu F64 F32) (v : F64), Ebu.new (ieeeEnv Demo.libm57 bs t) 2 48000 Mode.I = .done (.ok e0) ∧
      runOps (ieeeEnv Demo.libm57 bs t) e0 [.addFrames (.i16 (file16 case4 2 (fun _ => -23) fun _ => 0).flatten)] = .done e ∧
      ask (ieeeEnv Demo.libm57 bs t) e .loudnessGlobal = .done (.ok v) ∧ v.Finite ∧ |v.value + 23| ≤ 1 / 10 :=
  C78_files Demo.good57 h64 (fun _ => 0) (parts := [file16 case4 2 (fun _ => -23) fun _ => 0]) (by simp)

end Verif
