import Verif.Proofs.ToneRange
import Verif.Props.C60
/-!
# Programmes of tones measured with histograms

The theorems of ToneLoudness.lean and ToneRange.lean for analyzers in histogram mode. The bins cost up to half a bin for the
loudness and a whole bin for the range; the margin of 5 % at the gates is more than the two half bins that are lost there.
-/

namespace Verif
open Spec
variable {m : Libm F64} {bs : BSearch} {t : Target}
variable {tol : ℝ} {segs : List (ℕ × ℝ)} {amps : List (ℕ × ℕ)} {gain φ : ℕ → ℝ}

/-- Half a bin is a factor of at most 1.0117. -/
theorem binFactor_le : binFactor ≤ 10117 / 10000 := by
  have h : halfBin / 10 ≤ 1 / 199 := by unfold halfBin; norm_num
  unfold binFactor
  refine (Real.rpow_le_rpow_of_exponent_le (by norm_num) h).trans ?_
  rw [one_div, Real.rpow_inv_le_iff_of_pos (by norm_num) (by norm_num) (by norm_num)]
  rw [show (199 : ℝ) = ((199 : ℕ) : ℝ) by norm_num, Real.rpow_natCast]
  norm_num

theorem bin_margin {η κ : ℝ} (h0 : 0 ≤ η) (h1 : η ≤ 1 / 999) (hκ : binFactor ^ 2 * (1 + 4 * η) = κ) : 1 ≤ κ ∧ κ ≤ 1028 / 1000 := by
  have a := binFactor_bounds.1
  have b1 : 1 ≤ binFactor ^ 2 := one_le_pow₀ a
  have b2 : binFactor ^ 2 ≤ (10117 / 10000) ^ 2 := pow_le_pow_left₀ (by linarith) binFactor_le 2
  rw [← hκ]
  constructor
  · nlinarith
  · calc binFactor ^ 2 * (1 + 4 * η) ≤ (10117 / 10000) ^ 2 * (1 + 4 * (1 / 999)) :=
        mul_le_mul b2 (by linarith) (by linarith) (by norm_num)
      _ ≤ _ := by norm_num

/-- The integrated loudness of a programme of tones measured with a histogram, if the integers allow it. -/
theorem tones_integrated_bins {δ : ℝ} (hδ : δ ≤ 1 / 10 ^ 5) (hm : LogWithin m δ) (hel : ElemWithin m (1 / 2 ^ 50))
    (ht : TenthWithin m) {e0 e : Ebu F64 F32} (h : Started (ieeeEnv m bs t) e0) (hr : e0.rate = 48000)
    (hg : Adequate e0.mode e0.rate e0.window) (hI : e0.mode.contains Mode.I = true) {h0 : List Nat}
    (hq : e0.blockEnergyHistory = .histogram h0) (hh0 : h0.sum = 0) {ops : List (Op F64 F32)} (hops : ∀ op ∈ ops, Feed op)
    (hrun : runOps (ieeeEnv m bs t) e0 ops = .done e)
    (hp : Plays tol segs e0.channels gain φ (heard (ieeeEnv m bs t) e0.channels ops)) (ha : Rounded segs amps)
    (t0 : 0 ≤ tol) (hs : ∀ s ∈ segs, s.2 ≤ 0) (hlong : Spec.tenths amps ≤ 10 ^ 6)
    (hshort : 4 ≤ Spec.tenths amps) {X : ℝ} (hX : 1 / 2 ^ 13 ≤ X) (hX' : X ≤ 2 ^ 60)
    (hXs : ∀ c < e0.channels, (1 + tol) * (10 : ℝ) ^ (gain c / 20) ≤ X)
    (hW : totalWeight e0.channelMap * X ^ 2 ≤ 3 * fullPower e0.channelMap gain) {V ε : ℕ}
    (hV : sumOver (leap (ampAt amps)) 0 (Spec.tenths amps) ≤ V) (hε : 13 * (tol + 1 / 10 ^ 6) ≤ (ε : ℝ) / 10 ^ 6)
    {n sl sh : ℕ} (hsp : Split 10 ((blockTenths (Spec.tenths amps)).map (blockBounds amps V ε)) n sl sh) {μ : ℝ}
    (hμ : 1 / 100 ≤ μ) (hμ1 : μ ≤ 1) (hμW : 3 / 10 ^ 7 ≤ fullPower e0.channelMap gain * μ)
    (hfloor : ∀ j ∈ blockTenths (Spec.tenths amps), μ * (1920000 * 10 ^ 18) ≤ (blockBounds amps V ε j).1) {M : ℝ}
    (hceil : ∀ j ∈ blockTenths (Spec.tenths amps), (blockBounds amps V ε j).2 ≤ M * (1920000 * 10 ^ 18))
    (hM : fullPower e0.channelMap gain * M ≤ 990) (hW9 : fullPower e0.channelMap gain ≤ 990) {c1 c2 : ℝ}
    (hc1 : 1 / 4 ≤ c1)
    (h1 : let g := ((blockTenths (Spec.tenths amps)).map (blockBounds amps V ε)).filter fun x => passes 10 n sh x.1
      c1 * (1920000 * 10 ^ 18 * g.length) ≤ ((g.map Prod.fst).sum : ℕ) ∧ 
      (((g.map Prod.snd).sum : ℕ) : ℝ) ≤ c2 * (1920000 * 10 ^ 18 * g.length) ∧ g ≠ []) :
    ∃ v : F64, ask (ieeeEnv m bs t) e .loudnessGlobal = .done (.ok v) ∧ v.Finite ∧
      lufs (fullPower e0.channelMap gain * c1) - (halfBin + 4 / 1000) ≤ v.value ∧
      v.value ≤ lufs (fullPower e0.channelMap gain * c2) + (halfBin + 4 / 1000) := by
  have hi := h.reachable.inv
  have hcm : e0.channelMap.length = e0.channels := hi.map
  have hc64 : e0.channels ≤ 64 := hi.ch64
  have hx := plays_within hp hs hXs
  obtain ⟨hPs, hb⟩ := block_powers bs 0 hp ha t0 hcm hV hε
  have key := C60_integrated (hδ.trans (by norm_num)) hm hel ht h hg hI hq hh0 (by omega) (by omega) hops hrun
    ((one_div_le_one_div_of_le (by positivity) (big_le (by norm_num))).trans hX) hX' (.inr hX) hx (r := 1 / 10000)
    (by norm_num) bs 0
  dsimp only at key
  rw [hr] at key
  have hPs' : idealBlocks bs 0 48000 e0.channelMap (heard (ieeeEnv m bs t) e0.channels ops)
    (measured (ieeeEnv m bs t) e0.channels ops) = _ := hPs
  rw [hPs'] at key
  have hlen : ((blockTenths (Spec.tenths amps)).map fun j => idealPower e0.channelMap (4 * 4800) (j * 4800)
      (idealOuts bs 0 48000 (heard (ieeeEnv m bs t) e0.channels ops))).length ≤ Spec.tenths amps := by
    rw [List.length_map]
    unfold blockTenths
    have hnot : ¬ (4 ≤ 0) := by omega
    rw [List.range_succ_eq_map, List.filter_cons_of_neg (by simp)]
    refine (List.length_filter_le _ _).trans ?_
    simp
  have hne : blockTenths (Spec.tenths amps) ≠ [] := by
    refine List.ne_nil_of_mem (a := 4) (List.mem_filter.2 ⟨List.mem_range.2 (by omega), by simp⟩)
  have W0 : 0 < fullPower e0.channelMap gain := by
    by_contra hc
    push Not at hc
    have : fullPower e0.channelMap gain * μ ≤ 0 := mul_nonpos_of_nonpos_of_nonneg hc (by linarith)
    linarith
  have Pfl : ∀ j ∈ blockTenths (Spec.tenths amps), fullPower e0.channelMap gain * μ ≤
      idealPower e0.channelMap (4 * 4800) (j * 4800) (idealOuts bs 0 48000 (heard (ieeeEnv m bs t) e0.channels ops)) := by
    intro j hj
    refine le_trans ?_ (hb j hj).1
    have := mul_le_mul_of_nonneg_left (hfloor j hj) (div_nonneg W0.le (by norm_num : (0 : ℝ) ≤ 1920000 * 10 ^ 18))
    refine le_trans (le_of_eq ?_) this
    field_simp
  have Pce : ∀ j ∈ blockTenths (Spec.tenths amps),
      idealPower e0.channelMap (4 * 4800) (j * 4800) (idealOuts bs 0 48000 (heard (ieeeEnv m bs t) e0.channels ops)) ≤ 990 := by
    intro j hj
    refine (hb j hj).2.trans (le_trans ?_ hM)
    have := mul_le_mul_of_nonneg_left (hceil j hj) (div_nonneg W0.le (by norm_num : (0 : ℝ) ≤ 1920000 * 10 ^ 18))
    refine this.trans (le_of_eq ?_)
    field_simp
  have W1 : fullPower e0.channelMap gain * (1 / 100) ≤ fullPower e0.channelMap gain * μ := mul_le_mul_of_nonneg_left hμ W0.le
  have W3 : fullPower e0.channelMap gain * μ ≤ fullPower e0.channelMap gain * 1 := mul_le_mul_of_nonneg_left hμ1 W0.le
  rw [mul_one] at W3
  generalize hWe : fullPower e0.channelMap gain = W at *
  -- the uncertainties
  have hη : (1 : ℝ) / 10000 + (4 * hop 48000 + e0.channels + ((blockTenths (Spec.tenths amps)).map fun j =>
      idealPower e0.channelMap (4 * 4800) (j * 4800) (idealOuts bs 0 48000
        (heard (ieeeEnv m bs t) e0.channels ops))).length + 1024 : ℝ) / 2 ^ 50 ≤ 1 / 9999 := by
    rw [show hop 48000 = 4800 by decide]
    have c64 : (e0.channels : ℝ) ≤ 64 := by exact_mod_cast hc64
    have l6 := hlen.trans hlong
    generalize ((blockTenths (Spec.tenths amps)).map fun j =>
      idealPower e0.channelMap (4 * 4800) (j * 4800) (idealOuts bs 0 48000
        (heard (ieeeEnv m bs t) e0.channels ops))).length = L at *
    have l6 : (L : ℝ) ≤ 10 ^ 6 := by exact_mod_cast l6
    have : (4 * (4800 : ℕ) + e0.channels + L + 1024 : ℝ) / 2 ^ 50 ≤ (4 * 4800 + 64 + 10 ^ 6 + 1024) / 2 ^ 50 := by
      refine div_le_div_of_nonneg_right ?_ (by positivity)
      push_cast
      linarith
    norm_num at this ⊢
    linarith
  have hη0 : (0 : ℝ) ≤ (1 : ℝ) / 10000 + (4 * hop 48000 + e0.channels + ((blockTenths (Spec.tenths amps)).map fun j =>
      idealPower e0.channelMap (4 * 4800) (j * 4800) (idealOuts bs 0 48000
        (heard (ieeeEnv m bs t) e0.channels ops))).length + 1024 : ℝ) / 2 ^ 50 := by positivity
  have hθ := noise48 (r := 1 / 10000) hW (by linarith) (by norm_num) (by norm_num)
  have hmem : ∀ p ∈ (blockTenths (Spec.tenths amps)).map fun j => idealPower e0.channelMap (4 * 4800) (j * 4800)
      (idealOuts bs 0 48000 (heard (ieeeEnv m bs t) e0.channels ops)), W * μ ≤ p := by
    intro p hp
    obtain ⟨j, hj, rfl⟩ := List.mem_map.1 hp
    exact Pfl j hj
  generalize hPe : (fun j => idealPower e0.channelMap (4 * 4800) (j * 4800)
      (idealOuts bs 0 48000 (heard (ieeeEnv m bs t) e0.channels ops))) = P at *
  have Pfl : ∀ j ∈ blockTenths (Spec.tenths amps), W * μ ≤ P j := by
    rw [← hPe]
    exact Pfl
  have Pce : ∀ j ∈ blockTenths (Spec.tenths amps), P j ≤ 990 := by
    rw [← hPe]
    exact Pce
  have hlen2 := hlen.trans hlong
  generalize (1 : ℝ) / 10000 + (4 * hop 48000 + e0.channels + ((blockTenths (Spec.tenths amps)).map P).length + 1024 : ℝ) / 2 ^ 50 = η at *
  generalize 3 / (1 / 10000) * noisePower e0.channelMap 48000 X + 1 / 2 ^ 300 = θ at *
  have hθ' : θ ≤ 11 / 10 ^ 4 * (W * μ) := by
    have := hθ.2
    norm_num at this ⊢
    linarith
  have c0 : 0 < W / (1920000 * 10 ^ 18) := by positivity
  have e70 := energy70_le
  have hloud : loud ((blockTenths (Spec.tenths amps)).map P) = (blockTenths (Spec.tenths amps)).map P :=
    List.filter_eq_self.2 fun p hp => decide_eq_true (by linarith [hmem p hp])
  have hgate := fun {j} (hj : j ∈ blockTenths (Spec.tenths amps)) => split_gate c0 (by norm_num : 0 < 10) hne hsp hb hj
  have hgR : gateR ((blockTenths (Spec.tenths amps)).map P) = meanR ((blockTenths (Spec.tenths amps)).map P) / (10 : ℕ) := by
    rw [gateR, hloud]
    norm_num
  have hgd : gatedR ((blockTenths (Spec.tenths amps)).map P) =
      ((blockTenths (Spec.tenths amps)).filter fun j => passes 10 n sh (blockBounds amps V ε j).1).map P := by
    rw [gatedR, hloud, hgR]
    exact split_filter c0 (by norm_num) hne hsp hb fun j hj => by linarith [Pfl j hj]
  -- the mean of the gated blocks
  have hgs := sum_between (ks := (blockTenths (Spec.tenths amps)).filter fun j => passes 10 n sh (blockBounds amps V ε j).1)
    (f := blockBounds amps V ε) fun j hj => hb j (List.mem_filter.1 hj).1
  dsimp only at h1
  have hfm : ((blockTenths (Spec.tenths amps)).map (blockBounds amps V ε)).filter (fun x => passes 10 n sh x.1) =
      ((blockTenths (Spec.tenths amps)).filter fun j => passes 10 n sh (blockBounds amps V ε j).1).map (blockBounds amps V ε) := by
    rw [List.filter_map]
    rfl
  rw [hfm] at h1
  generalize hks : (blockTenths (Spec.tenths amps)).filter (fun j => passes 10 n sh (blockBounds amps V ε j).1) = ks at *
  obtain ⟨g1, g2, g3⟩ := h1
  have L0 : (0 : ℝ) < ks.length := by
    have : ks ≠ [] := fun hc => g3 (by rw [hc]; rfl)
    exact_mod_cast List.length_pos_iff.2 this
  rw [List.length_map] at g1 g2
  have hmean1 : W * c1 ≤ meanR (ks.map P) := by
    rw [meanR, List.length_map, le_div_iff₀ L0]
    refine le_trans ?_ hgs.1
    have := mul_le_mul_of_nonneg_left g1 c0.le
    refine le_trans (le_of_eq ?_) this
    field_simp
  have hmean2 : meanR (ks.map P) ≤ W * c2 := by
    rw [meanR, List.length_map, div_le_iff₀ L0]
    refine hgs.2.trans ?_
    have := mul_le_mul_of_nonneg_left g2 c0.le
    refine this.trans (le_of_eq ?_)
    field_simp
  have hκ := bin_margin (κ := binFactor ^ 2 * (1 + 4 * η)) hη0 (hη.trans (by norm_num)) rfl
  obtain ⟨v, hv1, -, hv2⟩ := key (hη.trans (by norm_num)) (hlen2.trans (by norm_num)) 
    (fun p hp => by
      obtain ⟨j, hj, rfl⟩ := List.mem_map.1 hp
      have := Pce j hj
      linarith)
    (fun p hp => by
      have h2 := hmem p hp
      left
      have h5 : 2 * η * (energyOf (-70) + 2 * θ) ≤ 2 * (1 / 9999) * (W * μ) :=
        mul_le_mul (by linarith) (by linarith) (by have : 0 ≤ energyOf (-70) := (energyOf_pos _).le; linarith) (by norm_num)
      linarith)
    (fun p hp => by
      rw [hloud] at hp
      obtain ⟨j, hj, rfl⟩ := List.mem_map.1 hp
      have h2 := Pfl j hj
      obtain ⟨q1, q2⟩ := hgate hj
      rw [hgR]
      generalize meanR ((blockTenths (Spec.tenths amps)).map P) / (10 : ℕ) = Γ at *
      generalize binFactor ^ 2 * (1 + 4 * η) = κ at *
      cases hpass : passes 10 n sh (blockBounds amps V ε j).1 with
      | true =>
        have q := q1 hpass
        left
        rcases le_total 0 (Γ + 2 * θ) with hΓ | hΓ
        · have := mul_le_mul_of_nonneg_right hκ.2 hΓ
          linarith
        · exact lt_of_le_of_lt (mul_nonpos_of_nonneg_of_nonpos (by linarith [hκ.1]) hΓ) (by linarith)
      | false =>
        have q := q2 hpass
        right
        have := mul_le_mul_of_nonneg_right hκ.2 (show 0 ≤ P j + 2 * θ by linarith)
        linarith)
  obtain ⟨hfin, hv⟩ := hv2 (by rw [hloud]; simpa using hne)
  refine ⟨v, hv1, hfin, ?_⟩
  rw [integratedR, hgd] at hv
  have W2 : 0 < W * c1 := mul_pos W0 (by linarith)
  have hq : θ / meanR (ks.map P) ≤ 44 / 10 ^ 6 := by
    rw [div_le_iff₀ (by linarith)]
    have : W * (1 / 4) ≤ W * c1 := mul_le_mul_of_nonneg_left hc1 W0.le
    have := hθ.2
    norm_num at this ⊢
    linarith
  have m1 := lufs_mono W2 hmean1
  have m2 := lufs_mono (by linarith) hmean2
  have hv := abs_le.1 hv
  norm_num at hv hη hq hδ ⊢
  constructor <;> linarith [hv.1, hv.2]

/-- The loudness range of a programme of tones measured with a histogram, if the integers allow it. -/
theorem tones_range_bins {δ : ℝ} (hδ : δ ≤ 1 / 10 ^ 5) (hm : LogWithin m δ) (hel : ElemWithin m (1 / 2 ^ 50))
    (ht : HundredthWithin m) (hu : t.usizeMax ≤ 2 ^ 64) {e0 e : Ebu F64 F32} (h : Started (ieeeEnv m bs t) e0) (hr : e0.rate = 48000)
    (hg : Adequate e0.mode e0.rate e0.window) (hI : e0.mode.contains Mode.LRA = true) {h0 : List Nat}
    (hq : e0.shortTermBlockEnergyHistory = .histogram h0) (hh0 : h0.sum = 0) {ops : List (Op F64 F32)} (hops : ∀ op ∈ ops, Feed op)
    (hrun : runOps (ieeeEnv m bs t) e0 ops = .done e)
    (hp : Plays tol segs e0.channels gain φ (heard (ieeeEnv m bs t) e0.channels ops)) (ha : Rounded segs amps)
    (t0 : 0 ≤ tol) (hs : ∀ s ∈ segs, s.2 ≤ 0)
    (hlong : Spec.tenths amps ≤ 10 ^ 6)
    (hshort : 30 ≤ Spec.tenths amps) {X : ℝ} (hX : 1 / 2 ^ 13 ≤ X) (hX' : X ≤ 2 ^ 60)
    (hXs : ∀ c < e0.channels, (1 + tol) * (10 : ℝ) ^ (gain c / 20) ≤ X)
    (hW : totalWeight e0.channelMap * X ^ 2 ≤ 3 * fullPower e0.channelMap gain) {V ε : ℕ}
    (hV : sumOver (leap (ampAt amps)) 0 (Spec.tenths amps) ≤ V) (hε : 13 * (tol + 1 / 10 ^ 6) ≤ (ε : ℝ) / 10 ^ 6)
    {n sl sh : ℕ} (hsp : Split 100 ((shortTenths (Spec.tenths amps)).map (shortBounds amps V ε)) n sl sh) {μ : ℝ}
    (hμ : 35 / 10 ^ 5 ≤ μ) (hμ1 : μ ≤ 1) (hμW : 3 / 10 ^ 7 ≤ fullPower e0.channelMap gain * μ)
    (hfloor : ∀ j ∈ shortTenths (Spec.tenths amps), μ * (14400000 * 10 ^ 18) ≤ (shortBounds amps V ε j).1) {M : ℝ}
    (hceil : ∀ j ∈ shortTenths (Spec.tenths amps), (shortBounds amps V ε j).2 ≤ M * (14400000 * 10 ^ 18))
    (hM : fullPower e0.channelMap gain * M ≤ 990) (hW9 : fullPower e0.channelMap gain ≤ 990) {a1 a2 b1 b2 : ℕ}
    (hrk : Ranks (((shortTenths (Spec.tenths amps)).map (shortBounds amps V ε)).filter fun x => passes 100 n sh x.1) a1 a2 b1 b2)
    (ha1 : (1 / 200 : ℝ) * (14400000 * 10 ^ 18) ≤ a1) {ρ1 ρ2 : ℝ} (r1 : 0 < ρ1) (r2 : 0 < ρ2) (hρ1 : ρ1 * a2 ≤ b1) (hρ2 : b2 ≤ ρ2 * a1) :
    ∃ v : F64, ask (ieeeEnv m bs t) e .loudnessRange = .done (.ok v) ∧ v.Finite ∧
      10 * Real.logb 10 ρ1 - (2 * halfBin + 1 / 50) ≤ v.value ∧ v.value ≤ 10 * Real.logb 10 ρ2 + (2 * halfBin + 1 / 50) := by
  have hi := h.reachable.inv
  have hcm : e0.channelMap.length = e0.channels := hi.map
  have hc64 : e0.channels ≤ 64 := hi.ch64
  have hx := plays_within hp hs hXs
  obtain ⟨hPs, hb⟩ := short_powers bs 0 hp ha t0 hcm hV hε
  have key := C60_range (hδ.trans (by norm_num)) hm hel ht hu h hg hI hq hh0 (by omega) (by omega) hops hrun
    ((one_div_le_one_div_of_le (by positivity) (big_le (by norm_num))).trans hX) hX' (.inr hX) hx (r := 1 / 1000)
    (by norm_num) bs 0
  dsimp only at key
  rw [hr] at key
  have hPs' : idealShorts bs 0 48000 e0.channelMap (heard (ieeeEnv m bs t) e0.channels ops)
    (measured (ieeeEnv m bs t) e0.channels ops) = _ := hPs
  rw [hPs'] at key
  have hlen : ((shortTenths (Spec.tenths amps)).map fun j => idealPower e0.channelMap (30 * 4800) (j * 4800)
      (idealOuts bs 0 48000 (heard (ieeeEnv m bs t) e0.channels ops))).length ≤ Spec.tenths amps := by
    rw [List.length_map]
    unfold shortTenths
    rw [List.range_succ_eq_map, List.filter_cons_of_neg (by simp)]
    refine (List.length_filter_le _ _).trans ?_
    simp
  have hne : shortTenths (Spec.tenths amps) ≠ [] := by
    refine List.ne_nil_of_mem (a := 30) (List.mem_filter.2 ⟨List.mem_range.2 (by omega), by simp⟩)
  have W0 : 0 < fullPower e0.channelMap gain := by
    by_contra hc
    push Not at hc
    have : fullPower e0.channelMap gain * μ ≤ 0 := mul_nonpos_of_nonpos_of_nonneg hc (by linarith)
    linarith
  have Pfl : ∀ j ∈ shortTenths (Spec.tenths amps), fullPower e0.channelMap gain * μ ≤
      idealPower e0.channelMap (30 * 4800) (j * 4800) (idealOuts bs 0 48000 (heard (ieeeEnv m bs t) e0.channels ops)) := by
    intro j hj
    refine le_trans ?_ (hb j hj).1
    have := mul_le_mul_of_nonneg_left (hfloor j hj) (div_nonneg W0.le (by norm_num : (0 : ℝ) ≤ 14400000 * 10 ^ 18))
    refine le_trans (le_of_eq ?_) this
    field_simp
  have Pce : ∀ j ∈ shortTenths (Spec.tenths amps),
      idealPower e0.channelMap (30 * 4800) (j * 4800) (idealOuts bs 0 48000 (heard (ieeeEnv m bs t) e0.channels ops)) ≤ 990 := by
    intro j hj
    refine (hb j hj).2.trans (le_trans ?_ hM)
    have := mul_le_mul_of_nonneg_left (hceil j hj) (div_nonneg W0.le (by norm_num : (0 : ℝ) ≤ 14400000 * 10 ^ 18))
    refine this.trans (le_of_eq ?_)
    field_simp
  have W1 : fullPower e0.channelMap gain * (35 / 10 ^ 5) ≤ fullPower e0.channelMap gain * μ := mul_le_mul_of_nonneg_left hμ W0.le
  have W3 : fullPower e0.channelMap gain * μ ≤ fullPower e0.channelMap gain * 1 := mul_le_mul_of_nonneg_left hμ1 W0.le
  rw [mul_one] at W3
  generalize hWe : fullPower e0.channelMap gain = W at *
  -- the uncertainties
  have hη : (1 : ℝ) / 1000 + (30 * hop 48000 + e0.channels + ((shortTenths (Spec.tenths amps)).map fun j =>
      idealPower e0.channelMap (30 * 4800) (j * 4800) (idealOuts bs 0 48000
        (heard (ieeeEnv m bs t) e0.channels ops))).length + 1024 : ℝ) / 2 ^ 50 ≤ 1 / 999 := by
    rw [show hop 48000 = 4800 by decide]
    have c64 : (e0.channels : ℝ) ≤ 64 := by exact_mod_cast hc64
    have l6 := hlen.trans hlong
    generalize ((shortTenths (Spec.tenths amps)).map fun j =>
      idealPower e0.channelMap (30 * 4800) (j * 4800) (idealOuts bs 0 48000
        (heard (ieeeEnv m bs t) e0.channels ops))).length = L at *
    have l6 : (L : ℝ) ≤ 10 ^ 6 := by exact_mod_cast l6
    have : (30 * (4800 : ℕ) + e0.channels + L + 1024 : ℝ) / 2 ^ 50 ≤ (30 * 4800 + 64 + 10 ^ 6 + 1024) / 2 ^ 50 := by
      refine div_le_div_of_nonneg_right ?_ (by positivity)
      push_cast
      linarith
    norm_num at this ⊢
    linarith
  have hη0 : (0 : ℝ) ≤ (1 : ℝ) / 1000 + (30 * hop 48000 + e0.channels + ((shortTenths (Spec.tenths amps)).map fun j =>
      idealPower e0.channelMap (30 * 4800) (j * 4800) (idealOuts bs 0 48000
        (heard (ieeeEnv m bs t) e0.channels ops))).length + 1024 : ℝ) / 2 ^ 50 := by positivity
  have hθ := noise48 (r := 1 / 1000) hW (by linarith) (by norm_num) (by norm_num)
  have hmem : ∀ p ∈ (shortTenths (Spec.tenths amps)).map fun j => idealPower e0.channelMap (30 * 4800) (j * 4800)
      (idealOuts bs 0 48000 (heard (ieeeEnv m bs t) e0.channels ops)), W * μ ≤ p := by
    intro p hp
    obtain ⟨j, hj, rfl⟩ := List.mem_map.1 hp
    exact Pfl j hj
  generalize hPe : (fun j => idealPower e0.channelMap (30 * 4800) (j * 4800)
      (idealOuts bs 0 48000 (heard (ieeeEnv m bs t) e0.channels ops))) = P at *
  have Pfl : ∀ j ∈ shortTenths (Spec.tenths amps), W * μ ≤ P j := by
    rw [← hPe]
    exact Pfl
  have Pce : ∀ j ∈ shortTenths (Spec.tenths amps), P j ≤ 990 := by
    rw [← hPe]
    exact Pce
  have hlen2 := hlen.trans hlong
  generalize (1 : ℝ) / 1000 + (30 * hop 48000 + e0.channels + ((shortTenths (Spec.tenths amps)).map P).length + 1024 : ℝ) / 2 ^ 50 = η at *
  generalize 3 / (1 / 1000) * noisePower e0.channelMap 48000 X + 1 / 2 ^ 300 = θ at *
  have hθ' : θ ≤ 32 / 10 ^ 4 * (W * μ) := by
    have := hθ.2
    norm_num at this ⊢
    linarith
  have c0 : 0 < W / (14400000 * 10 ^ 18) := by positivity
  have e70 := energy70_le
  have hloud : loud ((shortTenths (Spec.tenths amps)).map P) = (shortTenths (Spec.tenths amps)).map P :=
    List.filter_eq_self.2 fun p hp => decide_eq_true (by linarith [hmem p hp])
  have hgate := fun {j} (hj : j ∈ shortTenths (Spec.tenths amps)) => split_gate c0 (by norm_num : 0 < 100) hne hsp hb hj
  have hgR : rangeGateR ((shortTenths (Spec.tenths amps)).map P) = meanR ((shortTenths (Spec.tenths amps)).map P) / (100 : ℕ) := by
    rw [rangeGateR, hloud]
    norm_num
  have hgd : rangeGatedR ((shortTenths (Spec.tenths amps)).map P) =
      ((shortTenths (Spec.tenths amps)).filter fun j => passes 100 n sh (shortBounds amps V ε j).1).map P := by
    rw [rangeGatedR, hloud, hgR]
    exact split_filter c0 (by norm_num) hne hsp hb fun j hj => by linarith [Pfl j hj]
  have hfm : ((shortTenths (Spec.tenths amps)).map (shortBounds amps V ε)).filter (fun x => passes 100 n sh x.1) =
      ((shortTenths (Spec.tenths amps)).filter fun j => passes 100 n sh (shortBounds amps V ε j).1).map (shortBounds amps V ε) := by
    rw [List.filter_map]
    rfl
  rw [hfm] at hrk
  obtain ⟨⟨p1, p2⟩, p3, p4⟩ := hrk.between (P := P) c0 fun j hj => hb j (List.mem_filter.1 hj).1
  have hκ := bin_margin (κ := binFactor ^ 2 * (1 + 4 * η)) hη0 (hη.trans (by norm_num)) rfl
  obtain ⟨v, hv1, -, hv2⟩ := key (hη.trans (by norm_num)) (hlen2.trans (by norm_num)) 
    (fun p hp => by
      obtain ⟨j, hj, rfl⟩ := List.mem_map.1 hp
      have := Pce j hj
      linarith)
    (fun p hp => by
      have h2 := hmem p hp
      left
      have h5 : 2 * η * (energyOf (-70) + 2 * θ) ≤ 2 * (1 / 999) * (W * μ) :=
        mul_le_mul (by linarith) (by linarith) (by have : 0 ≤ energyOf (-70) := (energyOf_pos _).le; linarith) (by norm_num)
      linarith)
    (fun p hp => by
      rw [hloud] at hp
      obtain ⟨j, hj, rfl⟩ := List.mem_map.1 hp
      have h2 := Pfl j hj
      obtain ⟨q1, q2⟩ := hgate hj
      rw [hgR]
      generalize meanR ((shortTenths (Spec.tenths amps)).map P) / (100 : ℕ) = Γ at *
      generalize binFactor ^ 2 * (1 + 4 * η) = κ at *
      cases hpass : passes 100 n sh (shortBounds amps V ε j).1 with
      | true =>
        have q := q1 hpass
        left
        rcases le_total 0 (Γ + 2 * θ) with hΓ | hΓ
        · have := mul_le_mul_of_nonneg_right hκ.2 hΓ
          linarith
        · exact lt_of_le_of_lt (mul_nonpos_of_nonneg_of_nonpos (by linarith [hκ.1]) hΓ) (by linarith)
      | false =>
        have q := q2 hpass
        right
        have := mul_le_mul_of_nonneg_right hκ.2 (show 0 ≤ P j + 2 * θ by linarith)
        linarith)
  obtain ⟨hfin, hv⟩ := hv2 (by rw [hloud]; simpa using hne)
  refine ⟨v, hv1, hfin, ?_⟩
  rw [rangeR, hgd] at hv
  generalize hks : (shortTenths (Spec.tenths amps)).filter (fun j => passes 100 n sh (shortBounds amps V ε j).1) = ks at *
  generalize percentileR (ks.map P) 10 100 = Q1 at *
  generalize percentileR (ks.map P) 95 100 = Q2 at *
  have q0 : W * (1 / 200) ≤ Q1 := by
    refine le_trans ?_ p1
    have := mul_le_mul_of_nonneg_left ha1 c0.le
    refine le_trans (le_of_eq ?_) this
    field_simp
  have Q0 : 0 < Q1 := by linarith
  have hq : θ / Q1 ≤ 23 / 10 ^ 5 := by
    rw [div_le_iff₀ Q0]
    have := hθ.2
    norm_num at this ⊢
    linarith
  generalize W / (14400000 * 10 ^ 18) = c at *
  have d1 : ρ1 * Q1 ≤ Q2 := by
    have h1 := mul_le_mul_of_nonneg_left p2 r1.le
    have h2 := mul_le_mul_of_nonneg_left hρ1 c0.le
    linarith
  have d2 : Q2 ≤ ρ2 * Q1 := by
    have h1 := mul_le_mul_of_nonneg_left p1 r2.le
    have h2 := mul_le_mul_of_nonneg_left hρ2 c0.le
    linarith
  have Q2p : 0 < Q2 := lt_of_lt_of_le (mul_pos r1 Q0) d1
  have m1 := lufs_ratio Q0 r1 d1
  have m2 := lufs_ratio_le Q2p Q0 r2 d2
  have hv := abs_le.1 hv
  norm_num at hv hη hq hδ ⊢
  constructor <;> linarith [hv.1, hv.2]

end Verif
