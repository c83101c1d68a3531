import Verif.Proofs.ToneGate
/-!
# The loudness of a programme of steady tones
-/

namespace Verif
open Spec
variable {m : Libm F64} {bs : BSearch} {t : Target}

theorem energy70_le : energyOf (-70) ≤ 12 / 10 ^ 8 := by
  unfold energyOf
  have h1 : (10 : ℝ) ^ ((7 : ℝ) / 100) ≤ 12 / 10 := by
    have : (10 : ℝ) ^ ((7 : ℝ) / 100) = ((10 : ℝ) ^ (7 : ℕ)) ^ ((1 : ℝ) / (100 : ℕ)) := by
      rw [← Real.rpow_natCast, ← Real.rpow_mul (by norm_num)]
      norm_num
    rw [this]
    calc ((10 : ℝ) ^ (7 : ℕ)) ^ ((1 : ℝ) / (100 : ℕ)) ≤ ((12 / 10 : ℝ) ^ 100) ^ ((1 : ℝ) / (100 : ℕ)) :=
          Real.rpow_le_rpow (by positivity) (by norm_num) (by positivity)
      _ = 12 / 10 := by
          rw [one_div]
          exact Real.pow_rpow_inv_natCast (by norm_num) (by norm_num)
  have h2 : (10 : ℝ) ^ (((-70 : ℝ) + 691 / 1000) / 10) ≤ (10 : ℝ) ^ ((7 : ℝ) / 100 + (-7 : ℝ)) :=
    Real.rpow_le_rpow_of_exponent_le (by norm_num) (by norm_num)
  rw [Real.rpow_add (by norm_num)] at h2
  have h3 : (10 : ℝ) ^ (-7 : ℝ) = 1 / 10 ^ 7 := by
    rw [Real.rpow_neg (by norm_num), one_div]
    norm_num
  rw [h3] at h2
  refine h2.trans ?_
  linarith

theorem stateGain48 : stateGain 48000 ≤ 3000000 := by
  unfold stateGain
  norm_num

theorem lufs_mono {x y : ℝ} (hx : 0 < x) (h : x ≤ y) : lufs x ≤ lufs y := by
  unfold lufs
  have := Real.logb_le_logb_of_le (b := 10) (by norm_num) hx h
  linarith

theorem sumOver_mono (f : ℕ → ℕ) {k K : ℕ} (h : k ≤ K) : sumOver f 0 k ≤ sumOver f 0 K := by
  unfold sumOver
  rw [list_sum_range, list_sum_range]
  exact Finset.sum_le_sum_of_subset (Finset.range_subset_range.2 h)

/-- The noise of the filter at 48 kHz, as a part of the power of a tone. -/
theorem noise48 {cm : List Channel} {X W r : ℝ} (hW : totalWeight cm * X ^ 2 ≤ 3 * W) (hW' : 1 / 10 ^ 7 ≤ W) (r0 : 0 < r)
    (r1 : r ≤ 1 / 500) :
    0 ≤ 3 / r * noisePower cm 48000 X + 1 / 2 ^ 300 ∧
      3 / r * noisePower cm 48000 X + 1 / 2 ^ 300 ≤ 11 / 10 ^ 10 / r * W := by
  have g1 := stateGain48
  have g0 : 0 ≤ stateGain 48000 := by unfold stateGain; positivity
  have w0 := (totalWeight_bounds cm).1
  have n1 : noisePower cm 48000 X ≤ (3000000 / 2 ^ 38) ^ 2 * (3 * W) := by
    unfold noisePower
    have h1 : (stateGain 48000 / 2 ^ 38) ^ 2 ≤ (3000000 / 2 ^ 38 : ℝ) ^ 2 :=
      pow_le_pow_left₀ (by positivity) (div_le_div_of_nonneg_right g1 (by positivity)) 2
    calc totalWeight cm * (stateGain 48000 / 2 ^ 38 * X) ^ 2 = (stateGain 48000 / 2 ^ 38) ^ 2 * (totalWeight cm * X ^ 2) := by ring
      _ ≤ (3000000 / 2 ^ 38 : ℝ) ^ 2 * (3 * W) := mul_le_mul h1 hW (by positivity) (by positivity)
  have n0 : 0 ≤ noisePower cm 48000 X := mul_nonneg w0 (by positivity)
  have t1 : (1 : ℝ) / 2 ^ 300 ≤ 1 / 2 ^ 60 := one_div_le_one_div_of_le (by positivity) (big_le (by norm_num))
  have t0 : (0 : ℝ) < 1 / 2 ^ 300 := by positivity
  generalize (1 : ℝ) / 2 ^ 300 = τ at *
  generalize noisePower cm 48000 X = ν at *
  constructor
  · positivity
  · rw [div_mul_eq_mul_div, div_mul_eq_mul_div, div_add' _ _ _ r0.ne', div_le_div_iff_of_pos_right r0]
    have : τ * r ≤ 1 / 2 ^ 60 * 1 := mul_le_mul t1 (by linarith) r0.le (by positivity)
    norm_num at this n1 ⊢
    linarith

/-- The bounds, as integers, of the gating block that ends with tenth `j`. -/
def blockBounds (amps : List (ℕ × ℕ)) (V e j : ℕ) : ℕ × ℕ := (low (ampAt amps) V e 4 (j - 4), high (ampAt amps) V e 4 (j - 4))

/-- The tenths of a second at whose ends a gating block ends. -/
def blockTenths (K : ℕ) : List ℕ := (List.range (K + 1)).filter fun j => 4 ≤ j

section
variable {tol : ℝ} {segs : List (ℕ × ℝ)} {amps : List (ℕ × ℕ)} {gain φ : ℕ → ℝ}

theorem block_powers (bs : BSearch) (u : Nat) {channels : ℕ} {evs : List (Event F64)}
    (h : Plays tol segs channels gain φ evs) (ha : Rounded segs amps)
    (t0 : 0 ≤ tol) {cm : List Channel} (hcm : cm.length = channels) {V e : ℕ}
    (hV : sumOver (leap (ampAt amps)) 0 (Spec.tenths amps) ≤ V) (he : 13 * (tol + 1 / 10 ^ 6) ≤ (e : ℝ) / 10 ^ 6) :
    let P := fun j => idealPower cm (4 * 4800) (j * 4800) (idealOuts bs u 48000 evs)
    idealBlocks bs u 48000 cm evs (count evs) = (blockTenths (Spec.tenths amps)).map P ∧
      ∀ j ∈ blockTenths (Spec.tenths amps),
        fullPower cm gain / (1920000 * 10 ^ 18) * ((blockBounds amps V e j).1 : ℝ) ≤ P j ∧
        P j ≤ fullPower cm gain / (1920000 * 10 ^ 18) * ((blockBounds amps V e j).2 : ℝ) := by
  intro P
  constructor
  · unfold idealBlocks blockEnds blockTenths
    rw [plays_count h, ha.tenths, show hop 48000 = 4800 by decide, Nat.mul_div_cancel _ (by norm_num), List.map_map]
    rfl
  · intro j hj
    have hj := List.mem_filter.1 hj
    have h4 : 4 ≤ j := by simpa using hj.2
    have hK := List.mem_range.1 hj.1
    have := window_bounds bs u h ha t0 hcm (w := 4) (k := j - 4) (V := V) (e := e) (by norm_num)
      (by rw [ha.tenths]; omega) ((sumOver_mono _ (by omega)).trans hV) he
    rw [Nat.sub_add_cancel h4] at this
    obtain ⟨a1, a2⟩ := this
    have e1 : ∀ x : ℝ, fullPower cm gain * (x / (480000 * (4 : ℕ) * 10 ^ 18)) = fullPower cm gain / (1920000 * 10 ^ 18) * x := by
      intro x
      push_cast
      ring
    rw [e1] at a1 a2
    exact ⟨a1, a2⟩

/-- The integrated loudness of a programme of tones, if the integers allow it. -/
theorem tones_integrated {δ : ℝ} (hδ : δ ≤ 1 / 10 ^ 5) (hm : LogWithin m δ) (hel : ElemWithin m (1 / 2 ^ 50))
    (ht : TenthWithin m) {e0 e : Ebu F64 F32} (h : Started (ieeeEnv m bs t) e0) (hr : e0.rate = 48000)
    (hg : Adequate e0.mode e0.rate e0.window) (hI : e0.mode.contains Mode.I = true) {max : Nat}
    (hq : e0.blockEnergyHistory = .queue [] max) {ops : List (Op F64 F32)} (hops : ∀ op ∈ ops, Feed op)
    (hrun : runOps (ieeeEnv m bs t) e0 ops = .done e)
    (hp : Plays tol segs e0.channels gain φ (heard (ieeeEnv m bs t) e0.channels ops)) (ha : Rounded segs amps)
    (t0 : 0 ≤ tol) (hs : ∀ s ∈ segs, s.2 ≤ 0) (hmax : Spec.tenths amps ≤ max) (hlong : Spec.tenths amps ≤ 10 ^ 6)
    (hshort : 4 ≤ Spec.tenths amps) {X : ℝ} (hX : 1 / 2 ^ 13 ≤ X) (hX' : X ≤ 2 ^ 60)
    (hXs : ∀ c < e0.channels, (1 + tol) * (10 : ℝ) ^ (gain c / 20) ≤ X)
    (hW : totalWeight e0.channelMap * X ^ 2 ≤ 3 * fullPower e0.channelMap gain) {V ε : ℕ}
    (hV : sumOver (leap (ampAt amps)) 0 (Spec.tenths amps) ≤ V) (hε : 13 * (tol + 1 / 10 ^ 6) ≤ (ε : ℝ) / 10 ^ 6)
    {n sl sh : ℕ} (hsp : Split 10 ((blockTenths (Spec.tenths amps)).map (blockBounds amps V ε)) n sl sh) {μ : ℝ}
    (hμ : 1 / 100 ≤ μ) (hμ1 : μ ≤ 1) (hμW : 3 / 10 ^ 7 ≤ fullPower e0.channelMap gain * μ)
    (hfloor : ∀ j ∈ blockTenths (Spec.tenths amps), μ * (1920000 * 10 ^ 18) ≤ (blockBounds amps V ε j).1) {c1 c2 : ℝ}
    (hc1 : 1 / 4 ≤ c1)
    (h1 : let g := ((blockTenths (Spec.tenths amps)).map (blockBounds amps V ε)).filter fun x => passes 10 n sh x.1
      c1 * (1920000 * 10 ^ 18 * g.length) ≤ ((g.map Prod.fst).sum : ℕ) ∧ 
      (((g.map Prod.snd).sum : ℕ) : ℝ) ≤ c2 * (1920000 * 10 ^ 18 * g.length) ∧ g ≠ []) :
    ∃ v : F64, ask (ieeeEnv m bs t) e .loudnessGlobal = .done (.ok v) ∧ v.Finite ∧
      lufs (fullPower e0.channelMap gain * c1) - 4 / 1000 ≤ v.value ∧
      v.value ≤ lufs (fullPower e0.channelMap gain * c2) + 4 / 1000 := by
  have hi := h.reachable.inv
  have hcm : e0.channelMap.length = e0.channels := hi.map
  have hc64 : e0.channels ≤ 64 := hi.ch64
  have hx := plays_within hp hs hXs
  obtain ⟨hPs, hb⟩ := block_powers bs 0 hp ha t0 hcm hV hε
  have key := C58_integrated (hδ.trans (by norm_num)) hm hel ht h hg hI hq (by omega) (by omega) hops hrun
    ((one_div_le_one_div_of_le (by positivity) (big_le (by norm_num))).trans hX) hX' (.inr hX) hx (r := 1 / 10000)
    (by norm_num) bs 0
  dsimp only at key
  rw [hr] at key
  have hPs' : idealBlocks bs 0 48000 e0.channelMap (heard (ieeeEnv m bs t) e0.channels ops)
    (measured (ieeeEnv m bs t) e0.channels ops) = _ := hPs
  rw [hPs'] at key
  have hlen : ((blockTenths (Spec.tenths amps)).map fun j => idealPower e0.channelMap (4 * 4800) (j * 4800)
      (idealOuts bs 0 48000 (heard (ieeeEnv m bs t) e0.channels ops))).length ≤ Spec.tenths amps := by
    rw [List.length_map]
    unfold blockTenths
    have hnot : ¬ (4 ≤ 0) := by omega
    rw [List.range_succ_eq_map, List.filter_cons_of_neg (by simp)]
    refine (List.length_filter_le _ _).trans ?_
    simp
  have hne : blockTenths (Spec.tenths amps) ≠ [] := by
    refine List.ne_nil_of_mem (a := 4) (List.mem_filter.2 ⟨List.mem_range.2 (by omega), by simp⟩)
  have W0 : 0 < fullPower e0.channelMap gain := by
    by_contra hc
    push Not at hc
    have : fullPower e0.channelMap gain * μ ≤ 0 := mul_nonpos_of_nonpos_of_nonneg hc (by linarith)
    linarith
  have Pfl : ∀ j ∈ blockTenths (Spec.tenths amps), fullPower e0.channelMap gain * μ ≤
      idealPower e0.channelMap (4 * 4800) (j * 4800) (idealOuts bs 0 48000 (heard (ieeeEnv m bs t) e0.channels ops)) := by
    intro j hj
    refine le_trans ?_ (hb j hj).1
    have := mul_le_mul_of_nonneg_left (hfloor j hj) (div_nonneg W0.le (by norm_num : (0 : ℝ) ≤ 1920000 * 10 ^ 18))
    refine le_trans (le_of_eq ?_) this
    field_simp
  have W1 : fullPower e0.channelMap gain * (1 / 100) ≤ fullPower e0.channelMap gain * μ := mul_le_mul_of_nonneg_left hμ W0.le
  have W3 : fullPower e0.channelMap gain * μ ≤ fullPower e0.channelMap gain * 1 := mul_le_mul_of_nonneg_left hμ1 W0.le
  rw [mul_one] at W3
  generalize hWe : fullPower e0.channelMap gain = W at *
  -- the uncertainties
  have hη : (1 : ℝ) / 10000 + (4 * hop 48000 + e0.channels + ((blockTenths (Spec.tenths amps)).map fun j =>
      idealPower e0.channelMap (4 * 4800) (j * 4800) (idealOuts bs 0 48000
        (heard (ieeeEnv m bs t) e0.channels ops))).length + 64 : ℝ) / 2 ^ 50 ≤ 1 / 9999 := by
    rw [show hop 48000 = 4800 by decide]
    have c64 : (e0.channels : ℝ) ≤ 64 := by exact_mod_cast hc64
    have l6 := hlen.trans hlong
    generalize ((blockTenths (Spec.tenths amps)).map fun j =>
      idealPower e0.channelMap (4 * 4800) (j * 4800) (idealOuts bs 0 48000
        (heard (ieeeEnv m bs t) e0.channels ops))).length = L at *
    have l6 : (L : ℝ) ≤ 10 ^ 6 := by exact_mod_cast l6
    have : (4 * (4800 : ℕ) + e0.channels + L + 64 : ℝ) / 2 ^ 50 ≤ (4 * 4800 + 64 + 10 ^ 6 + 64) / 2 ^ 50 := by
      refine div_le_div_of_nonneg_right ?_ (by positivity)
      push_cast
      linarith
    norm_num at this ⊢
    linarith
  have hη0 : (0 : ℝ) ≤ (1 : ℝ) / 10000 + (4 * hop 48000 + e0.channels + ((blockTenths (Spec.tenths amps)).map fun j =>
      idealPower e0.channelMap (4 * 4800) (j * 4800) (idealOuts bs 0 48000
        (heard (ieeeEnv m bs t) e0.channels ops))).length + 64 : ℝ) / 2 ^ 50 := by positivity
  have hθ := noise48 (r := 1 / 10000) hW (by linarith) (by norm_num) (by norm_num)
  have hmem : ∀ p ∈ (blockTenths (Spec.tenths amps)).map fun j => idealPower e0.channelMap (4 * 4800) (j * 4800)
      (idealOuts bs 0 48000 (heard (ieeeEnv m bs t) e0.channels ops)), W * μ ≤ p := by
    intro p hp
    obtain ⟨j, hj, rfl⟩ := List.mem_map.1 hp
    exact Pfl j hj
  generalize hPe : (fun j => idealPower e0.channelMap (4 * 4800) (j * 4800)
      (idealOuts bs 0 48000 (heard (ieeeEnv m bs t) e0.channels ops))) = P at *
  have Pfl : ∀ j ∈ blockTenths (Spec.tenths amps), W * μ ≤ P j := by
    rw [← hPe]
    exact Pfl
  have hlen2 := hlen.trans hlong
  generalize (1 : ℝ) / 10000 + (4 * hop 48000 + e0.channels + ((blockTenths (Spec.tenths amps)).map P).length + 64 : ℝ) / 2 ^ 50 = η at *
  generalize 3 / (1 / 10000) * noisePower e0.channelMap 48000 X + 1 / 2 ^ 300 = θ at *
  have hθ' : θ ≤ 11 / 10 ^ 4 * (W * μ) := by
    have := hθ.2
    norm_num at this ⊢
    linarith
  have c0 : 0 < W / (1920000 * 10 ^ 18) := by positivity
  have e70 := energy70_le
  have hloud : loud ((blockTenths (Spec.tenths amps)).map P) = (blockTenths (Spec.tenths amps)).map P :=
    List.filter_eq_self.2 fun p hp => decide_eq_true (by linarith [hmem p hp])
  have hgate := fun {j} (hj : j ∈ blockTenths (Spec.tenths amps)) => split_gate c0 (by norm_num : 0 < 10) hne hsp hb hj
  have hgR : gateR ((blockTenths (Spec.tenths amps)).map P) = meanR ((blockTenths (Spec.tenths amps)).map P) / (10 : ℕ) := by
    rw [gateR, hloud]
    norm_num
  have hgd : gatedR ((blockTenths (Spec.tenths amps)).map P) =
      ((blockTenths (Spec.tenths amps)).filter fun j => passes 10 n sh (blockBounds amps V ε j).1).map P := by
    rw [gatedR, hloud, hgR]
    exact split_filter c0 (by norm_num) hne hsp hb fun j hj => by linarith [Pfl j hj]
  -- the mean of the gated blocks
  have hgs := sum_between (ks := (blockTenths (Spec.tenths amps)).filter fun j => passes 10 n sh (blockBounds amps V ε j).1)
    (f := blockBounds amps V ε) fun j hj => hb j (List.mem_filter.1 hj).1
  dsimp only at h1
  have hfm : ((blockTenths (Spec.tenths amps)).map (blockBounds amps V ε)).filter (fun x => passes 10 n sh x.1) =
      ((blockTenths (Spec.tenths amps)).filter fun j => passes 10 n sh (blockBounds amps V ε j).1).map (blockBounds amps V ε) := by
    rw [List.filter_map]
    rfl
  rw [hfm] at h1
  generalize hks : (blockTenths (Spec.tenths amps)).filter (fun j => passes 10 n sh (blockBounds amps V ε j).1) = ks at *
  obtain ⟨g1, g2, g3⟩ := h1
  have L0 : (0 : ℝ) < ks.length := by
    have : ks ≠ [] := fun hc => g3 (by rw [hc]; rfl)
    exact_mod_cast List.length_pos_iff.2 this
  rw [List.length_map] at g1 g2
  have hmean1 : W * c1 ≤ meanR (ks.map P) := by
    rw [meanR, List.length_map, le_div_iff₀ L0]
    refine le_trans ?_ hgs.1
    have := mul_le_mul_of_nonneg_left g1 c0.le
    refine le_trans (le_of_eq ?_) this
    field_simp
  have hmean2 : meanR (ks.map P) ≤ W * c2 := by
    rw [meanR, List.length_map, div_le_iff₀ L0]
    refine hgs.2.trans ?_
    have := mul_le_mul_of_nonneg_left g2 c0.le
    refine this.trans (le_of_eq ?_)
    field_simp
  obtain ⟨v, hv1, -, hv2⟩ := key (hη.trans (by norm_num)) (hlen.trans hmax) (hlen2.trans (by norm_num))
    (fun p hp => by
      have h2 := hmem p hp
      have h3 : η * p ≤ 1 / 9999 * p := mul_le_mul_of_nonneg_right hη (by linarith)
      rw [abs_of_pos (by linarith)]
      linarith)
    (fun p hp => by
      rw [hloud] at hp
      obtain ⟨j, hj, rfl⟩ := List.mem_map.1 hp
      have h2 := Pfl j hj
      obtain ⟨q1, q2⟩ := hgate hj
      rw [hgR]
      generalize meanR ((blockTenths (Spec.tenths amps)).map P) / (10 : ℕ) = Γ at *
      have h3 : η * P j ≤ 1 / 9999 * P j := mul_le_mul_of_nonneg_right hη (by linarith)
      cases hpass : passes 10 n sh (blockBounds amps V ε j).1 with
      | true =>
        have q := q1 hpass
        have h4 : η * Γ ≤ 1 / 9999 * P j := by
          rcases le_total 0 Γ with hΓ | hΓ
          · exact mul_le_mul hη (by linarith) hΓ (by norm_num)
          · exact (mul_nonpos_of_nonneg_of_nonpos hη0 hΓ).trans (by linarith)
        rw [abs_of_pos (by linarith)]
        linarith
      | false =>
        have q := q2 hpass
        have h4 : η * Γ ≤ 1 / 9999 * Γ := mul_le_mul_of_nonneg_right hη (by linarith)
        rw [abs_sub_comm, abs_of_pos (by linarith)]
        linarith)
  obtain ⟨hfin, hv⟩ := hv2 (by rw [hloud]; simpa using hne)
  refine ⟨v, hv1, hfin, ?_⟩
  rw [integratedR, hgd] at hv
  have W2 : 0 < W * c1 := mul_pos W0 (by linarith)
  have hq : θ / meanR (ks.map P) ≤ 44 / 10 ^ 6 := by
    rw [div_le_iff₀ (by linarith)]
    have : W * (1 / 4) ≤ W * c1 := mul_le_mul_of_nonneg_left hc1 W0.le
    have := hθ.2
    norm_num at this ⊢
    linarith
  have m1 := lufs_mono W2 hmean1
  have m2 := lufs_mono (by linarith) hmean2
  have hv := abs_le.1 hv
  norm_num at hv hη hq hδ ⊢
  constructor <;> linarith [hv.1, hv.2]

end

end Verif
