import Verif.Proofs.ToneLoudness
/-!
# The loudness range of programmes of tones
-/

namespace Verif
open Spec

/-! ## Percentiles of numbers known approximately -/

section
variable {ι : Type} {ks : List ι} {f : ι → ℕ × ℕ} {P : ι → ℝ} {c : ℝ}

theorem filter_length_mono {p q : ι → Bool} (h : ∀ j ∈ ks, p j = true → q j = true) :
    (ks.filter p).length ≤ (ks.filter q).length := by
  induction ks with
  | nil => simp
  | cons a l ih =>
    have := ih fun j hj => h j (List.mem_cons_of_mem _ hj)
    have ha := h a List.mem_cons_self
    rw [List.filter_cons, List.filter_cons]
    cases hp : p a
    · cases q a <;> simp <;> omega
    · rw [ha hp]
      simp
      omega

theorem percentile_ge (c0 : 0 < c) (h : ∀ j ∈ ks, c * (f j).1 ≤ P j) {num den x : ℕ}
    (hn : nearestRank (ks.map f).length num den < (ks.map f).length)
    (hx : (ks.map f).length ≤ nearestRank (ks.map f).length num den + ((ks.map f).filter fun y => x ≤ y.1).length) :
    c * x ≤ percentileR (ks.map P) num den := by
  rw [List.length_map] at hn hx
  refine le_percentileR (by rw [List.length_map]; exact hn) ?_
  rw [List.length_map]
  refine hx.trans (Nat.add_le_add_left ?_ _)
  rw [List.filter_map, List.filter_map, List.length_map, List.length_map]
  refine filter_length_mono fun j hj hxj => ?_
  have hxj : x ≤ (f j).1 := of_decide_eq_true hxj
  refine decide_eq_true ((mul_le_mul_of_nonneg_left ?_ c0.le).trans (h j hj))
  exact_mod_cast hxj

theorem percentile_le_of (c0 : 0 < c) (h : ∀ j ∈ ks, P j ≤ c * (f j).2) {num den x : ℕ}
    (hn : nearestRank (ks.map f).length num den < (ks.map f).length)
    (hx : nearestRank (ks.map f).length num den < ((ks.map f).filter fun y => y.2 ≤ x).length) :
    percentileR (ks.map P) num den ≤ c * x := by
  rw [List.length_map] at hn hx
  refine percentileR_le_of (by rw [List.length_map]; exact hn) ?_
  rw [List.length_map]
  refine hx.trans_le ?_
  rw [List.filter_map, List.filter_map, List.length_map, List.length_map]
  refine filter_length_mono fun j hj hxj => ?_
  have hxj : (f j).2 ≤ x := of_decide_eq_true hxj
  refine decide_eq_true ((h j hj).trans (mul_le_mul_of_nonneg_left ?_ c0.le))
  exact_mod_cast hxj

/-- Bounds on the percentiles, from bounds on the numbers. -/
structure Ranks (g : List (ℕ × ℕ)) (a1 a2 b1 b2 : ℕ) : Prop where
  pos : 0 < g.length
  low10 : g.length ≤ nearestRank g.length 10 100 + (g.filter fun y => a1 ≤ y.1).length
  high10 : nearestRank g.length 10 100 < (g.filter fun y => y.2 ≤ a2).length
  low95 : g.length ≤ nearestRank g.length 95 100 + (g.filter fun y => b1 ≤ y.1).length
  high95 : nearestRank g.length 95 100 < (g.filter fun y => y.2 ≤ b2).length

theorem Ranks.between (c0 : 0 < c) (h : ∀ j ∈ ks, c * (f j).1 ≤ P j ∧ P j ≤ c * (f j).2) {a1 a2 b1 b2 : ℕ}
    (hr : Ranks (ks.map f) a1 a2 b1 b2) :
    (c * a1 ≤ percentileR (ks.map P) 10 100 ∧ percentileR (ks.map P) 10 100 ≤ c * a2) ∧
      (c * b1 ≤ percentileR (ks.map P) 95 100 ∧ percentileR (ks.map P) 95 100 ≤ c * b2) := by
  have p0 := hr.pos
  have n10 : nearestRank (ks.map f).length 10 100 < (ks.map f).length := by unfold nearestRank; omega
  have n95 : nearestRank (ks.map f).length 95 100 < (ks.map f).length := by unfold nearestRank; omega
  exact ⟨⟨percentile_ge c0 (fun j hj => (h j hj).1) n10 hr.low10, percentile_le_of c0 (fun j hj => (h j hj).2) n10 hr.high10⟩,
    percentile_ge c0 (fun j hj => (h j hj).1) n95 hr.low95, percentile_le_of c0 (fun j hj => (h j hj).2) n95 hr.high95⟩

end

/-! ## The short-term blocks -/

def shortBounds (amps : List (ℕ × ℕ)) (V e j : ℕ) : ℕ × ℕ := (low (ampAt amps) V e 30 (j - 30), high (ampAt amps) V e 30 (j - 30))

/-- The tenths of a second at whose ends a short-term block of the range ends. -/
def shortTenths (K : ℕ) : List ℕ := (List.range (K + 1)).filter fun j => 30 ≤ j ∧ j % 10 = 0

section
variable {m : Libm F64} {bs : BSearch} {t : Target}
variable {tol : ℝ} {segs : List (ℕ × ℝ)} {amps : List (ℕ × ℕ)} {gain φ : ℕ → ℝ}

theorem short_powers (bs : BSearch) (u : Nat) {channels : ℕ} {evs : List (Event F64)}
    (h : Plays tol segs channels gain φ evs) (ha : Rounded segs amps)
    (t0 : 0 ≤ tol) {cm : List Channel} (hcm : cm.length = channels) {V e : ℕ}
    (hV : sumOver (leap (ampAt amps)) 0 (Spec.tenths amps) ≤ V) (he : 13 * (tol + 1 / 10 ^ 6) ≤ (e : ℝ) / 10 ^ 6) :
    let P := fun j => idealPower cm (30 * 4800) (j * 4800) (idealOuts bs u 48000 evs)
    idealShorts bs u 48000 cm evs (count evs) = (shortTenths (Spec.tenths amps)).map P ∧
      ∀ j ∈ shortTenths (Spec.tenths amps),
        fullPower cm gain / (14400000 * 10 ^ 18) * ((shortBounds amps V e j).1 : ℝ) ≤ P j ∧
        P j ≤ fullPower cm gain / (14400000 * 10 ^ 18) * ((shortBounds amps V e j).2 : ℝ) := by
  intro P
  constructor
  · unfold idealShorts shortEnds shortTenths
    rw [plays_count h, ha.tenths, show hop 48000 = 4800 by decide, Nat.mul_div_cancel _ (by norm_num), List.map_map]
    rfl
  · intro j hj
    have hj := List.mem_filter.1 hj
    have h4 : 30 ≤ j := (of_decide_eq_true hj.2).1
    have hK := List.mem_range.1 hj.1
    have := window_bounds bs u h ha t0 hcm (w := 30) (k := j - 30) (V := V) (e := e) (by norm_num)
      (by rw [ha.tenths]; omega) ((sumOver_mono _ (by omega)).trans hV) he
    rw [Nat.sub_add_cancel h4] at this
    obtain ⟨a1, a2⟩ := this
    have e1 : ∀ x : ℝ, fullPower cm gain * (x / (480000 * (30 : ℕ) * 10 ^ 18)) = fullPower cm gain / (14400000 * 10 ^ 18) * x := by
      intro x
      push_cast
      ring
    rw [e1] at a1 a2
    exact ⟨a1, a2⟩

/-- A quotient of powers as a difference of levels. -/
theorem lufs_ratio {p q ρ : ℝ} (q0 : 0 < q) (ρ0 : 0 < ρ) (h : ρ * q ≤ p) : 10 * Real.logb 10 ρ ≤ lufs p - lufs q := by
  have := Real.logb_le_logb_of_le (b := 10) (by norm_num) (by positivity) h
  rw [Real.logb_mul ρ0.ne' q0.ne'] at this
  unfold lufs
  linarith

theorem lufs_ratio_le {p q ρ : ℝ} (p0 : 0 < p) (q0 : 0 < q) (ρ0 : 0 < ρ) (h : p ≤ ρ * q) : lufs p - lufs q ≤ 10 * Real.logb 10 ρ := by
  have := Real.logb_le_logb_of_le (b := 10) (by norm_num) p0 h
  rw [Real.logb_mul ρ0.ne' q0.ne'] at this
  unfold lufs
  linarith

/-- The loudness range of a programme of tones, if the integers allow it. -/
theorem tones_range {δ : ℝ} (hδ : δ ≤ 1 / 10 ^ 5) (hm : LogWithin m δ) (hel : ElemWithin m (1 / 2 ^ 50))
    (ht : HundredthWithin m) (hu : t.usizeMax ≤ 2 ^ 64) {e0 e : Ebu F64 F32} (h : Started (ieeeEnv m bs t) e0) (hr : e0.rate = 48000)
    (hg : Adequate e0.mode e0.rate e0.window) (hI : e0.mode.contains Mode.LRA = true) {max : Nat}
    (hq : e0.shortTermBlockEnergyHistory = .queue [] max) {ops : List (Op F64 F32)} (hops : ∀ op ∈ ops, Feed op)
    (hrun : runOps (ieeeEnv m bs t) e0 ops = .done e)
    (hp : Plays tol segs e0.channels gain φ (heard (ieeeEnv m bs t) e0.channels ops)) (ha : Rounded segs amps)
    (t0 : 0 ≤ tol) (hs : ∀ s ∈ segs, s.2 ≤ 0) (hmax : Spec.tenths amps ≤ max) (hus : Spec.tenths amps ≤ t.usizeMax)
    (hlong : Spec.tenths amps ≤ 10 ^ 6)
    (hshort : 30 ≤ Spec.tenths amps) {X : ℝ} (hX : 1 / 2 ^ 13 ≤ X) (hX' : X ≤ 2 ^ 60)
    (hXs : ∀ c < e0.channels, (1 + tol) * (10 : ℝ) ^ (gain c / 20) ≤ X)
    (hW : totalWeight e0.channelMap * X ^ 2 ≤ 3 * fullPower e0.channelMap gain) {V ε : ℕ}
    (hV : sumOver (leap (ampAt amps)) 0 (Spec.tenths amps) ≤ V) (hε : 13 * (tol + 1 / 10 ^ 6) ≤ (ε : ℝ) / 10 ^ 6)
    {n sl sh : ℕ} (hsp : Split 100 ((shortTenths (Spec.tenths amps)).map (shortBounds amps V ε)) n sl sh) {μ : ℝ}
    (hμ : 35 / 10 ^ 5 ≤ μ) (hμ1 : μ ≤ 1) (hμW : 3 / 10 ^ 7 ≤ fullPower e0.channelMap gain * μ)
    (hfloor : ∀ j ∈ shortTenths (Spec.tenths amps), μ * (14400000 * 10 ^ 18) ≤ (shortBounds amps V ε j).1) {a1 a2 b1 b2 : ℕ}
    (hrk : Ranks (((shortTenths (Spec.tenths amps)).map (shortBounds amps V ε)).filter fun x => passes 100 n sh x.1) a1 a2 b1 b2)
    (ha1 : (1 / 200 : ℝ) * (14400000 * 10 ^ 18) ≤ a1) {ρ1 ρ2 : ℝ} (r1 : 0 < ρ1) (r2 : 0 < ρ2) (hρ1 : ρ1 * a2 ≤ b1) (hρ2 : b2 ≤ ρ2 * a1) :
    ∃ v : F64, ask (ieeeEnv m bs t) e .loudnessRange = .done (.ok v) ∧ v.Finite ∧
      10 * Real.logb 10 ρ1 - 1 / 50 ≤ v.value ∧ v.value ≤ 10 * Real.logb 10 ρ2 + 1 / 50 := by
  have hi := h.reachable.inv
  have hcm : e0.channelMap.length = e0.channels := hi.map
  have hc64 : e0.channels ≤ 64 := hi.ch64
  have hx := plays_within hp hs hXs
  obtain ⟨hPs, hb⟩ := short_powers bs 0 hp ha t0 hcm hV hε
  have key := C59_range (hδ.trans (by norm_num)) hm hel ht hu h hg hI hq (by omega) (by omega) hops hrun
    ((one_div_le_one_div_of_le (by positivity) (big_le (by norm_num))).trans hX) hX' (.inr hX) hx (r := 1 / 1000)
    (by norm_num) bs 0
  dsimp only at key
  rw [hr] at key
  have hPs' : idealShorts bs 0 48000 e0.channelMap (heard (ieeeEnv m bs t) e0.channels ops)
    (measured (ieeeEnv m bs t) e0.channels ops) = _ := hPs
  rw [hPs'] at key
  have hlen : ((shortTenths (Spec.tenths amps)).map fun j => idealPower e0.channelMap (30 * 4800) (j * 4800)
      (idealOuts bs 0 48000 (heard (ieeeEnv m bs t) e0.channels ops))).length ≤ Spec.tenths amps := by
    rw [List.length_map]
    unfold shortTenths
    rw [List.range_succ_eq_map, List.filter_cons_of_neg (by simp)]
    refine (List.length_filter_le _ _).trans ?_
    simp
  have hne : shortTenths (Spec.tenths amps) ≠ [] := by
    refine List.ne_nil_of_mem (a := 30) (List.mem_filter.2 ⟨List.mem_range.2 (by omega), by simp⟩)
  have W0 : 0 < fullPower e0.channelMap gain := by
    by_contra hc
    push Not at hc
    have : fullPower e0.channelMap gain * μ ≤ 0 := mul_nonpos_of_nonpos_of_nonneg hc (by linarith)
    linarith
  have Pfl : ∀ j ∈ shortTenths (Spec.tenths amps), fullPower e0.channelMap gain * μ ≤
      idealPower e0.channelMap (30 * 4800) (j * 4800) (idealOuts bs 0 48000 (heard (ieeeEnv m bs t) e0.channels ops)) := by
    intro j hj
    refine le_trans ?_ (hb j hj).1
    have := mul_le_mul_of_nonneg_left (hfloor j hj) (div_nonneg W0.le (by norm_num : (0 : ℝ) ≤ 14400000 * 10 ^ 18))
    refine le_trans (le_of_eq ?_) this
    field_simp
  have W1 : fullPower e0.channelMap gain * (35 / 10 ^ 5) ≤ fullPower e0.channelMap gain * μ := mul_le_mul_of_nonneg_left hμ W0.le
  have W3 : fullPower e0.channelMap gain * μ ≤ fullPower e0.channelMap gain * 1 := mul_le_mul_of_nonneg_left hμ1 W0.le
  rw [mul_one] at W3
  generalize hWe : fullPower e0.channelMap gain = W at *
  -- the uncertainties
  have hη : (1 : ℝ) / 1000 + (30 * hop 48000 + e0.channels + ((shortTenths (Spec.tenths amps)).map fun j =>
      idealPower e0.channelMap (30 * 4800) (j * 4800) (idealOuts bs 0 48000
        (heard (ieeeEnv m bs t) e0.channels ops))).length + 1024 : ℝ) / 2 ^ 50 ≤ 1 / 999 := by
    rw [show hop 48000 = 4800 by decide]
    have c64 : (e0.channels : ℝ) ≤ 64 := by exact_mod_cast hc64
    have l6 := hlen.trans hlong
    generalize ((shortTenths (Spec.tenths amps)).map fun j =>
      idealPower e0.channelMap (30 * 4800) (j * 4800) (idealOuts bs 0 48000
        (heard (ieeeEnv m bs t) e0.channels ops))).length = L at *
    have l6 : (L : ℝ) ≤ 10 ^ 6 := by exact_mod_cast l6
    have : (30 * (4800 : ℕ) + e0.channels + L + 1024 : ℝ) / 2 ^ 50 ≤ (30 * 4800 + 64 + 10 ^ 6 + 1024) / 2 ^ 50 := by
      refine div_le_div_of_nonneg_right ?_ (by positivity)
      push_cast
      linarith
    norm_num at this ⊢
    linarith
  have hη0 : (0 : ℝ) ≤ (1 : ℝ) / 1000 + (30 * hop 48000 + e0.channels + ((shortTenths (Spec.tenths amps)).map fun j =>
      idealPower e0.channelMap (30 * 4800) (j * 4800) (idealOuts bs 0 48000
        (heard (ieeeEnv m bs t) e0.channels ops))).length + 1024 : ℝ) / 2 ^ 50 := by positivity
  have hθ := noise48 (r := 1 / 1000) hW (by linarith) (by norm_num) (by norm_num)
  have hmem : ∀ p ∈ (shortTenths (Spec.tenths amps)).map fun j => idealPower e0.channelMap (30 * 4800) (j * 4800)
      (idealOuts bs 0 48000 (heard (ieeeEnv m bs t) e0.channels ops)), W * μ ≤ p := by
    intro p hp
    obtain ⟨j, hj, rfl⟩ := List.mem_map.1 hp
    exact Pfl j hj
  generalize hPe : (fun j => idealPower e0.channelMap (30 * 4800) (j * 4800)
      (idealOuts bs 0 48000 (heard (ieeeEnv m bs t) e0.channels ops))) = P at *
  have Pfl : ∀ j ∈ shortTenths (Spec.tenths amps), W * μ ≤ P j := by
    rw [← hPe]
    exact Pfl
  have hlen2 := hlen.trans hlong
  generalize (1 : ℝ) / 1000 + (30 * hop 48000 + e0.channels + ((shortTenths (Spec.tenths amps)).map P).length + 1024 : ℝ) / 2 ^ 50 = η at *
  generalize 3 / (1 / 1000) * noisePower e0.channelMap 48000 X + 1 / 2 ^ 300 = θ at *
  have hθ' : θ ≤ 32 / 10 ^ 4 * (W * μ) := by
    have := hθ.2
    norm_num at this ⊢
    linarith
  have c0 : 0 < W / (14400000 * 10 ^ 18) := by positivity
  have e70 := energy70_le
  have hloud : loud ((shortTenths (Spec.tenths amps)).map P) = (shortTenths (Spec.tenths amps)).map P :=
    List.filter_eq_self.2 fun p hp => decide_eq_true (by linarith [hmem p hp])
  have hgate := fun {j} (hj : j ∈ shortTenths (Spec.tenths amps)) => split_gate c0 (by norm_num : 0 < 100) hne hsp hb hj
  have hgR : rangeGateR ((shortTenths (Spec.tenths amps)).map P) = meanR ((shortTenths (Spec.tenths amps)).map P) / (100 : ℕ) := by
    rw [rangeGateR, hloud]
    norm_num
  have hgd : rangeGatedR ((shortTenths (Spec.tenths amps)).map P) =
      ((shortTenths (Spec.tenths amps)).filter fun j => passes 100 n sh (shortBounds amps V ε j).1).map P := by
    rw [rangeGatedR, hloud, hgR]
    exact split_filter c0 (by norm_num) hne hsp hb fun j hj => by linarith [Pfl j hj]
  have hfm : ((shortTenths (Spec.tenths amps)).map (shortBounds amps V ε)).filter (fun x => passes 100 n sh x.1) =
      ((shortTenths (Spec.tenths amps)).filter fun j => passes 100 n sh (shortBounds amps V ε j).1).map (shortBounds amps V ε) := by
    rw [List.filter_map]
    rfl
  rw [hfm] at hrk
  obtain ⟨⟨p1, p2⟩, p3, p4⟩ := hrk.between (P := P) c0 fun j hj => hb j (List.mem_filter.1 hj).1
  obtain ⟨v, hv1, -, hv2⟩ := key (hη.trans (by norm_num)) (hlen.trans hmax) (hlen2.trans (by norm_num)) (hlen.trans hus)
    (fun p hp => by
      have h2 := hmem p hp
      left
      have h5 : η * (energyOf (-70) + 2 * θ) ≤ 1 / 999 * (W * μ) :=
        mul_le_mul hη (by linarith) (by have : 0 ≤ energyOf (-70) := (energyOf_pos _).le; linarith) (by norm_num)
      linarith)
    (fun p hp => by
      rw [hloud] at hp
      obtain ⟨j, hj, rfl⟩ := List.mem_map.1 hp
      have h2 := Pfl j hj
      obtain ⟨q1, q2⟩ := hgate hj
      rw [hgR]
      generalize meanR ((shortTenths (Spec.tenths amps)).map P) / (100 : ℕ) = Γ at *
      cases hpass : passes 100 n sh (shortBounds amps V ε j).1 with
      | true =>
        have q := q1 hpass
        left
        have h4 : η * (Γ + 2 * θ) ≤ 1 / 999 * P j := by
          rcases le_total 0 (Γ + 2 * θ) with hΓ | hΓ
          · exact mul_le_mul hη (by linarith) hΓ (by norm_num)
          · exact (mul_nonpos_of_nonneg_of_nonpos hη0 hΓ).trans (by linarith)
        linarith
      | false =>
        have q := q2 hpass
        right
        have h4 : η * (P j + 2 * θ) ≤ 1 / 999 * Γ := mul_le_mul hη (by linarith) (by linarith) (by norm_num)
        linarith)
  obtain ⟨hfin, hv⟩ := hv2 (by rw [hloud]; simpa using hne)
  refine ⟨v, hv1, hfin, ?_⟩
  rw [rangeR, hgd] at hv
  generalize hks : (shortTenths (Spec.tenths amps)).filter (fun j => passes 100 n sh (shortBounds amps V ε j).1) = ks at *
  generalize percentileR (ks.map P) 10 100 = Q1 at *
  generalize percentileR (ks.map P) 95 100 = Q2 at *
  have q0 : W * (1 / 200) ≤ Q1 := by
    refine le_trans ?_ p1
    have := mul_le_mul_of_nonneg_left ha1 c0.le
    refine le_trans (le_of_eq ?_) this
    field_simp
  have Q0 : 0 < Q1 := by linarith
  have hq : θ / Q1 ≤ 23 / 10 ^ 5 := by
    rw [div_le_iff₀ Q0]
    have := hθ.2
    norm_num at this ⊢
    linarith
  generalize W / (14400000 * 10 ^ 18) = c at *
  have d1 : ρ1 * Q1 ≤ Q2 := by
    have h1 := mul_le_mul_of_nonneg_left p2 r1.le
    have h2 := mul_le_mul_of_nonneg_left hρ1 c0.le
    linarith
  have d2 : Q2 ≤ ρ2 * Q1 := by
    have h1 := mul_le_mul_of_nonneg_left p1 r2.le
    have h2 := mul_le_mul_of_nonneg_left hρ2 c0.le
    linarith
  have Q2p : 0 < Q2 := lt_of_lt_of_le (mul_pos r1 Q0) d1
  have m1 := lufs_ratio Q0 r1 d1
  have m2 := lufs_ratio_le Q2p Q0 r2 d2
  have hv := abs_le.1 hv
  norm_num at hv hη hq hδ ⊢
  constructor <;> linarith [hv.1, hv.2]

end

end Verif
