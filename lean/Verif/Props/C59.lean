import Verif.Proofs.Rough
/-!
# C59: accuracy of the loudness range
-/

namespace Verif
open Spec Fl
variable {m : Libm F64} {bs : BSearch} {t : Target}

/-- The libm's `10^-2`, the factor of the gate of the range, is accurate. -/
def Spec.HundredthWithin (m : Libm F64) : Prop :=
  let x := m.powf (Fl.lit Fmt.b64 10 1) (Fl.lit Fmt.b64 (-2) 1)
  x.Finite ∧ |x.value - 1 / 100| ≤ 1 / 2 ^ 50

/-- Some block always passes the gate of the range. -/
theorem rangeGatedR_ne {Ps : List ℝ} (h : loud Ps ≠ []) : rangeGatedR Ps ≠ [] := by
  intro hc
  have n0 : (0 : ℝ) < (loud Ps).length := by exact_mod_cast List.length_pos_iff.2 h
  have hall : ∀ P ∈ loud Ps, P ≤ rangeGateR Ps := by
    intro P hP
    by_contra hlt
    have : P ∈ rangeGatedR Ps := List.mem_filter.2 ⟨hP, decide_eq_true (not_le.1 hlt).le⟩
    rw [hc] at this
    cases this
  have h1 := sum_le_mul hall
  have h2 := sum_ge (l := loud Ps) fun P hP => (loud_mem hP).2
  have g0 := gate70.1
  have e : (loud Ps).length * rangeGateR Ps = (loud Ps).sum / 100 := by
    unfold rangeGateR meanR
    field_simp
  rw [e] at h1
  have : (0 : ℝ) < (loud Ps).length * energyOf (-70) := mul_pos n0 (lt_of_lt_of_le (by norm_num) g0)
  linarith

/-- **C59**, gating. Short-term energies known up to `η P + θ` pass the same gates as the exact powers, if no power is
within `2 η` (`4 η` for the relative gate) and `2 θ` of a gate, and then the loudness range is accurate. `s` are the
energies above the absolute gate in ascending order. -/
theorem C59_gate {δ : ℝ} (hδ : δ ≤ 1) (hm : LogWithin m δ) (ht : HundredthWithin m) {η θ : ℝ} {q : List F64} {Ps : List ℝ}
    (h : List.Forall₂ (Close η θ) q Ps) (hη : ((Ps.length : ℝ) + 1024) / 2 ^ 50 ≤ η) (hη' : η ≤ 1 / 100) (hθ : 0 ≤ θ)
    (hlen : Ps.length ≤ 2 ^ 40) (htop : ∀ P ∈ Ps, P + θ ≤ 2 ^ 150)
    (h70 : ∀ P ∈ Ps, Apart (1 + 2 * η) (2 * θ) P (energyOf (-70)))
    (h20 : ∀ P ∈ loud Ps, Apart (1 + 4 * η) (2 * θ) P (rangeGateR Ps))
    {s : List F64} (hp : s.Perm (ungated (ieeeEnv m bs t) (bnd 0) q)) (hs : Ascending s) :
    let v := rangeOf (ieeeEnv m bs t) s
    (loud Ps = [] → v = Fl.zero false) ∧
    (loud Ps ≠ [] → v.Finite ∧
      |v.value - rangeR Ps| ≤ 12 * η + 21 * (θ / percentileR (rangeGatedR Ps) 10 100) + 20 * δ + 1 / 10 ^ 11) := by
  intro v
  have N0 : (0 : ℝ) ≤ Ps.length := by positivity
  have η0 : 1 / 2 ^ 40 ≤ η := _root_.le_trans (by
    rw [le_div_iff₀ (by positivity)]; norm_num) hη
  have ηp : 0 < η := lt_of_lt_of_le (by norm_num) η0
  have hA := loud_close (m := m) (bs := bs) (t := t) h η0 hη' hθ h70
  constructor
  · intro hnil
    rw [hnil] at hA
    rw [List.forall₂_nil_right_iff.1 hA] at hp
    show rangeOf _ s = _
    rw [hp.eq_nil]
    rfl
  · intro hne
    have hR : List.Forall₂ (Rough (1 + 11 / 10 * η) θ) (ungated (ieeeEnv m bs t) (bnd 0) q) (loud Ps) :=
      hA.imp fun x P h => ⟨h.1, h.2.1, h.2.2.1, h.mixed ηp.le hη' hθ⟩
    have hAlen : (loud Ps).length ≤ Ps.length := List.length_filter_le ..
    have hAR : ((loud Ps).length : ℝ) ≤ Ps.length := by exact_mod_cast hAlen
    obtain ⟨hM, hMθ⟩ := loud_mean ηp.le hθ h70 (l := loud Ps) (fun _ h => h) hne
    have tA : ∀ P ∈ loud Ps, P + θ ≤ 2 ^ 150 := fun P hP => htop P (loud_mem hP).1
    obtain ⟨f1, f2, f3⟩ := list_mean hR hne hp (by linarith) (by omega) hθ tA
    obtain ⟨m1, m2, m3⟩ := mean_rough (by linarith) (by linarith) hθ hR hne hM hMθ tA f2 (by omega) f3
    obtain ⟨τf, τv⟩ := ht
    have k0 : (0 : ℝ) ≤ ((((loud Ps).length + 1 : Nat) : ℝ) + 1) / 2 ^ 51 := by positivity
    have k1 : ((((loud Ps).length + 1 : Nat) : ℝ) + 1) / 2 ^ 51 ≤ η / 2 := by
      rw [div_le_iff₀ (by positivity)] at hη ⊢
      push_cast
      norm_num at hη ⊢
      linarith
    obtain ⟨gf, gv⟩ := gate_mixed m1 (by positivity) hθ f1 m2 m3 τf (le_refl _) (by norm_num) τv
    have ev : v = spread (ieeeEnv m bs t) (notBelow (ieeeEnv m bs t).f64 (Fl.mul (mean (Fl.arith Fmt.b64) s)
        (m.powf (Fl.lit Fmt.b64 10 1) (Fl.lit Fmt.b64 (-2) 1))) s) := by
      rw [Fl.mul_comm]
      rfl
    have hΓ : 1 / 100 * meanR (loud Ps) = rangeGateR Ps := by unfold rangeGateR; ring
    rw [hΓ] at gv
    have Γ0 : 0 < rangeGateR Ps := by
      rw [← hΓ]
      have : (0 : ℝ) < 1 / 10 ^ 7 := by positivity
      linarith
    generalize ((((loud Ps).length + 1 : Nat) : ℝ) + 1) / 2 ^ 51 = σ at *
    have kk : (1 + 11 / 10 * η) * ((1 + 11 / 10 * η) * (1 + σ) * (1 + 1 / 2 ^ 42)) ≤ 1 + 4 * η := by
      have a1 : (1 + 11 / 10 * η) * (1 + 11 / 10 * η) ≤ 1 + 23 / 10 * η := by nlinarith
      have a2 : (1 + σ) * (1 + 1 / 2 ^ 42) ≤ 1 + η := by norm_num at η0 ⊢; linarith
      calc _ = (1 + 11 / 10 * η) * (1 + 11 / 10 * η) * ((1 + σ) * (1 + 1 / 2 ^ 42)) := by ring
        _ ≤ (1 + 23 / 10 * η) * (1 + η) := mul_le_mul a1 a2 (by positivity) (by positivity)
        _ ≤ _ := by nlinarith
    have hg1 : 1 ≤ (1 + 11 / 10 * η) * (1 + σ) * (1 + 1 / 2 ^ 42) := by
      have a1 : 1 ≤ (1 + 11 / 10 * η) * (1 + σ) := by nlinarith
      nlinarith [show (0 : ℝ) < 1 / 2 ^ 42 by positivity]
    obtain ⟨r1, r2⟩ := spread_near (bs := bs) (t := t) hδ hm (by linarith) hg1 hθ hR hp hs gf Γ0 gv (fun P hP => by
      have P0 : 0 ≤ P := (rough_mem hR).2 P hP
      rcases h20 P hP with c | c
      · exact .inl (lt_of_le_of_lt (mul_le_mul_of_nonneg_right kk (by linarith)) c)
      · exact .inr (lt_of_le_of_lt (mul_le_mul_of_nonneg_right kk (by linarith)) c)) (rangeGatedR_ne hne)
    rw [← ev] at r1 r2
    refine ⟨r1, r2.trans ?_⟩
    have lg := (logb_small (z := 11 / 10 * η) (by positivity)).2
    change _ + 20 * ((1 + 11 / 10 * η) * θ / percentileR (rangeGatedR Ps) 10 100) + _ + _ ≤ _
    have pm := percentileR_mem (rangeGatedR_ne hne) (num := 10) (den := 100) (by norm_num) (by norm_num)
    have pp : 0 < percentileR (rangeGatedR Ps) 10 100 :=
      lt_of_lt_of_le Γ0 (of_decide_eq_true (List.mem_filter.1 pm).2)
    rw [mul_div_assoc]
    have z0 : 0 ≤ θ / percentileR (rangeGatedR Ps) 10 100 := by positivity
    generalize θ / percentileR (rangeGatedR Ps) 10 100 = z at *
    have : (1 + 11 / 10 * η) * z ≤ (1 + 11 / 10 * (1 / 100)) * z := mul_le_mul_of_nonneg_right (by linarith) z0
    linarith

/-! ## From the samples on -/

/-- The exact powers of the short-term blocks of a sequence of calls. -/
noncomputable def Spec.idealShorts (bs : BSearch) (u rate : Nat) (cm : List Channel) (evs : List (Event F64)) (n : Nat) :
    List ℝ :=
  (shortEnds (hop rate) n).map fun k => idealPower cm (30 * hop rate) k (idealOuts bs u rate evs)

/-- Blocks of any length, at any positions, are known up to a part `r` (plus rounding) and `3 / r` times the noise, and
are not too large. -/
theorem blocks_close (he : ElemWithin m (1 / 2 ^ 50)) {rate channels : Nat} (hr : 8000 ≤ rate) (hr' : rate ≤ 400000)
    {ops : List (Op F64 F32)} {X : ℝ} (hX : 1 / 2 ^ 100 ≤ X) (hX' : X ≤ 2 ^ 60) (hs : t.sse2 = true ∨ 1 / 2 ^ 13 ≤ X)
    (hx : SamplesWithin X (heard (ieeeEnv m bs t) channels ops)) (L : Nat) {N : Nat} (ends : List Nat) (cm : List Channel)
    (hcm : cm.length = channels) (hc : channels ≤ 64) (hN : 0 < N) (hN' : N ≤ 2 ^ 21) {r : ℝ} (h0 : 0 < r)
    (bs' : BSearch) (u : Nat) :
    let E := ieeeEnv m bs t
    let Ps := ends.map fun k => idealPower cm N k (idealOuts bs' u rate (heard E channels ops))
    let η := r + (N + channels + ends.length + 1024 : ℝ) / 2 ^ 50
    let θ := 3 / r * noisePower cm rate X + 1 / 2 ^ 300
    η ≤ 1 / 100 →
    (0 ≤ θ ∧ ((Ps.length : ℝ) + 1024) / 2 ^ 50 ≤ η) ∧
    List.Forall₂ (Close η θ) (ends.map fun k => energy E L N k cm (signalOn E rate channels ops)) Ps ∧
    ((∀ P ∈ Ps, Apart (1 + 2 * η) (2 * θ) P (energyOf (-70))) → ∀ P ∈ Ps, P + θ ≤ 2 ^ 150) := by
  intro E Ps η θ hη
  have X0 : 0 < X := lt_of_lt_of_le (by positivity) hX
  have W0 : 0 ≤ noisePower cm rate X := mul_nonneg (totalWeight_bounds _).1 (by positivity)
  have hθ : 0 ≤ θ := by
    show (0 : ℝ) ≤ 3 / r * _ + _
    positivity
  have hη0 : r ≤ η := by
    show r ≤ r + _
    have : (0 : ℝ) ≤ (N + channels + ends.length + 1024 : ℝ) / 2 ^ 50 := by positivity
    linarith
  refine ⟨⟨hθ, ?_⟩, ?_, ?_⟩
  · show _ ≤ r + _
    have : ((Ps.length : ℝ) + 1024) / 2 ^ 50 ≤ (N + channels + ends.length + 1024 : ℝ) / 2 ^ 50 := by
      rw [show Ps.length = ends.length from List.length_map ..]
      refine div_le_div_of_nonneg_right ?_ (by positivity)
      have : (0 : ℝ) ≤ N + channels := by positivity
      linarith
    linarith
  · show List.Forall₂ _ (List.map _ _) (List.map _ _)
    rw [List.forall₂_map_left_iff, List.forall₂_map_right_iff, List.forall₂_same]
    intro k _
    refine (C58_block (bs' := bs') (u := u) he hr hr' hX hX' hs hx L cm (N := N) (n := k) hN (by omega) h0
      (by linarith)).mono ?_ le_rfl
    show _ ≤ r + _
    have : ((N : ℝ) + cm.length + 5) / 2 ^ 51 ≤ (N + channels + ends.length + 1024 : ℝ) / 2 ^ 50 := by
      rw [hcm]
      refine div_le_div₀ (by positivity) ?_ (by positivity) (by norm_num)
      have : (0 : ℝ) ≤ ends.length := by positivity
      linarith
    linarith
  · intro h70 P hP
    have hP70 := h70 P hP
    clear_value θ
    obtain ⟨k, -, rfl⟩ := List.mem_map.1 hP
    have hb := idealPower_bounds cm (N := N) (n := k)
      (ys := idealOuts bs' u rate (heard E channels ops)) (Y := 13 * X) (by positivity)
      fun c => (C57_signal (bs := bs) (t := t) (bs' := bs') (u := u) he hr hr' hX hX' hs hx c).2.1
    generalize idealPower cm N k (idealOuts bs' u rate (heard E channels ops)) = P at *
    have c1 : (cm.length : ℝ) ≤ 64 := by rw [hcm]; exact_mod_cast hc
    have c2 : X ^ 2 ≤ (2 ^ 60) ^ 2 := pow_le_pow_left₀ X0.le hX' 2
    have c3 : P ≤ 2 * 64 * (169 * (2 ^ 60) ^ 2) := by
      refine hb.2.trans (mul_le_mul (by linarith) ?_ (by positivity) (by norm_num))
      rw [mul_pow]
      norm_num at c2 ⊢
      linarith
    have g1 := gate70.2
    have g0 : 0 < energyOf (-70) := energyOf_pos _
    have c4 : 2 * θ ≤ P + 1 := by
      have η0 : 0 ≤ η := by linarith
      have P0 := hb.1
      rcases hP70 with c | c
      · have : 0 ≤ 2 * η * (energyOf (-70) + 2 * θ) := by positivity
        linarith
      · have : 0 ≤ 2 * η * (P + 2 * θ) := by positivity
        linarith
    norm_num at c3 ⊢
    linarith

theorem ascending_exists {q : List F64} (h : ∀ x ∈ q, x.isNan = false) : ∃ s : List F64, s.Perm q ∧ Ascending s := by
  refine ⟨q.mergeSort (sortLe (Fl.arith Fmt.b64)), List.mergeSort_perm .., ?_⟩
  have hs := List.pairwise_mergeSort (le := sortLe (Fl.arith Fmt.b64)) sortLe_trans sortLe_total q
  refine hs.imp_of_mem fun {a b} ha hb hab => ?_
  rwa [sortLe_num (h a (List.mem_mergeSort.1 ha)) (h b (List.mem_mergeSort.1 hb))] at hab

/-- **C59.** The loudness range against EBU Tech 3342 in exact arithmetic from the samples on. `Ps` are the exact powers
of the short-term blocks. For any `r`, with the uncertainty `η P + θ` of a block of power `P`: if no block is within a
factor `1 + 2 η` and `2 θ` of the absolute gate, or within `1 + 4 η` and `2 θ` of the gate of the range, then the loudness
range is zero if no block reaches the absolute gate, and otherwise has an error of about `20 (η + θ / P10)` dB, where
`P10` is the lower percentile. -/
theorem C59_range {δ : ℝ} (hδ : δ ≤ 1) (hm : LogWithin m δ) (he : ElemWithin m (1 / 2 ^ 50)) (ht : HundredthWithin m)
    (hu : t.usizeMax ≤ 2 ^ 64) {e0 e : Ebu F64 F32} (h : Started (ieeeEnv m bs t) e0)
    (hg : Adequate e0.mode e0.rate e0.window) (hL : e0.mode.contains Mode.LRA = true) {max : Nat}
    (hq : e0.shortTermBlockEnergyHistory = .queue [] max) (hr : 8000 ≤ e0.rate) (hr' : e0.rate ≤ 400000)
    {ops : List (Op F64 F32)} (hops : ∀ op ∈ ops, Feed op) (hrun : runOps (ieeeEnv m bs t) e0 ops = .done e)
    {X : ℝ} (hX : 1 / 2 ^ 100 ≤ X) (hX' : X ≤ 2 ^ 60) (hs : t.sse2 = true ∨ 1 / 2 ^ 13 ≤ X)
    (hx : SamplesWithin X (heard (ieeeEnv m bs t) e0.channels ops)) {r : ℝ} (h0 : 0 < r) (bs' : BSearch) (u : Nat) :
    let E := ieeeEnv m bs t
    let Ps := idealShorts bs' u e0.rate e0.channelMap (heard E e0.channels ops) (measured E e0.channels ops)
    let η := r + (30 * hop e0.rate + e0.channels + Ps.length + 1024 : ℝ) / 2 ^ 50
    let θ := 3 / r * noisePower e0.channelMap e0.rate X + 1 / 2 ^ 300
    η ≤ 1 / 100 → Ps.length ≤ max → Ps.length ≤ 2 ^ 40 → Ps.length ≤ t.usizeMax →
    (∀ P ∈ Ps, Apart (1 + 2 * η) (2 * θ) P (energyOf (-70))) →
    (∀ P ∈ loud Ps, Apart (1 + 4 * η) (2 * θ) P (rangeGateR Ps)) →
    ∃ v : F64, ask E e .loudnessRange = .done (.ok v) ∧
      (loud Ps = [] → v = Fl.zero false) ∧
      (loud Ps ≠ [] → v.Finite ∧ |v.value - rangeR Ps| ≤
        12 * η + 21 * (θ / percentileR (rangeGatedR Ps) 10 100) + 20 * δ + 1 / 10 ^ 11) := by
  intro E Ps η θ hη hmax hlen husz h70 h20
  have hi := h.reachable.inv
  have hhop : 0 < hop e0.rate := by
    unfold hop
    omega
  have hhop' : 30 * hop e0.rate ≤ 2 ^ 21 := by
    unfold hop
    omega
  have hPl : Ps.length = (shortEnds (hop e0.rate) (measured E e0.channels ops)).length := List.length_map ..
  have eη : η = r + ((30 * hop e0.rate : Nat) + e0.channels +
      (shortEnds (hop e0.rate) (measured E e0.channels ops)).length + 1024 : ℝ) / 2 ^ 50 := by
    show r + _ = _
    rw [hPl]
    push_cast
    rfl
  obtain ⟨⟨c1, c2⟩, c3, c4⟩ := blocks_close (bs := bs) (t := t) he hr hr' hX hX' hs hx (capacity e0.rate e0.window)
    (N := 30 * hop e0.rate) (shortEnds (hop e0.rate) (measured E e0.channels ops)) e0.channelMap hi.map hi.ch64
    (by omega) hhop' h0 bs' u (by rw [← eη]; exact hη)
  rw [← eη] at c2 c3 c4
  have htop := c4 h70
  have hfin := close_mem c3
  have hb := (C61_shorts (ieee_zero m bs t) h hg hops hrun).1 hL
  rw [foldL_add _ hi.stHist, hq] at hb
  injection hb with hb
  generalize hqe : (shortEnds (hop e0.rate) (measured E e0.channels ops)).map (fun k =>
    energy E (capacity e0.rate e0.window) (30 * hop e0.rate) k e0.channelMap (signalOn E e0.rate e0.channels ops)) = q at *
  have hroom : ([] : List F64).length + q.length ≤ max := by
    rw [List.length_nil, Nat.zero_add, c3.length_eq]; exact hmax
  rw [foldl_queue E max q [] hroom, List.nil_append] at hb
  have hre : Reachable E e := reachable_run h.reachable hrun
  have hL' : e.mode.contains Mode.LRA = true := by rw [runFeeds_mode hops hi hrun]; exact hL
  rw [gate0_bnd] at hb
  change History.queue (ungated E (bnd 0) q) max = _ at hb
  have hnn : ∀ x ∈ ungated E (bnd 0) q, x.isNan = false := by
    intro x hx
    obtain ⟨s, k, hk, rfl, -⟩ := (hfin x (List.mem_filter.1 hx).1).1
    rfl
  have hql : (ungated E (bnd 0) q).length ≤ Ps.length := by
    exact (List.length_filter_le ..).trans (le_of_eq c3.length_eq)
  obtain ⟨s, hp, hsa⟩ := ascending_exists hnn
  have ha := C37_range hu hre hL' hb.symm (fun hc => by simpa [Fl.isNan] using hnn _ hc) hp hsa (by omega) (by omega)
  obtain ⟨g1, g2⟩ := C59_gate (bs := bs) (t := t) hδ hm ht c3 c2 hη c1 hlen htop h70 h20 hp hsa
  exact ⟨_, ha, g1, g2⟩

/-! ## Two short-term blocks 6 dB apart, and a block with a click -/

theorem Demo.libm57_hundredth : HundredthWithin Demo.libm57 := by
  have k1 : Fl.lit Fmt.b64 (-2) 1 = Fl.neg (Fl.lit Fmt.b64 2 1) := by decide +kernel
  have v1 : (Fl.lit Fmt.b64 (-2) 1).value = -2 := by
    rw [k1, value_neg]
    congr 1
    exact_mod_cast value_lit_nat (n := 2) (by decide)
  have v10 : (Fl.lit Fmt.b64 10 1).value = 10 := by exact_mod_cast value_lit_nat (n := 10) (by decide)
  unfold HundredthWithin
  show (Demo.places ((Fl.lit Fmt.b64 10 1).value ^ (Fl.lit Fmt.b64 (-2) 1).value)).Finite ∧
    |(Demo.places ((Fl.lit Fmt.b64 10 1).value ^ (Fl.lit Fmt.b64 (-2) 1).value)).value - 1 / 100| ≤ 1 / 2 ^ 50
  rw [v1, v10, show (10 : ℝ) ^ (-2 : ℝ) = 1 / 100 by
    rw [Real.rpow_neg (by norm_num), show (2 : ℝ) = ((2 : ℕ) : ℝ) by norm_num, Real.rpow_natCast]; norm_num]
  obtain ⟨h1, h2⟩ := Demo.places_near (v := 1 / 100) (by norm_num) (by norm_num)
  refine ⟨h1, h2.trans ?_⟩
  norm_num

theorem energy70_small : energyOf (-70) ≤ 1 / 10 ^ 6 := by
  unfold energyOf
  rw [show (1 : ℝ) / 10 ^ 6 = 10 ^ (-6 : ℝ) by
    rw [Real.rpow_neg (by norm_num), one_div]; norm_num]
  exact Real.rpow_le_rpow_of_exponent_le (by norm_num) (by norm_num)

/-- Energies 1/4 and 1, known to 0.01 %: the range is 6.02 LU, to 0.002 LU. -/
example : |(rangeOf (ieeeEnv Demo.libm57 bs t) [Fl.lit Fmt.b64 1 4, Fl.lit Fmt.b64 1 1]).value - 10 * Real.logb 10 4| ≤
    2 / 10 ^ 3 := by
  have k1 : Fl.lit Fmt.b64 1 4 = .num false (1021 * 2 ^ 52) (by decide) := by decide +kernel
  have k2 : Fl.lit Fmt.b64 1 1 = .num false (1023 * 2 ^ 52) (by decide) := by decide +kernel
  have v1 : (Fl.lit Fmt.b64 1 4).value = 1 / 4 := by
    rw [k1, value_binade false (j := 2) (by norm_num) (by norm_num)]
    norm_num
  have v2 : (Fl.lit Fmt.b64 1 1).value = 1 := by
    rw [k2, value_binade false (j := 0) (by norm_num) (by norm_num)]
    norm_num
  have f1 : (Fl.lit Fmt.b64 1 4).Finite := by rw [k1]; exact finite_num.2 (by decide +kernel)
  have f2 : (Fl.lit Fmt.b64 1 1).Finite := by rw [k2]; exact finite_num.2 (by decide +kernel)
  have n1 : (Fl.lit Fmt.b64 1 4).Nonneg := by rw [k1]; rfl
  have n2 : (Fl.lit Fmt.b64 1 1).Nonneg := by rw [k2]; rfl
  generalize Fl.lit Fmt.b64 1 4 = x at *
  generalize Fl.lit Fmt.b64 1 1 = y at *
  have g0 : 0 < energyOf (-70) := energyOf_pos _
  have g1 := energy70_small
  have b0 := bnd0_finite
  have hl : loud [1 / 4, 1] = [1 / 4, 1] := by
    unfold loud
    rw [List.filter_cons_of_pos (by simp; linarith), List.filter_cons_of_pos (by simp; linarith), List.filter_nil]
  have hgr : rangeGateR [1 / 4, 1] = 1 / 160 := by
    rw [rangeGateR, hl]; unfold meanR; norm_num
  have hgd : rangeGatedR [1 / 4, 1] = [1 / 4, 1] := by
    rw [rangeGatedR, hl, hgr, List.filter_cons_of_pos (by norm_num), List.filter_cons_of_pos (by norm_num), List.filter_nil]
  have hs : sortR [1 / 4, 1] = [1 / 4, 1] := by
    unfold sortR
    simp [List.insertionSort]
    norm_num
  have p1 : percentileR [1 / 4, 1] 10 100 = 1 / 4 := by
    unfold percentileR
    rw [hs]
    rfl
  have p2 : percentileR [1 / 4, 1] 95 100 = 1 := by
    unfold percentileR
    rw [hs]
    rfl
  have hC : List.Forall₂ (Close (1 / 10 ^ 4) 0) [x, y] [1 / 4, 1] :=
    .cons ⟨f1, n1, by norm_num, by rw [v1]; norm_num⟩ (.cons ⟨f2, n2, by norm_num, by rw [v2]; norm_num⟩ .nil)
  have h70 : ∀ P ∈ [(1 / 4 : ℝ), 1], Apart (1 + 2 * (1 / 10 ^ 4)) (2 * 0) P (energyOf (-70)) := by
    intro P hP
    refine .inl ?_
    simp only [List.mem_cons, List.not_mem_nil, or_false] at hP
    norm_num at g1
    rcases hP with rfl | rfl <;> norm_num <;> linarith
  have hA := loud_close (m := Demo.libm57) (bs := bs) (t := t) hC (by norm_num) (by norm_num) le_rfl h70
  rw [hl] at hA
  have hu : ungated (ieeeEnv Demo.libm57 bs t) (bnd 0) [x, y] = [x, y] :=
    List.filter_eq_self.2 (List.length_filter_eq_length_iff.1 hA.length_eq)
  have hle : Fl.le x y = true := le_of_value f1 f2 (by rw [v1, v2]; norm_num)
  obtain ⟨-, h⟩ := C59_gate (m := Demo.libm57) (bs := bs) (t := t) (δ := 1 / 10 ^ 5) (by norm_num) Demo.libm57_within.1
    Demo.libm57_hundredth hC (by norm_num) (by norm_num) le_rfl (by norm_num) (by
      intro P hP
      simp only [List.mem_cons, List.not_mem_nil, or_false] at hP
      rcases hP with rfl | rfl <;> norm_num) h70 (by
      rw [hl, hgr]
      intro P hP
      refine .inl ?_
      simp only [List.mem_cons, List.not_mem_nil, or_false] at hP
      rcases hP with rfl | rfl <;> norm_num) (s := [x, y]) (by rw [hu]) (by
        refine .cons ?_ (.cons (fun _ h => by cases h) .nil)
        intro z hz
        rw [List.mem_singleton.1 hz]
        exact hle)
  obtain ⟨-, h⟩ := h (by rw [hl]; simp)
  have e : rangeR [1 / 4, 1] = 10 * Real.logb 10 4 := by
    unfold rangeR
    rw [hgd, p1, p2]
    unfold lufs
    rw [Real.logb_one, one_div, Real.logb_inv]
    ring
  rw [e] at h
  refine h.trans ?_
  norm_num

/-- A mono analyzer at 48 kHz that has heard 3 s, all silent but for the last sample, which is at full scale: there is one
short-term block, and the loudness range is 0, to 0.5 LU. -/
example (bs : BSearch) (h64 : t.usizeMax = 2 ^ 64 - 1) :
    ∃ e0 e : Ebu F64 F32, Ebu.new (ieeeEnv Demo.libm57 bs t) 1 48000 Mode.LRA = .done (.ok e0) ∧
      runOps (ieeeEnv Demo.libm57 bs t) e0 (Demo.late 143999) = .done e ∧
      ∃ v : F64, ask (ieeeEnv Demo.libm57 bs t) e .loudnessRange = .done (.ok v) ∧ v.Finite ∧ |v.value| ≤ 0.5 := by
  generalize hops : Demo.late 143999 = ops
  have hint : ∀ op ∈ ops, IntegerFeed op := by
    intro op hop
    simp only [← hops, Demo.late, List.mem_singleton] at hop
    subst hop; trivial
  have hfeed : ∀ op ∈ ops, Feed op := by
    intro op hop
    simp only [← hops, Demo.late, List.mem_singleton] at hop
    subst hop; trivial
  obtain ⟨e0, he⟩ := (C01_new_64 (ieeeEnv Demo.libm57 bs t) h64.ge 1 48000 Mode.LRA).1.2
    ⟨⟨by omega, by omega, by omega, by omega⟩, by decide⟩
  have hst := Started.new he
  obtain ⟨e, hrun⟩ := C09_plain h64.ge he (by omega) ops (by
    intro op hop
    simp only [← hops, Demo.late, List.mem_singleton] at hop
    subst hop; trivial)
  refine ⟨e0, e, he, hrun, ?_⟩
  obtain ⟨rfl, -⟩ := Ebu.new_ok he
  obtain ⟨b0, b1, b2, a1, a2, c1, c2, hb, -, hr0, -⟩ := C53_itu bs 0
  have hw : realWeight .left = 1 := by simp [realWeight, surrounds]
  have hh := Demo.late_heard (m := Demo.libm57) (bs := bs) (t := t) 143999
  rw [hops] at hh
  have ho : idealOuts bs 0 48000 (heard (ieeeEnv Demo.libm57 bs t) 1 ops) 0 = List.replicate 143999 0 ++ [b0 * -1] := by
    rw [hh]
    generalize 143999 = n
    unfold idealOuts
    push_cast at hb ⊢
    rw [hb, show realEvents (List.replicate n ⟨true, [(i16Ops (ieeeEnv Demo.libm57 bs t)).toF64 0]⟩ ++
      [⟨true, [(i16Ops (ieeeEnv Demo.libm57 bs t)).toF64 (-32768)]⟩]) =
      (List.replicate n [(0 : ℝ)] ++ [[-1]]).map fun f => ⟨true, f⟩ by
        simp [realEvents, Demo.silence_value, Demo.pulse_value], outs_all,
      show List.map (fun f : List ℝ => f.getD 0 0) (List.replicate n [0] ++ [[-1]]) = List.replicate n 0 ++ [-1] by simp,
      filtered_late]
    simp [cascade]
  have hP : idealPower [.left] 144000 144000 (idealOuts bs 0 48000 (heard (ieeeEnv Demo.libm57 bs t) 1 ops)) =
      b0 ^ 2 / 144000 := by
    unfold idealPower
    simp only [List.zipIdx_cons, List.zipIdx_nil, List.map_cons, List.map_nil, List.sum_cons, List.sum_nil, hw, ho]
    rw [meanSquare_late 143999]
    norm_num
  have hmeas : measured (ieeeEnv Demo.libm57 bs t) 1 ops = 144000 := by
    rw [← hops]
    exact Demo.late_measured 143999
  have hb0 : 1535 / 1000 ≤ b0 ∧ b0 ≤ 1536 / 1000 := by
    have := abs_le.1 hr0
    norm_num at this ⊢
    constructor <;> linarith
  have hg : stateGain 48000 ≤ 3000000 := by unfold stateGain; norm_num
  have hg0 : 0 ≤ stateGain 48000 := by unfold stateGain; positivity
  have hb2 : (1535 / 1000) ^ 2 ≤ b0 ^ 2 := pow_le_pow_left₀ (by norm_num) hb0.1 2
  have hb3 : b0 ^ 2 ≤ (1536 / 1000) ^ 2 := pow_le_pow_left₀ (by linarith [hb0.1]) hb0.2 2
  have e1 : 30 * hop 48000 = 144000 := by decide
  have hblocks : idealShorts bs 0 48000 [.left] (heard (ieeeEnv Demo.libm57 bs t) 1 ops)
      (measured (ieeeEnv Demo.libm57 bs t) 1 ops) = [b0 ^ 2 / 144000] := by
    unfold idealShorts
    rw [hmeas, show shortEnds (hop 48000) 144000 = [144000] by decide, e1, List.map_singleton, hP]
  have hmain : ∀ Ps : List ℝ, Ps = idealShorts bs 0 48000 [.left] (heard (ieeeEnv Demo.libm57 bs t) 1 ops)
        (measured (ieeeEnv Demo.libm57 bs t) 1 ops) →
      ∀ η θ : ℝ, η = 1 / 200 + (30 * (hop 48000 : Nat) + (1 : Nat) + Ps.length + 1024 : ℝ) / 2 ^ 50 →
      θ = 3 / (1 / 200) * noisePower [.left] 48000 1 + 1 / 2 ^ 300 →
      η ≤ 1 / 100 → Ps.length ≤ t.usizeMax / 3000 → Ps.length ≤ 2 ^ 40 → Ps.length ≤ t.usizeMax →
      (∀ P ∈ Ps, Apart (1 + 2 * η) (2 * θ) P (energyOf (-70))) →
      (∀ P ∈ loud Ps, Apart (1 + 4 * η) (2 * θ) P (rangeGateR Ps)) →
      ∃ v : F64, ask (ieeeEnv Demo.libm57 bs t) e .loudnessRange = .done (.ok v) ∧
        (loud Ps = [] → v = Fl.zero false) ∧
        (loud Ps ≠ [] → v.Finite ∧ |v.value - rangeR Ps| ≤
          12 * η + 21 * (θ / percentileR (rangeGatedR Ps) 10 100) + 20 * (1 / 10 ^ 5) + 1 / 10 ^ 11) := by
    rintro Ps rfl η θ rfl rfl
    exact C59_range (by norm_num) Demo.libm57_within.1 Demo.libm57_within.2 Demo.libm57_hundredth (by omega) hst
      (show Adequate Mode.LRA 48000 (minWindow Mode.LRA) by decide) (by show Mode.LRA.contains Mode.LRA = true; decide) rfl
      (by show 8000 ≤ 48000; omega) (by show 48000 ≤ 400000; omega)
      hfeed hrun (X := 1) (by norm_num) (by norm_num) (.inr (by norm_num)) (C57_integer hint) (r := 1 / 200) (by norm_num) bs 0
  have hp1 : 163 / 10 ^ 7 ≤ b0 ^ 2 / 144000 := by norm_num at hb2 ⊢; linarith
  generalize hPe : b0 ^ 2 / 144000 = P at hblocks hp1
  have P0 : 0 < P := lt_of_lt_of_le (by norm_num) hp1
  have g0 : 0 < energyOf (-70) := energyOf_pos _
  have g1 := energy70_small
  have hl : loud [P] = [P] := by
    unfold loud
    rw [List.filter_cons_of_pos (by simp; linarith), List.filter_nil]
  have hgr : rangeGateR [P] = P / 100 := by rw [rangeGateR, hl]; simp [meanR]
  have hgd : rangeGatedR [P] = [P] := by
    rw [rangeGatedR, hl, hgr, List.filter_cons_of_pos (by simp; linarith), List.filter_nil]
  have hη : ∀ η : ℝ, η = 1 / 200 + (30 * (hop 48000 : Nat) + (1 : Nat) + [P].length + 1024 : ℝ) / 2 ^ 50 →
      0 ≤ η ∧ η ≤ 1 / 199 := by
    rintro η rfl
    rw [show hop 48000 = 4800 by decide]
    norm_num
  have hθ : ∀ θ : ℝ, θ = 3 / (1 / 200) * noisePower [.left] 48000 1 + 1 / 2 ^ 300 → 0 ≤ θ ∧ θ ≤ 1 / 10 ^ 7 := by
    rintro θ rfl
    have : (stateGain 48000 / 2 ^ 38 * 1) ^ 2 ≤ (3000000 / 2 ^ 38) ^ 2 := by
      rw [mul_one]
      exact pow_le_pow_left₀ (by positivity) (div_le_div_of_nonneg_right hg (by positivity)) 2
    have w1 : totalWeight [.left] = 1 := by simp [totalWeight, hw]
    unfold noisePower
    rw [w1, one_mul]
    have t0 : (0 : ℝ) < 1 / 2 ^ 300 := by positivity
    have t1 : (1 : ℝ) / 2 ^ 300 ≤ 1 / 2 ^ 60 := one_div_le_one_div_of_le (by positivity) (big_le (by norm_num))
    have n0 : 0 ≤ (stateGain 48000 / 2 ^ 38 * 1) ^ 2 := by positivity
    generalize (1 : ℝ) / 2 ^ 300 = τ at *
    generalize (stateGain 48000 / 2 ^ 38 * 1) ^ 2 = ν at *
    norm_num at this t1 ⊢
    constructor <;> linarith
  obtain ⟨η, rη⟩ : ∃ η : ℝ, η = 1 / 200 + (30 * (hop 48000 : Nat) + (1 : Nat) + [P].length + 1024 : ℝ) / 2 ^ 50 := ⟨_, rfl⟩
  obtain ⟨θ, rθ⟩ : ∃ θ : ℝ, θ = 3 / (1 / 200) * noisePower [.left] 48000 1 + 1 / 2 ^ 300 := ⟨_, rfl⟩
  obtain ⟨η0, η1⟩ := hη η rη
  obtain ⟨θ0, θ1⟩ := hθ θ rθ
  obtain ⟨v, v1, -, v2⟩ := hmain [P] hblocks.symm η θ rη rθ (by linarith)
    (by simp only [List.length_singleton]; omega) (by simp) (by simp only [List.length_singleton]; omega) (by
    intro Q hQ
    rw [List.mem_singleton.1 hQ]
    refine .inl ?_
    have : (1 + 2 * η) * (energyOf (-70) + 2 * θ) ≤ (1 + 2 * (1 / 199)) * (1 / 10 ^ 6 + 2 * (1 / 10 ^ 7)) :=
      mul_le_mul (by linarith) (by linarith) (by linarith) (by norm_num)
    norm_num at this hp1
    linarith) (by
    intro Q hQ
    rw [hl] at hQ
    rw [List.mem_singleton.1 hQ, hgr]
    refine .inl ?_
    have : (1 + 4 * η) * (P / 100 + 2 * θ) ≤ (1 + 4 * (1 / 199)) * (P / 100 + 2 * (1 / 10 ^ 7)) :=
      mul_le_mul (by linarith) (by linarith) (by linarith) (by norm_num)
    norm_num at this hp1
    linarith)
  obtain ⟨v3, v4⟩ := v2 (by rw [hl]; simp)
  have p1 : ∀ num, percentileR [P] num 100 = P := fun num => by
    unfold percentileR
    rw [show nearestRank [P].length num 100 = 0 by simp [nearestRank]]
    rfl
  rw [rangeR, hgd, p1, p1, sub_self, sub_zero] at v4
  have hθP : θ / P ≤ 1 / 163 := by
    rw [div_le_iff₀ P0]
    linarith
  refine ⟨v, v1, v3, v4.trans ?_⟩
  norm_num
  linarith

end Verif
