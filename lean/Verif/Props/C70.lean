import Verif.Proofs.Album
/-!
# C70: accuracy of the loudness and the loudness range of several analyzers together
-/

namespace Verif
open Spec Fl
variable {m : Libm F64} {bs : BSearch} {t : Target}

/-- The uncertainty of a block against the gate, when `σ` is that of a mean. -/
theorem factor_gate_b {η b σ : ℝ} (η0 : 1 / 2 ^ 38 ≤ η) (hη' : η ≤ 1 / 100) (hb : 1 ≤ b) (σ0 : 0 ≤ σ) (σ1 : σ ≤ η / 2) :
    let κ := (1 + 11 / 10 * η) * b
    κ * (κ * (1 + σ) * (1 + 1 / 2 ^ 42)) ≤ b ^ 2 * (1 + 4 * η) ∧ 1 ≤ κ * (1 + σ) * (1 + 1 / 2 ^ 42) := by
  intro κ
  have ηp : 0 < η := lt_of_lt_of_le (by norm_num) η0
  have hκ : 1 ≤ κ := by
    show 1 ≤ (1 + 11 / 10 * η) * b
    nlinarith
  have σ2 : (1 + σ) * (1 + 1 / 2 ^ 42) ≤ 1 + η := by
    norm_num at η0 ⊢
    nlinarith
  constructor
  · have a1 : (1 + 11 / 10 * η) * (1 + 11 / 10 * η) ≤ 1 + 23 / 10 * η := by nlinarith
    calc κ * (κ * (1 + σ) * (1 + 1 / 2 ^ 42))
        = b ^ 2 * ((1 + 11 / 10 * η) * (1 + 11 / 10 * η) * ((1 + σ) * (1 + 1 / 2 ^ 42))) := by
          show (1 + 11 / 10 * η) * b * ((1 + 11 / 10 * η) * b * (1 + σ) * (1 + 1 / 2 ^ 42)) = _
          ring
      _ ≤ b ^ 2 * ((1 + 23 / 10 * η) * (1 + η)) :=
        mul_le_mul_of_nonneg_left (mul_le_mul a1 σ2 (by positivity) (by positivity)) (sq_nonneg _)
      _ ≤ _ := mul_le_mul_of_nonneg_left (by nlinarith) (sq_nonneg _)
  · have : 1 ≤ (1 + σ) * (1 + 1 / 2 ^ 42) := by nlinarith [show (0 : ℝ) < 1 / 2 ^ 42 by positivity]
    rw [_root_.mul_assoc]
    nlinarith

/-- Bounds of sums of energies known up to a factor. -/
theorem rough_sum {κ θ : ℝ} {ys : List F64} {A : List ℝ} (h : List.Forall₂ (Rough κ θ) ys A) (hκ' : κ ≤ 11 / 10)
    (hlen : A.length ≤ 2 ^ 40) (hθ : 0 ≤ θ) (htop : ∀ P ∈ A, P + θ ≤ 2 ^ 150) : (ys.map Fl.value).sum ≤ 2 ^ 240 := by
  have a := (mixed_sum (rough_values h)).1
  have b := sum_le_mul (l := A) (b := 2 ^ 150 - θ) fun P hP => by linarith [htop P hP]
  have cc : (A.length : ℝ) ≤ 2 ^ 40 := by exact_mod_cast hlen
  have s0 : 0 ≤ A.sum + A.length * θ := by
    have := List.sum_nonneg (rough_mem h).2
    positivity
  have d : A.sum + A.length * θ ≤ 2 ^ 40 * 2 ^ 150 := by
    calc A.sum + A.length * θ ≤ A.length * 2 ^ 150 := by linarith
      _ ≤ _ := mul_le_mul_of_nonneg_right cc (by positivity)
  have e : κ * (A.sum + A.length * θ) ≤ 11 / 10 * (2 ^ 40 * 2 ^ 150) := mul_le_mul hκ' d s0 (by norm_num)
  norm_num at a e ⊢
  linarith

/-- **C70**, gating. Several histories, queues and histograms in any mixture, whose blocks at or above the absolute gate are
known up to a factor `(1 + 1.1 η) b` and `θ`: if no block is near the gate, the loudness of all together is that of
BS.1770 over all blocks, to about `10 log10 b + 10 η` dB. -/
theorem C70_gate {δ : ℝ} (hδ : δ ≤ 1) (hm : LogWithin m δ) (ht : TenthWithin m) {η θ b : ℝ} (hb : 1 ≤ b)
    (hb' : b ≤ 103 / 100) {hs : List (History F64)} (hi : ∀ h ∈ hs, h.Inv) {Ps : List ℝ} {ys : List F64}
    (hp : (hs.flatMap stored).Perm ys) (h : List.Forall₂ (Rough ((1 + 11 / 10 * η) * b) θ) ys (loud Ps))
    (hη : ((Ps.length : ℝ) + 2001 * hs.length + 4096) / 2 ^ 50 ≤ η) (hη' : η ≤ 1 / 100) (hθ : 0 ≤ θ)
    (hlen : Ps.length + 2001 * hs.length + 2000 ≤ 2 ^ 40) (htop : ∀ P ∈ Ps, P + θ ≤ 2 ^ 150)
    (h70 : ∀ P ∈ Ps, Apart (1 + 2 * η) (2 * θ) P (energyOf (-70)))
    (h10 : ∀ P ∈ loud Ps, Apart (b ^ 2 * (1 + 4 * η)) (2 * θ) P (gateR Ps)) :
    let v := gatedLoudnessP (ieeeEnv m bs t) hs
    (loud Ps = [] → v = Fl.inf true) ∧
    (loud Ps ≠ [] → v.Finite ∧ |v.value - integratedR Ps| ≤
      10 * Real.logb 10 b + 10 * η + 11 * (θ / meanR (gatedR Ps)) + 10 * δ + 1 / 10 ^ 12) := by
  intro v
  have hmb := b64_ok.1
  have e0 := (eta_pos Fmt.b64).le
  have η0 : 1 / 2 ^ 38 ≤ η := by
    refine _root_.le_trans ?_ hη
    rw [le_div_iff₀ (by positivity)]
    have : (0 : ℝ) ≤ Ps.length + 2001 * hs.length := by positivity
    norm_num
    linarith
  have ηp : 0 < η := lt_of_lt_of_le (by norm_num) η0
  have hAlen : (loud Ps).length ≤ Ps.length := List.length_filter_le ..
  have hfl : (hs.flatMap stored).length = (loud Ps).length := by rw [hp.length_eq, h.length_eq]
  have k1 : 1 ≤ (1 + 11 / 10 * η) * b := one_le_mul_of_one_le_of_one_le (by linarith) hb
  have k2 : (1 + 11 / 10 * η) * b ≤ 105 / 100 := by
    calc (1 + 11 / 10 * η) * b ≤ (1 + 11 / 10 * (1 / 100)) * (103 / 100) :=
          mul_le_mul (by linarith) hb' (by linarith) (by norm_num)
      _ ≤ _ := by norm_num
  have tA : ∀ P ∈ loud Ps, P + θ ≤ 2 ^ 150 := fun P hP => htop P (loud_mem hP).1
  have hmem : ∀ x ∈ hs.flatMap stored, x.Finite ∧ x.Nonneg := fun x hx => (rough_mem h).1 x (hp.mem_iff.1 hx)
  have es : ((hs.flatMap stored).map Fl.value).sum = (ys.map Fl.value).sum := (hp.map _).sum_eq
  have hsum : ((hs.flatMap stored).map Fl.value).sum ≤ 2 ^ 240 := by
    rw [es]
    exact rough_sum h (by linarith) (by omega) hθ tA
  obtain ⟨T1, T2, T3, T4⟩ := totals_near (m := m) (bs := bs) (t := t) hi hmem (by omega) hsum
  constructor
  · intro hnil
    have h0 : (totals (ieeeEnv m bs t) hs).1 = 0 := by rw [T1, hfl, hnil]; rfl
    show gatedLoudnessP _ hs = _
    unfold gatedLoudnessP gatingMultP iterP
    rw [if_pos h0]
    rfl
  · intro hne
    have n0 : 0 < (loud Ps).length := List.length_pos_iff.2 hne
    -- the number of roundings
    obtain ⟨K, hK⟩ : ∃ K, K = (hs.flatMap stored).length + 2001 * hs.length + 2000 := ⟨_, rfl⟩
    have hK2 : (hs.flatMap stored).length + 2000 * hs.length ≤ K := by omega
    have hK3 : K ≤ 2 ^ 40 := by omega
    have σ1 : (((K + 1 : Nat) : ℝ) + 1) / 2 ^ 51 ≤ η / 2 := by
      have : (((K + 1 : Nat) : ℝ) + 1) ≤ (Ps.length : ℝ) + 2001 * hs.length + 4096 := by
        rw [hK]
        push_cast
        have : (((hs.flatMap stored).length : Nat) : ℝ) ≤ Ps.length := by rw [hfl]; exact_mod_cast hAlen
        linarith
      rw [div_le_iff₀ (by positivity)] at hη ⊢
      generalize (((K + 1 : Nat) : ℝ) + 1) = k at this ⊢
      norm_num at hη ⊢
      linarith
    have σ0 : (0 : ℝ) ≤ (((K + 1 : Nat) : ℝ) + 1) / 2 ^ 51 := by positivity
    rw [← hK] at T4
    have q1 := quotient_near T2 T3 (values_nonneg hmem) T4 (by omega) hsum (n := (loud Ps).length) n0 (by omega)
    rw [← T1.trans hfl] at q1
    have em : (((hs.flatMap stored).map Fl.value).sum / ((totals (ieeeEnv m bs t) hs).1 : ℝ)) = meanR (ys.map Fl.value) := by
      unfold meanR
      rw [es, T1, hp.length_eq, List.length_map]
    rw [em] at q1
    obtain ⟨f1, f2, f3⟩ := q1
    obtain ⟨hM, hMθ⟩ := loud_mean ηp.le hθ h70 (l := loud Ps) (fun _ h => h) hne
    obtain ⟨m1, m2, m3⟩ := mean_rough k1 (by linarith) hθ h hne hM hMθ tA f2 (by omega) f3
    obtain ⟨τf, τv⟩ := ht
    obtain ⟨gf, gv⟩ := gate_mixed m1 (by positivity) hθ f1 m2 m3 τf (by norm_num : (1 : ℝ) / 100 ≤ 1 / 10) (by norm_num) τv
    have hΓ : 1 / 10 * meanR (loud Ps) = gateR Ps := by unfold gateR; ring
    rw [hΓ] at gv
    have Γ0 : 0 < gateR Ps := by
      rw [← hΓ]
      have : (0 : ℝ) < 1 / 10 ^ 7 := by positivity
      linarith
    have eg : relGate (ieeeEnv m bs t) (-10) (totals (ieeeEnv m bs t) hs) =
        Fl.mul (Fl.div (totals (ieeeEnv m bs t) hs).2 (Fl.ofInt Fmt.b64 ((totals (ieeeEnv m bs t) hs).1 : Int)))
          (m.powf (Fl.lit Fmt.b64 10 1) (Fl.lit Fmt.b64 (-1) 1)) := by
      unfold relGate
      rw [gateFactor_tenth]
      rfl
    rw [← eg] at gf gv
    have hgn : (relGate (ieeeEnv m bs t) (-10) (totals (ieeeEnv m bs t) hs)).isNan = false := by
      obtain ⟨s, k, hk, e, -⟩ := gf
      rw [e]; rfl
    have tn : (ieeeEnv m bs t).f64.isNan (totals (ieeeEnv m bs t) hs).2 = false := by
      obtain ⟨s, k, hk, e, -⟩ := T2
      rw [e]; rfl
    have hn0 : (totals (ieeeEnv m bs t) hs).1 ≠ 0 := by rw [T1, hfl]; omega
    obtain ⟨kk, hg1⟩ := factor_gate_b η0 hη' hb σ0 σ1
    have hap : ∀ P ∈ loud Ps, Apart ((1 + 11 / 10 * η) * b * ((1 + 11 / 10 * η) * b *
        (1 + (((K + 1 : Nat) : ℝ) + 1) / 2 ^ 51) * (1 + 1 / 2 ^ 42))) (2 * θ) P (gateR Ps) := by
      intro P hP
      have P0 : 0 ≤ P := (rough_mem h).2 P hP
      rcases h10 P hP with d | d
      · exact .inl (lt_of_le_of_lt (mul_le_mul_of_nonneg_right kk (by linarith)) d)
      · exact .inr (lt_of_le_of_lt (mul_le_mul_of_nonneg_right kk (by linarith)) d)
    have hgate := (rough_gate k1 hg1 hθ h gf Γ0.le gv hap).1
    change List.Forall₂ _ _ (gatedR Ps) at hgate
    have hne2 := gatedR_ne hne
    have gl : ∀ P ∈ gatedR Ps, P ∈ loud Ps := fun P hP => (List.mem_filter.1 hP).1
    have hBlen : (gatedR Ps).length ≤ (loud Ps).length := List.length_filter_le ..
    have tB : ∀ P ∈ gatedR Ps, P + θ ≤ 2 ^ 150 := fun P hP => tA P (gl P hP)
    have hv0 : v = gatedLoudnessP (ieeeEnv m bs t) hs := rfl
    unfold gatedLoudnessP gatingMultP iterP at hv0
    rw [if_neg hn0, tn, if_neg Bool.false_ne_true] at hv0
    simp only at hv0
    clear_value v
    generalize relGate (ieeeEnv m bs t) (-10) (totals (ieeeEnv m bs t) hs) = g at *
    have hp2 := hp.filter fun x => Fl.le g x
    have es2 : (((hs.flatMap stored).filter fun x => Fl.le g x).map Fl.value).sum =
        ((ys.filter fun x => Fl.le g x).map Fl.value).sum := (hp2.map _).sum_eq
    have hsum2 : (((hs.flatMap stored).filter fun x => Fl.le g x).map Fl.value).sum ≤ 2 ^ 240 := by
      rw [es2]
      exact rough_sum hgate (by linarith) (by omega) hθ tB
    obtain ⟨U1, U2, U3, U4⟩ := items_near (m := m) (bs := bs) (t := t) hi hmem hgn (by omega) hsum2
    have hgl : ((hs.flatMap stored).filter fun x => Fl.le g x).length = (gatedR Ps).length := by
      rw [hp2.length_eq, hgate.length_eq]
    have m0 : 0 < (gatedR Ps).length := List.length_pos_iff.2 hne2
    have hmem2 : ∀ x ∈ (hs.flatMap stored).filter fun x => Fl.le g x, x.Finite ∧ x.Nonneg := fun x hx =>
      hmem x (List.mem_filter.1 hx).1
    generalize sumItems (ieeeEnv m bs t) (hs.map (History.gatedP (ieeeEnv m bs t) (startP (ieeeEnv m bs t) g) g)).flatten =
      T at *
    obtain ⟨n', T'⟩ := T
    simp only at U1 U2 U3 U4 hv0
    have hn' : n' = (gatedR Ps).length := U1.trans hgl
    rw [if_neg (by omega)] at hv0
    simp only at hv0
    have U5 : Near Fmt.b64 K (K * eta Fmt.b64) T'.value _ := Near.mono hmb hK2
      (mul_le_mul_of_nonneg_right (Nat.cast_le.2 hK2) e0) (by positivity) U3.value_nonneg (values_nonneg hmem2) U4
    have q2 := quotient_near U2 U3 (values_nonneg hmem2) U5 (by omega) hsum2 (n := n') (by omega) (by omega)
    have em2 : ((((hs.flatMap stored).filter fun x => Fl.le g x).map Fl.value).sum / (n' : ℝ)) =
        meanR ((ys.filter fun x => Fl.le g x).map Fl.value) := by
      unfold meanR
      rw [es2, U1, hp2.length_eq, List.length_map]
    rw [em2] at q2
    obtain ⟨u2, u3, u4⟩ := q2
    obtain ⟨hM2, hMθ2⟩ := loud_mean ηp.le hθ h70 gl hne2
    obtain ⟨w1, w2, w3⟩ := mean_rough k1 (by linarith) hθ hgate hne2 hM2 hMθ2 tB u3 (by omega) u4
    have ev : v = lufsD (ieeeEnv m bs t) (Fl.div T' (Fl.ofInt Fmt.b64 (n' : Int))) := hv0
    obtain ⟨l1, l2, -⟩ := lufsD_near (bs := bs) (t := t) hδ hm u2 (lt_of_lt_of_le (by positivity) w2)
    rw [← ev] at l1 l2
    refine ⟨l1, ?_⟩
    have Mp : 0 < meanR (gatedR Ps) := lt_of_lt_of_le (by positivity) hM2
    have lg1 := (logb_small (z := 11 / 10 * η) (by positivity)).2
    have lg2 := (logb_small σ0).2
    have lgκ : Real.logb 10 ((1 + 11 / 10 * η) * b * (1 + (((K + 1 : Nat) : ℝ) + 1) / 2 ^ 51)) =
        Real.logb 10 (1 + 11 / 10 * η) + Real.logb 10 b + Real.logb 10 (1 + (((K + 1 : Nat) : ℝ) + 1) / 2 ^ 51) := by
      rw [Real.logb_mul (by positivity) (by positivity), Real.logb_mul (by positivity) (by positivity)]
    generalize (((K + 1 : Nat) : ℝ) + 1) / 2 ^ 51 = σ at *
    have hκs : 1 ≤ (1 + 11 / 10 * η) * b * (1 + σ) ∧ (1 + 11 / 10 * η) * b * (1 + σ) ≤ 11 / 10 := by
      generalize (1 + 11 / 10 * η) * b = κ at k1 k2
      constructor
      · exact one_le_mul_of_one_le_of_one_le k1 (by linarith)
      · calc κ * (1 + σ) ≤ 105 / 100 * (1 + 1 / 100) := mul_le_mul k2 (by linarith) (by linarith) (by norm_num)
          _ ≤ _ := by norm_num
    have h2 : 2 * ((1 + 11 / 10 * η) * b * (1 + σ) * θ) ≤ meanR (gatedR Ps) := by
      refine meanR_ge hne2 fun P hP => ?_
      have hPg : gateR Ps ≤ P := of_decide_eq_true (List.mem_filter.1 hP).2
      rcases hap P (gl P hP) with d | d
      · have a1 : (1 + 11 / 10 * η) * b * (1 + σ) ≤
            (1 + 11 / 10 * η) * b * ((1 + 11 / 10 * η) * b * (1 + σ) * (1 + 1 / 2 ^ 42)) := by
          generalize (1 + 11 / 10 * η) * b = κ at *
          have : κ * (1 + σ) ≤ κ * (1 + σ) * (1 + 1 / 2 ^ 42) :=
            le_mul_of_one_le_right (by positivity) (by norm_num)
          calc κ * (1 + σ) ≤ κ * (1 + σ) * (1 + 1 / 2 ^ 42) := this
            _ ≤ _ := le_mul_of_one_le_left (by positivity) k1
        have a2 := mul_le_mul_of_nonneg_right a1 (show 0 ≤ gateR Ps + 2 * θ by linarith)
        have a3 : 0 ≤ (1 + 11 / 10 * η) * b * (1 + σ) * gateR Ps := mul_nonneg (by linarith [hκs.1]) Γ0.le
        have a4 : (1 + 11 / 10 * η) * b * (1 + σ) * (gateR Ps + 2 * θ) =
            (1 + 11 / 10 * η) * b * (1 + σ) * gateR Ps + 2 * ((1 + 11 / 10 * η) * b * (1 + σ) * θ) := by ring
        linarith
      · exfalso
        have : 1 * (P + 2 * θ) ≤ (1 + 11 / 10 * η) * b * ((1 + 11 / 10 * η) * b * (1 + σ) * (1 + 1 / 2 ^ 42)) *
            (P + 2 * θ) := mul_le_mul_of_nonneg_right (one_le_mul_of_one_le_of_one_le k1 hg1) (by linarith)
        linarith
    obtain ⟨-, w5⟩ := lufs_mixed hκs.1 hθ Mp h2 w1
    rw [lgκ] at w5
    have z0 : 0 ≤ θ / meanR (gatedR Ps) := by positivity
    rw [mul_div_assoc] at w5
    have w6 : (1 + 11 / 10 * η) * b * (1 + σ) * (θ / meanR (gatedR Ps)) ≤ 11 / 10 * (θ / meanR (gatedR Ps)) :=
      mul_le_mul_of_nonneg_right hκs.2 z0
    have tri := abs_sub_le v.value (lufs (Fl.div T' (Fl.ofInt Fmt.b64 (n' : Int))).value) (integratedR Ps)
    unfold integratedR at *
    linarith

/-! ## Tracks -/

/-- A track of an album: an analyzer as it was before the track, the calls, and the analyzer after them. -/
structure Spec.Track where
  start : Ebu F64 F32
  ops : List (Op F64 F32)
  final : Ebu F64 F32

/-- The analyzer was created, reset or reconfigured, its window covers the blocks of its mode, the calls only add or seed
frames, and no sample exceeds `X`. -/
structure Spec.Track.Played (E : Env F64 F32) (X : ℝ) (τ : Track) : Prop where
  started : Started E τ.start
  window : Adequate τ.start.mode τ.start.rate τ.start.window
  low : 8000 ≤ τ.start.rate
  high : τ.start.rate ≤ 400000
  feeds : ∀ op ∈ τ.ops, Feed op
  run : runOps E τ.start τ.ops = .done τ.final
  within : SamplesWithin X (heard E τ.start.channels τ.ops)

/-- The exact powers of the gating blocks of a track. -/
noncomputable def Spec.Track.powers (E : Env F64 F32) (bs : BSearch) (u : Nat) (τ : Track) : List ℝ :=
  idealBlocks bs u τ.start.rate τ.start.channelMap (heard E τ.start.channels τ.ops) (measured E τ.start.channels τ.ops)

/-- The exact powers of the short-term blocks of a track. -/
noncomputable def Spec.Track.shortPowers (E : Env F64 F32) (bs : BSearch) (u : Nat) (τ : Track) : List ℝ :=
  idealShorts bs u τ.start.rate τ.start.channelMap (heard E τ.start.channels τ.ops) (measured E τ.start.channels τ.ops)

/-- An empty history with room for blocks with these powers: a queue that is long enough, or a histogram, which has room
for any number but saturates at about +29 LUFS. -/
def Spec.Fits (θ : ℝ) (Ps : List ℝ) : History F64 → Prop
  | .queue q max => q = [] ∧ Ps.length ≤ max
  | .histogram c => c.sum = 0 ∧ ∀ P ∈ Ps, P + θ ≤ 1000

theorem Spec.Rough.mono {κ κ' θ : ℝ} {y : F64} {P : ℝ} (h : Rough κ θ y P) (hκ : κ ≤ κ') (hθ : 0 ≤ θ) : Rough κ' θ y P := by
  obtain ⟨h1, h2, h3, h4, h5⟩ := h
  exact ⟨h1, h2, h3, h4.trans (mul_le_mul_of_nonneg_right hκ (by linarith)),
    h5.trans (mul_le_mul_of_nonneg_right hκ (by linarith [h2.value_nonneg]))⟩

/-- A history after energies known up to `η P + θ` were offered to it. -/
theorem history_rough {η θ b : ℝ} {h0 h : History F64} {q : List F64} {Ps : List ℝ} (hq : List.Forall₂ (Close η θ) q Ps)
    (hi : h0.Inv) (hadd : Run.foldL (History.add (ieeeEnv m bs t)) h0 q = .done h) (hroom : Fits θ Ps h0)
    (hη : 1 / 2 ^ 40 ≤ η) (hη' : η ≤ 1 / 100) (hθ : 0 ≤ θ) (h70 : ∀ P ∈ Ps, Apart (1 + 2 * η) (2 * θ) P (energyOf (-70)))
    (hb : b = binFactor ∨ b = 1 ∧ ∃ max, h0 = .queue [] max) :
    ∃ ys, (stored h).Perm ys ∧ List.Forall₂ (Rough ((1 + 11 / 10 * η) * b) θ) ys (loud Ps) := by
  have η0 : 0 ≤ η := _root_.le_trans (by norm_num) hη
  cases h0 with
  | queue q0 max =>
    obtain ⟨rfl, hmax⟩ := hroom
    rw [foldL_add _ hi, foldl_queue (ieeeEnv m bs t) max q [] (by
      rw [List.length_nil, Nat.zero_add, hq.length_eq]; exact hmax), List.nil_append, gate0_bnd] at hadd
    injection hadd with hadd
    subst hadd
    refine ⟨_, List.Perm.refl _, ?_⟩
    have b1 : 1 ≤ b := by
      rcases hb with rfl | ⟨rfl, -⟩
      · exact binFactor_bounds.1
      · exact le_rfl
    refine (loud_close (m := m) (bs := bs) (t := t) hq hη hη' hθ h70).imp fun x P hx => ?_
    exact Spec.Rough.mono ⟨hx.1, hx.2.1, hx.2.2.1, hx.mixed η0 hη' hθ⟩
      (le_mul_of_one_le_right (by positivity) b1) hθ
  | histogram c0 =>
    obtain ⟨hc0, htop⟩ := hroom
    obtain ⟨c, d1, d2, d3⟩ := C33_counts (m := m) (bs := bs) (t := t) (c := c0) hi q
    rw [d1] at hadd
    injection hadd with hadd
    subst hadd
    simp only [empty_counts hc0, Nat.zero_add] at d3
    have hnn : ∀ x ∈ q, x.isNan = false := by
      intro x hx
      obtain ⟨s, k, hk, rfl, -⟩ := (close_mem hq x hx).1
      rfl
    rcases hb with rfl | ⟨-, max, hc⟩
    · exact ⟨_, hist_perm (m := m) (bs := bs) (t := t) hnn d3, bins_rough hq hη hη' hθ h70 htop⟩
    · cases hc

/-- Blocks of a track, known up to `η P + θ` with one `η` and one `θ` for all tracks, and bounded. -/
theorem track_close (he : ElemWithin m (1 / 2 ^ 50)) {X : ℝ} (hX : 1 / 2 ^ 100 ≤ X) (hX' : X ≤ 2 ^ 60)
    (hs : t.sse2 = true ∨ 1 / 2 ^ 13 ≤ X) {τ : Track} (hτ : τ.Played (ieeeEnv m bs t) X) {N : Nat} (hN : 0 < N)
    (hN' : N ≤ 2 ^ 21) (ends : List Nat) {r η W : ℝ} (h0 : 0 < r)
    (hη : r + (N + τ.start.channels + ends.length + 1024 : ℝ) / 2 ^ 50 ≤ η) (hη' : η ≤ 1 / 100)
    (hW : noisePower τ.start.channelMap τ.start.rate X ≤ W) (bs' : BSearch) (u : Nat) :
    let E := ieeeEnv m bs t
    let Ps := ends.map fun k => idealPower τ.start.channelMap N k
      (idealOuts bs' u τ.start.rate (heard E τ.start.channels τ.ops))
    let θ := 3 / r * W + 1 / 2 ^ 300
    List.Forall₂ (Close η θ) (ends.map fun k => energy E (capacity τ.start.rate τ.start.window) N k τ.start.channelMap
      (signalOn E τ.start.rate τ.start.channels τ.ops)) Ps ∧
    ((∀ P ∈ Ps, Apart (1 + 2 * η) (2 * θ) P (energyOf (-70))) → ∀ P ∈ Ps, P + θ ≤ 2 ^ 150) := by
  intro E Ps θ
  have hi := hτ.started.reachable.inv
  have X0 : 0 < X := lt_of_lt_of_le (by positivity) hX
  have W0 : 0 ≤ noisePower τ.start.channelMap τ.start.rate X := mul_nonneg (totalWeight_bounds _).1 (by positivity)
  have θθ : 3 / r * noisePower τ.start.channelMap τ.start.rate X + 1 / 2 ^ 300 ≤ θ := by
    show _ ≤ 3 / r * W + _
    have : 3 / r * noisePower τ.start.channelMap τ.start.rate X ≤ 3 / r * W :=
      mul_le_mul_of_nonneg_left hW (by positivity)
    exact add_le_add_left this _
  have η0 : 0 < η := by
    have : (0 : ℝ) ≤ (N + τ.start.channels + ends.length + 1024 : ℝ) / 2 ^ 50 := by positivity
    linarith
  have θ0 : 0 ≤ θ := by
    refine _root_.le_trans ?_ θθ
    positivity
  obtain ⟨-, c3, -⟩ := blocks_close (bs := bs) (t := t) he hτ.low hτ.high hX hX' hs hτ.within
    (capacity τ.start.rate τ.start.window) (N := N) ends τ.start.channelMap hi.map hi.ch64 hN hN' h0 bs' u (by linarith)
  refine ⟨c3.imp fun _ _ hx => Spec.Close.mono hx hη θθ, fun h70 P hP => ?_⟩
  have hP70 := h70 P hP
  clear_value θ
  obtain ⟨k, -, rfl⟩ := List.mem_map.1 hP
  have hb := idealPower_bounds τ.start.channelMap (N := N) (n := k)
    (ys := idealOuts bs' u τ.start.rate (heard E τ.start.channels τ.ops)) (Y := 13 * X) (by positivity)
    fun c => (C57_signal (bs := bs) (t := t) (bs' := bs') (u := u) he hτ.low hτ.high hX hX' hs hτ.within c).2.1
  generalize idealPower τ.start.channelMap N k (idealOuts bs' u τ.start.rate (heard E τ.start.channels τ.ops)) = P at *
  have c1 : (τ.start.channelMap.length : ℝ) ≤ 64 := by rw [hi.map]; exact_mod_cast hi.ch64
  have c2 : X ^ 2 ≤ (2 ^ 60) ^ 2 := pow_le_pow_left₀ X0.le hX' 2
  have c3 : P ≤ 2 * 64 * (169 * (2 ^ 60) ^ 2) := by
    refine hb.2.trans (mul_le_mul (by linarith) ?_ (by positivity) (by norm_num))
    rw [mul_pow]
    norm_num at c2 ⊢
    linarith
  have g1 := gate70.2
  have g0 : 0 < energyOf (-70) := energyOf_pos _
  have c4 : 2 * θ ≤ P + 1 := by
    have P0 := hb.1
    rcases hP70 with c | c
    · have : 0 ≤ 2 * η * (energyOf (-70) + 2 * θ) := by positivity
      linarith
    · have : 0 ≤ 2 * η * (P + 2 * θ) := by positivity
      linarith
  norm_num at c3 ⊢
  linarith

/-- Concatenation of lists that are permutations of lists known up to a factor. -/
theorem rough_concat {ι : Type} {κ θ : ℝ} {f : ι → List F64} {g : ι → List ℝ} {ts : List ι}
    (h : ∀ τ ∈ ts, ∃ ys, (f τ).Perm ys ∧ List.Forall₂ (Rough κ θ) ys (g τ)) :
    ∃ ys, (ts.flatMap f).Perm ys ∧ List.Forall₂ (Rough κ θ) ys (ts.flatMap g) := by
  induction ts with
  | nil => exact ⟨[], List.Perm.refl _, .nil⟩
  | cons τ ts ih =>
    obtain ⟨y1, p1, r1⟩ := h τ (List.mem_cons_self ..)
    obtain ⟨y2, p2, r2⟩ := ih fun a ha => h a (List.mem_cons_of_mem _ ha)
    rw [List.flatMap_cons, List.flatMap_cons]
    exact ⟨y1 ++ y2, p1.append p2, List.rel_append r1 r2⟩

theorem loud_flatMap {ι : Type} (f : ι → List ℝ) (ts : List ι) : loud (ts.flatMap f) = ts.flatMap fun τ => loud (f τ) := by
  unfold loud
  rw [List.filter_flatMap]

theorem hop_bounds {rate : Nat} (h : 8000 ≤ rate) (h' : rate ≤ 400000) : 0 < hop rate ∧ 30 * hop rate ≤ 2 ^ 21 := by
  unfold hop
  omega

/-- The uncertainty common to all tracks is at least that of each. -/
theorem share_le {N a b n k : Nat} {r : ℝ} (h : a + b ≤ N) (c : Nat) (hn : n ≤ k) :
    r + ((a : ℝ) + b + n + 1024) / 2 ^ 50 ≤ r + ((N : ℝ) + k + 2001 * c + 4096) / 2 ^ 50 := by
  have h1 : (a : ℝ) + b ≤ N := by exact_mod_cast h
  have h2 : (n : ℝ) ≤ k := by exact_mod_cast hn
  have h3 : (0 : ℝ) ≤ c := by positivity
  have : ((a : ℝ) + b + n + 1024) / 2 ^ 50 ≤ ((N : ℝ) + k + 2001 * c + 4096) / 2 ^ 50 :=
    div_le_div_of_nonneg_right (by linarith) (by positivity)
  linarith

theorem flatMap_length_mem {ι α : Type} {f : ι → List α} {ts : List ι} {τ : ι} (h : τ ∈ ts) :
    (f τ).length ≤ (ts.flatMap f).length := by
  induction ts with
  | nil => cases h
  | cons a ts ih =>
    rw [List.flatMap_cons, List.length_append]
    rcases List.mem_cons.1 h with rfl | h
    · omega
    · have := ih h
      omega

/-- **C70.** The loudness of an album, `loudness_global_multiple`, against BS.1770 in exact arithmetic over the blocks of
all tracks, from the samples on. The analyzers may have different rates, channels and channel maps, and any of them may
use a queue or a histogram. `N` bounds the frames of a block plus the channels, `W` the power of the noise of the filters.
If no block is near a gate, the error is about `10 η` dB, and half a bin more if there are histograms. -/
theorem C70_album {δ : ℝ} (hδ : δ ≤ 1) (hm : LogWithin m δ) (he : ElemWithin m (1 / 2 ^ 50)) (ht : TenthWithin m)
    {X : ℝ} (hX : 1 / 2 ^ 100 ≤ X) (hX' : X ≤ 2 ^ 60) (hs : t.sse2 = true ∨ 1 / 2 ^ 13 ≤ X) {ts : List Track}
    (hts : ∀ τ ∈ ts, τ.Played (ieeeEnv m bs t) X) (hI : ∀ τ ∈ ts, τ.start.mode.contains Mode.I = true) {N : Nat}
    (hN : ∀ τ ∈ ts, 4 * hop τ.start.rate + τ.start.channels ≤ N) {W : ℝ} (W0 : 0 ≤ W)
    (hW : ∀ τ ∈ ts, noisePower τ.start.channelMap τ.start.rate X ≤ W) {r : ℝ} (h0 : 0 < r) (bs' : BSearch) (u : Nat) {b : ℝ}
    (hb : b = binFactor ∨ b = 1 ∧ ∀ τ ∈ ts, ∃ max, τ.start.blockEnergyHistory = .queue [] max) :
    let E := ieeeEnv m bs t
    let Ps := ts.flatMap (Track.powers E bs' u)
    let η := r + (N + Ps.length + 2001 * ts.length + 4096 : ℝ) / 2 ^ 50
    let θ := 3 / r * W + 1 / 2 ^ 300
    η ≤ 1 / 100 → Ps.length + 2001 * ts.length + 2000 ≤ 2 ^ 40 →
    (∀ τ ∈ ts, Fits θ (τ.powers E bs' u) τ.start.blockEnergyHistory) →
    (∀ P ∈ Ps, Apart (1 + 2 * η) (2 * θ) P (energyOf (-70))) →
    (∀ P ∈ loud Ps, Apart (b ^ 2 * (1 + 4 * η)) (2 * θ) P (gateR Ps)) →
    ∃ v : F64, loudnessGlobalMultiple E (ts.map Track.final) = .done (.ok v) ∧
      (loud Ps = [] → v = Fl.inf true) ∧
      (loud Ps ≠ [] → v.Finite ∧ |v.value - integratedR Ps| ≤
        10 * Real.logb 10 b + 10 * η + 11 * (θ / meanR (gatedR Ps)) + 10 * δ + 1 / 10 ^ 12) := by
  intro E Ps η θ hη hlen hroom h70 h10
  have hθ : 0 ≤ θ := by
    show (0 : ℝ) ≤ 3 / r * W + _
    positivity
  have hηb : ((Ps.length : ℝ) + 2001 * ts.length + 4096) / 2 ^ 50 ≤ η := by
    show _ ≤ r + _
    have : ((Ps.length : ℝ) + 2001 * ts.length + 4096) / 2 ^ 50 ≤ (N + Ps.length + 2001 * ts.length + 4096 : ℝ) / 2 ^ 50 :=
      div_le_div_of_nonneg_right (by linarith [show (0 : ℝ) ≤ N by positivity]) (by positivity)
    linarith
  have η40 : 1 / 2 ^ 40 ≤ η := by
    refine _root_.le_trans ?_ hηb
    rw [le_div_iff₀ (by positivity)]
    have : (0 : ℝ) ≤ Ps.length + 2001 * ts.length := by positivity
    norm_num
    linarith
  have hclose : ∀ τ ∈ ts, List.Forall₂ (Close η θ)
      ((blockEnds (hop τ.start.rate) (measured E τ.start.channels τ.ops)).map fun k =>
        energy E (capacity τ.start.rate τ.start.window) (4 * hop τ.start.rate) k τ.start.channelMap
          (signalOn E τ.start.rate τ.start.channels τ.ops)) (τ.powers E bs' u) ∧
      ((∀ P ∈ τ.powers E bs' u, Apart (1 + 2 * η) (2 * θ) P (energyOf (-70))) →
        ∀ P ∈ τ.powers E bs' u, P + θ ≤ 2 ^ 150) := by
    intro τ hτ
    obtain ⟨p1, p2⟩ := hop_bounds (hts τ hτ).low (hts τ hτ).high
    have hn : (blockEnds (hop τ.start.rate) (measured E τ.start.channels τ.ops)).length ≤ Ps.length := by
      have := flatMap_length_mem (f := Track.powers E bs' u) hτ
      rwa [show (Track.powers E bs' u τ).length = _ from List.length_map ..] at this
    exact track_close (bs := bs) (t := t) he hX hX' hs (hts τ hτ) (N := 4 * hop τ.start.rate) (by omega) (by omega) _ h0
      (share_le (hN τ hτ) ts.length hn) hη (hW τ hτ) bs' u
  have hsub : ∀ τ ∈ ts, ∀ P ∈ τ.powers E bs' u, P ∈ Ps := fun τ hτ P hP => List.mem_flatMap.2 ⟨τ, hτ, hP⟩
  have hreach : ∀ e ∈ ts.map Track.final, Reachable E e := by
    intro e hm
    obtain ⟨τ, hτ, rfl⟩ := List.mem_map.1 hm
    exact reachable_run (hts τ hτ).started.reachable (hts τ hτ).run
  have hIe : ∀ e ∈ ts.map Track.final, e.mode.contains Mode.I = true := by
    intro e hm
    obtain ⟨τ, hτ, rfl⟩ := List.mem_map.1 hm
    rw [runFeeds_mode (hts τ hτ).feeds (hts τ hτ).started.reachable.inv (hts τ hτ).run]
    exact hI τ hτ
  have hinv : ∀ h ∈ (ts.map Track.final).map Ebu.blockEnergyHistory, h.Inv := by
    intro h hm
    obtain ⟨e, he, rfl⟩ := List.mem_map.1 hm
    exact (hreach e he).inv.hist
  have hper : ∀ τ ∈ ts, ∃ ys, (stored τ.final.blockEnergyHistory).Perm ys ∧
      List.Forall₂ (Rough ((1 + 11 / 10 * η) * b) θ) ys (loud (τ.powers E bs' u)) := by
    intro τ hτ
    have hp := hts τ hτ
    refine history_rough (hclose τ hτ).1 hp.started.reachable.inv.hist
      ((C61_blocks (ieee_zero m bs t) hp.started hp.window hp.feeds hp.run).1 (hI τ hτ)) (hroom τ hτ) η40 hη hθ
      (fun P hP => h70 P (hsub τ hτ P hP)) ?_
    rcases hb with hb | ⟨hb, hq⟩
    · exact .inl hb
    · exact .inr ⟨hb, hq τ hτ⟩
  obtain ⟨ys, hp, hrough⟩ := rough_concat (f := fun τ : Track => stored τ.final.blockEnergyHistory)
    (g := fun τ : Track => loud (τ.powers E bs' u)) hper
  rw [← loud_flatMap] at hrough
  have eh : (ts.flatMap fun τ : Track => stored τ.final.blockEnergyHistory) =
      ((ts.map Track.final).map Ebu.blockEnergyHistory).flatMap stored := by
    rw [List.flatMap_map, List.flatMap_map]
  rw [eh] at hp
  have hl : ((ts.map Track.final).map Ebu.blockEnergyHistory).length = ts.length := by
    rw [List.length_map, List.length_map]
  have b1 : 1 ≤ b ∧ b ≤ 103 / 100 := by
    rcases hb with rfl | ⟨rfl, -⟩
    · exact binFactor_bounds
    · norm_num
  obtain ⟨g1, g2⟩ := C70_gate (bs := bs) (t := t) hδ hm ht b1.1 b1.2 hinv hp hrough (by rw [hl]; exact hηb) hη hθ
    (by rw [hl]; exact hlen) (fun P hP => by
      obtain ⟨τ, hτ, hP'⟩ := List.mem_flatMap.1 hP
      exact (hclose τ hτ).2 (fun Q hQ => h70 Q (hsub τ hτ Q hQ)) P hP') h70 h10
  refine ⟨_, ?_, g1, g2⟩
  rw [loudnessGlobalMultiple_eq fun e he => (hreach e he).inv, if_pos hIe]

/-! ## Loudness range -/

/-- The computed energies of the short-term blocks of a track. -/
noncomputable def Spec.Track.shortEnergies (E : Env F64 F32) (τ : Track) : List F64 :=
  (shortEnds (hop τ.start.rate) (measured E τ.start.channels τ.ops)).map fun k =>
    energy E (capacity τ.start.rate τ.start.window) (30 * hop τ.start.rate) k τ.start.channelMap
      (signalOn E τ.start.rate τ.start.channels τ.ops)

theorem close_concat {ι : Type} {η θ : ℝ} {f : ι → List F64} {g : ι → List ℝ} {ts : List ι}
    (h : ∀ τ ∈ ts, List.Forall₂ (Close η θ) (f τ) (g τ)) : List.Forall₂ (Close η θ) (ts.flatMap f) (ts.flatMap g) := by
  induction ts with
  | nil => exact .nil
  | cons τ ts ih =>
    rw [List.flatMap_cons, List.flatMap_cons]
    exact List.rel_append (h τ (List.mem_cons_self ..)) (ih fun a ha => h a (List.mem_cons_of_mem _ ha))

theorem queues_concat {ι : Type} {f : ι → History F64} {g : ι → List F64} {ts : List ι}
    (h : ∀ τ ∈ ts, ∃ max, f τ = .queue (g τ) max) :
    ∃ qs : List (List F64 × Nat), ts.map f = qs.map (fun q => .queue q.1 q.2) ∧ (qs.map Prod.fst).flatten = ts.flatMap g := by
  induction ts with
  | nil => exact ⟨[], rfl, rfl⟩
  | cons τ ts ih =>
    obtain ⟨mx, h1⟩ := h τ (List.mem_cons_self ..)
    obtain ⟨qs, h2, h3⟩ := ih fun a ha => h a (List.mem_cons_of_mem _ ha)
    exact ⟨(g τ, mx) :: qs, by rw [List.map_cons, List.map_cons, h1, h2],
      by rw [List.map_cons, List.flatten_cons, h3, List.flatMap_cons]⟩

theorem histograms_concat {ι : Type} {f : ι → History F64} {g : ι → List F64} {ts : List ι}
    (h : ∀ τ ∈ ts, ∃ c : List Nat, f τ = .histogram c ∧ c.sum ≤ (g τ).length ∧
      ∀ i, c.getD i 0 = (g τ).countP fun x => decide (CountedIn x i)) :
    ∃ hs : List (List Nat), ts.map f = hs.map .histogram ∧ (hs.map List.sum).sum ≤ (ts.flatMap g).length ∧
      ∀ i, (hs.map fun c => c.getD i 0).sum = (ts.flatMap g).countP fun x => decide (CountedIn x i) := by
  induction ts with
  | nil => exact ⟨[], rfl, Nat.le_refl _, fun _ => rfl⟩
  | cons τ ts ih =>
    obtain ⟨c, h1, h2, h3⟩ := h τ (List.mem_cons_self ..)
    obtain ⟨hs, k1, k2, k3⟩ := ih fun a ha => h a (List.mem_cons_of_mem _ ha)
    refine ⟨c :: hs, by rw [List.map_cons, List.map_cons, h1, k1], ?_, fun i => ?_⟩
    · rw [List.map_cons, List.sum_cons, List.flatMap_cons, List.length_append]
      exact Nat.add_le_add h2 k2
    · rw [List.map_cons, List.sum_cons, List.flatMap_cons, List.countP_append, h3, k3]

/-- What the two theorems on the loudness range have in common. -/
theorem shorts_close (he : ElemWithin m (1 / 2 ^ 50)) {X : ℝ} (hX : 1 / 2 ^ 100 ≤ X) (hX' : X ≤ 2 ^ 60)
    (hs : t.sse2 = true ∨ 1 / 2 ^ 13 ≤ X) {ts : List Track} (hts : ∀ τ ∈ ts, τ.Played (ieeeEnv m bs t) X) {N : Nat}
    (hN : ∀ τ ∈ ts, 30 * hop τ.start.rate + τ.start.channels ≤ N) {W : ℝ}
    (hW : ∀ τ ∈ ts, noisePower τ.start.channelMap τ.start.rate X ≤ W) {r : ℝ} (h0 : 0 < r) (bs' : BSearch) (u : Nat) :
    let E := ieeeEnv m bs t
    let Ps := ts.flatMap (Track.shortPowers E bs' u)
    let η := r + (N + Ps.length + 2001 * ts.length + 4096 : ℝ) / 2 ^ 50
    let θ := 3 / r * W + 1 / 2 ^ 300
    η ≤ 1 / 100 → (∀ P ∈ Ps, Apart (1 + 2 * η) (2 * θ) P (energyOf (-70))) →
    (∀ τ ∈ ts, List.Forall₂ (Close η θ) (τ.shortEnergies E) (τ.shortPowers E bs' u)) ∧
    (∀ P ∈ Ps, P + θ ≤ 2 ^ 150) ∧ 1 / 2 ^ 38 ≤ η ∧ ((Ps.length : ℝ) + 1024) / 2 ^ 50 ≤ η := by
  intro E Ps η θ hη h70
  have hηb : ((Ps.length : ℝ) + 4096) / 2 ^ 50 ≤ η := by
    show _ ≤ r + _
    have : ((Ps.length : ℝ) + 4096) / 2 ^ 50 ≤ (N + Ps.length + 2001 * ts.length + 4096 : ℝ) / 2 ^ 50 :=
      div_le_div_of_nonneg_right (by linarith [show (0 : ℝ) ≤ N + 2001 * ts.length by positivity]) (by positivity)
    linarith
  have hclose : ∀ τ ∈ ts, List.Forall₂ (Close η θ) (τ.shortEnergies E) (τ.shortPowers E bs' u) ∧
      ((∀ P ∈ τ.shortPowers E bs' u, Apart (1 + 2 * η) (2 * θ) P (energyOf (-70))) →
        ∀ P ∈ τ.shortPowers E bs' u, P + θ ≤ 2 ^ 150) := by
    intro τ hτ
    obtain ⟨p1, p2⟩ := hop_bounds (hts τ hτ).low (hts τ hτ).high
    have hn : (shortEnds (hop τ.start.rate) (measured E τ.start.channels τ.ops)).length ≤ Ps.length := by
      have := flatMap_length_mem (f := Track.shortPowers E bs' u) hτ
      rwa [show (Track.shortPowers E bs' u τ).length = _ from List.length_map ..] at this
    exact track_close (bs := bs) (t := t) he hX hX' hs (hts τ hτ) (N := 30 * hop τ.start.rate) (by omega) (by omega) _ h0
      (share_le (hN τ hτ) ts.length hn) hη (hW τ hτ) bs' u
  refine ⟨fun τ hτ => (hclose τ hτ).1, fun P hP => ?_, _root_.le_trans ?_ hηb, _root_.le_trans ?_ hηb⟩
  · obtain ⟨τ, hτ, hP'⟩ := List.mem_flatMap.1 hP
    exact (hclose τ hτ).2 (fun Q hQ => h70 Q (List.mem_flatMap.2 ⟨τ, hτ, hQ⟩)) P hP'
  · rw [le_div_iff₀ (by positivity)]
    have : (0 : ℝ) ≤ Ps.length := by positivity
    norm_num
  · exact div_le_div_of_nonneg_right (by linarith) (by positivity)

theorem finals (E : Env F64 F32) {X : ℝ} {ts : List Track} (hts : ∀ τ ∈ ts, τ.Played E X)
    (hL : ∀ τ ∈ ts, τ.start.mode.contains Mode.LRA = true) :
    (∀ e ∈ ts.map Track.final, Reachable E e) ∧ ∀ e ∈ ts.map Track.final, e.mode.contains Mode.LRA = true := by
  constructor
  · intro e hm
    obtain ⟨τ, hτ, rfl⟩ := List.mem_map.1 hm
    exact reachable_run (hts τ hτ).started.reachable (hts τ hτ).run
  · intro e hm
    obtain ⟨τ, hτ, rfl⟩ := List.mem_map.1 hm
    rw [runFeeds_mode (hts τ hτ).feeds (hts τ hτ).started.reachable.inv (hts τ hτ).run]
    exact hL τ hτ

/-- **C70.** The loudness range of an album, `loudness_range_multiple`, of analyzers in queue mode, against EBU 3342 in
exact arithmetic over the short-term blocks of all tracks, from the samples on. -/
theorem C70_range {δ : ℝ} (hδ : δ ≤ 1) (hm : LogWithin m δ) (he : ElemWithin m (1 / 2 ^ 50)) (ht : HundredthWithin m)
    (hu : t.usizeMax ≤ 2 ^ 64)
    {X : ℝ} (hX : 1 / 2 ^ 100 ≤ X) (hX' : X ≤ 2 ^ 60) (hs : t.sse2 = true ∨ 1 / 2 ^ 13 ≤ X) {ts : List Track}
    (hts : ∀ τ ∈ ts, τ.Played (ieeeEnv m bs t) X) (hL : ∀ τ ∈ ts, τ.start.mode.contains Mode.LRA = true) {N : Nat}
    (hN : ∀ τ ∈ ts, 30 * hop τ.start.rate + τ.start.channels ≤ N) {W : ℝ} (W0 : 0 ≤ W)
    (hW : ∀ τ ∈ ts, noisePower τ.start.channelMap τ.start.rate X ≤ W) {r : ℝ} (h0 : 0 < r) (bs' : BSearch) (u : Nat) :
    let E := ieeeEnv m bs t
    let Ps := ts.flatMap (Track.shortPowers E bs' u)
    let η := r + (N + Ps.length + 2001 * ts.length + 4096 : ℝ) / 2 ^ 50
    let θ := 3 / r * W + 1 / 2 ^ 300
    η ≤ 1 / 100 → Ps.length ≤ 2 ^ 40 → Ps.length ≤ t.usizeMax →
    (∀ τ ∈ ts, ∃ max, τ.start.shortTermBlockEnergyHistory = .queue [] max ∧ (τ.shortPowers E bs' u).length ≤ max) →
    (∀ P ∈ Ps, Apart (1 + 2 * η) (2 * θ) P (energyOf (-70))) →
    (∀ P ∈ loud Ps, Apart (1 + 4 * η) (2 * θ) P (rangeGateR Ps)) →
    ∃ v : F64, ebuLoudnessRangeMultiple E (ts.map Track.final) = .done (.ok v) ∧
      (loud Ps = [] → v = Fl.zero false) ∧
      (loud Ps ≠ [] → v.Finite ∧ |v.value - rangeR Ps| ≤
        12 * η + 21 * (θ / percentileR (rangeGatedR Ps) 10 100) + 20 * δ + 1 / 10 ^ 11) := by
  intro E Ps η θ hη hlen husz hroom h70 h20
  have hθ : 0 ≤ θ := by
    show (0 : ℝ) ≤ 3 / r * W + _
    positivity
  obtain ⟨hclose, htop, -, hηb⟩ := shorts_close (bs := bs) (t := t) he hX hX' hs hts hN hW h0 bs' u hη h70
  obtain ⟨hreach, hLe⟩ := finals E hts hL
  have hc := close_concat (f := Track.shortEnergies E) (g := Track.shortPowers E bs' u) hclose
  change List.Forall₂ (Close η θ) _ Ps at hc
  obtain ⟨qs, hq, hqf⟩ := queues_concat (f := fun τ : Track => τ.final.shortTermBlockEnergyHistory)
    (g := fun τ : Track => ungated E (bnd 0) (τ.shortEnergies E)) (ts := ts) (by
      intro τ hτ
      have hp := hts τ hτ
      obtain ⟨mx, hq, hmx⟩ := hroom τ hτ
      refine ⟨mx, ?_⟩
      have hb := (C61_shorts (ieee_zero m bs t) hp.started hp.window hp.feeds hp.run).1 (hL τ hτ)
      rw [foldL_add _ hp.started.reachable.inv.stHist, hq] at hb
      injection hb with hb
      change List.foldl _ _ (τ.shortEnergies E) = _ at hb
      rw [foldl_queue E mx _ [] (by
        rw [List.length_nil, Nat.zero_add, (hclose τ hτ).length_eq]; exact hmx), List.nil_append, gate0_bnd] at hb
      exact hb.symm)
  have hun : (ts.flatMap fun τ : Track => ungated E (bnd 0) (τ.shortEnergies E)) =
      ungated E (bnd 0) (ts.flatMap (Track.shortEnergies E)) := by
    unfold ungated
    rw [List.filter_flatMap]
  rw [hun] at hqf
  have hfin := close_mem hc
  have hnn : ∀ x ∈ ungated E (bnd 0) (ts.flatMap (Track.shortEnergies E)), x.isNan = false := by
    intro x hx
    obtain ⟨s, k, hk, rfl, -⟩ := (hfin x (List.mem_filter.1 hx).1).1
    rfl
  have hql : (ungated E (bnd 0) (ts.flatMap (Track.shortEnergies E))).length ≤ Ps.length :=
    (List.length_filter_le ..).trans (le_of_eq hc.length_eq)
  obtain ⟨s, hp, hsa⟩ := ascending_exists hnn
  have ha := C39_range_queues (m := m) (bs := bs) hu hreach hLe (qs := qs) (by rw [List.map_map]; exact hq)
    (by rw [hqf]; exact fun hc => by simpa [Fl.isNan] using hnn _ hc) (by rw [hqf]; exact hp) hsa
    (by rw [hqf]; omega) (by rw [hqf]; omega)
  obtain ⟨g1, g2⟩ := C59_gate (bs := bs) (t := t) hδ hm ht hc hηb hη hθ hlen htop h70 h20 hp hsa
  exact ⟨_, ha, g1, g2⟩

/-- **C70.** The same for analyzers in histogram mode, with twice half a bin more. -/
theorem C70_range_histogram {δ : ℝ} (hδ : δ ≤ 1) (hm : LogWithin m δ) (he : ElemWithin m (1 / 2 ^ 50))
    (ht : HundredthWithin m) (hu : t.usizeMax ≤ 2 ^ 64)
    {X : ℝ} (hX : 1 / 2 ^ 100 ≤ X) (hX' : X ≤ 2 ^ 60) (hs : t.sse2 = true ∨ 1 / 2 ^ 13 ≤ X) {ts : List Track}
    (hts : ∀ τ ∈ ts, τ.Played (ieeeEnv m bs t) X) (hL : ∀ τ ∈ ts, τ.start.mode.contains Mode.LRA = true) {N : Nat}
    (hN : ∀ τ ∈ ts, 30 * hop τ.start.rate + τ.start.channels ≤ N) {W : ℝ} (W0 : 0 ≤ W)
    (hW : ∀ τ ∈ ts, noisePower τ.start.channelMap τ.start.rate X ≤ W) {r : ℝ} (h0 : 0 < r) (bs' : BSearch) (u : Nat) :
    let E := ieeeEnv m bs t
    let Ps := ts.flatMap (Track.shortPowers E bs' u)
    let η := r + (N + Ps.length + 2001 * ts.length + 4096 : ℝ) / 2 ^ 50
    let θ := 3 / r * W + 1 / 2 ^ 300
    η ≤ 1 / 100 → Ps.length ≤ 2 ^ 40 →
    (∀ τ ∈ ts, ∃ c, τ.start.shortTermBlockEnergyHistory = .histogram c ∧ c.sum = 0) → (∀ P ∈ Ps, P + θ ≤ 1000) →
    (∀ P ∈ Ps, Apart (1 + 2 * η) (2 * θ) P (energyOf (-70))) →
    (∀ P ∈ loud Ps, Apart (binFactor ^ 2 * (1 + 4 * η)) (2 * θ) P (rangeGateR Ps)) →
    ∃ v : F64, ebuLoudnessRangeMultiple E (ts.map Track.final) = .done (.ok v) ∧
      (loud Ps = [] → v = Fl.zero false) ∧
      (loud Ps ≠ [] → v.Finite ∧ |v.value - rangeR Ps| ≤
        2 * halfBin + 12 * η + 21 * (θ / percentileR (rangeGatedR Ps) 10 100) + 20 * δ + 1 / 10 ^ 11) := by
  intro E Ps η θ hη hlen hroom htop h70 h20
  have hθ : 0 ≤ θ := by
    show (0 : ℝ) ≤ 3 / r * W + _
    positivity
  obtain ⟨hclose, -, η38, -⟩ := shorts_close (bs := bs) (t := t) he hX hX' hs hts hN hW h0 bs' u hη h70
  obtain ⟨hreach, hLe⟩ := finals E hts hL
  have hc := close_concat (f := Track.shortEnergies E) (g := Track.shortPowers E bs' u) hclose
  change List.Forall₂ (Close η θ) _ Ps at hc
  obtain ⟨hs', hh, hsum, hcount⟩ := histograms_concat (f := fun τ : Track => τ.final.shortTermBlockEnergyHistory)
    (g := Track.shortEnergies E) (ts := ts) (by
      intro τ hτ
      have hp := hts τ hτ
      obtain ⟨c0, hq, hc0⟩ := hroom τ hτ
      have hb := (C61_shorts (ieee_zero m bs t) hp.started hp.window hp.feeds hp.run).1 (hL τ hτ)
      rw [hq] at hb
      change Run.foldL _ _ (τ.shortEnergies E) = _ at hb
      obtain ⟨c, d1, d2, d3⟩ := C33_counts (m := m) (bs := bs) (t := t) (st_hist_length hp.started.reachable hq)
        (τ.shortEnergies E)
      rw [d1] at hb
      injection hb with hb
      simp only [empty_counts hc0, Nat.zero_add] at d3
      refine ⟨c, hb.symm, ?_, d3⟩
      have hmem : ∀ P ∈ τ.shortPowers E bs' u, P ∈ Ps := fun P hP => List.mem_flatMap.2 ⟨τ, hτ, hP⟩
      obtain ⟨-, -, -, g3, -⟩ := bins_mean m bs t (hclose τ hτ) η38 hη hθ
        ((flatMap_length_mem (f := Track.shortPowers E bs' u) hτ).trans hlen)
        (fun P hP => h70 P (hmem P hP)) (fun P hP => htop P (hmem P hP)) (c := fun i => c.getD i 0) d3
      rw [sum_range _ d2] at g3
      rw [g3, (hclose τ hτ).length_eq]
      exact List.length_filter_le ..)
  have hl := hc.length_eq
  have ha := C39_range_histograms (m := m) (bs := bs) hu hreach hLe (hs := hs') (by rw [List.map_map]; exact hh)
    (by omega)
  obtain ⟨g1, g2⟩ := C60_range_gate (bs := bs) (t := t) hδ hm ht hc η38 hη hθ hlen htop h70 h20 hcount
  exact ⟨_, ha, g1, g2⟩

/-! ## Two tracks with a click -/

/-- The power of the block of the example of C58, and the noise. -/
theorem Demo.late_blocks (bs : BSearch) {ops : List (Op F64 F32)} (hops : Demo.late 19199 = ops) :
    ∃ b P : ℝ, Rounds b 1.53512485958697 ∧ P = b ^ 2 / 19200 ∧ 122 / 10 ^ 6 ≤ P ∧ P ≤ 124 / 10 ^ 6 ∧
      idealBlocks bs 0 48000 [.left] (heard (ieeeEnv Demo.libm57 bs t) 1 ops)
        (measured (ieeeEnv Demo.libm57 bs t) 1 ops) = [P] := by
  obtain ⟨b0, b1, b2, a1, a2, c1, c2, hb, -, hr0, -⟩ := C53_itu bs 0
  have hw : realWeight .left = 1 := by simp [realWeight, surrounds]
  have hh := Demo.late_heard (m := Demo.libm57) (bs := bs) (t := t) 19199
  rw [hops] at hh
  have ho : idealOuts bs 0 48000 (heard (ieeeEnv Demo.libm57 bs t) 1 ops) 0 = List.replicate 19199 0 ++ [b0 * -1] := by
    rw [hh]
    generalize 19199 = n
    unfold idealOuts
    push_cast at hb ⊢
    rw [hb, show realEvents (List.replicate n ⟨true, [(i16Ops (ieeeEnv Demo.libm57 bs t)).toF64 0]⟩ ++
      [⟨true, [(i16Ops (ieeeEnv Demo.libm57 bs t)).toF64 (-32768)]⟩]) =
      (List.replicate n [(0 : ℝ)] ++ [[-1]]).map fun f => ⟨true, f⟩ by
        simp [realEvents, Demo.silence_value, Demo.pulse_value], outs_all,
      show List.map (fun f : List ℝ => f.getD 0 0) (List.replicate n [0] ++ [[-1]]) = List.replicate n 0 ++ [-1] by simp,
      filtered_late]
    simp [cascade]
  have hP : idealPower [.left] 19200 19200 (idealOuts bs 0 48000 (heard (ieeeEnv Demo.libm57 bs t) 1 ops)) =
      b0 ^ 2 / 19200 := by
    unfold idealPower
    simp only [List.zipIdx_cons, List.zipIdx_nil, List.map_cons, List.map_nil, List.sum_cons, List.sum_nil, hw, ho]
    rw [meanSquare_late 19199]
    norm_num
  have hmeas : measured (ieeeEnv Demo.libm57 bs t) 1 ops = 19200 := by
    rw [← hops]
    exact Demo.late_measured 19199
  have hb0 : 1535 / 1000 ≤ b0 ∧ b0 ≤ 1536 / 1000 := by
    have := abs_le.1 hr0
    norm_num at this ⊢
    constructor <;> linarith
  have hb2 : (1535 / 1000) ^ 2 ≤ b0 ^ 2 := pow_le_pow_left₀ (by norm_num) hb0.1 2
  have hb3 : b0 ^ 2 ≤ (1536 / 1000) ^ 2 := pow_le_pow_left₀ (by linarith [hb0.1]) hb0.2 2
  have e1 : 4 * hop 48000 = 19200 := by decide
  refine ⟨b0, b0 ^ 2 / 19200, hr0, rfl, by norm_num at hb2 ⊢; linarith, by norm_num at hb3 ⊢; linarith, ?_⟩
  unfold idealBlocks
  rw [hmeas, show blockEnds (hop 48000) 19200 = [19200] by decide, e1, List.map_singleton, hP]

theorem Demo.late_noise : 0 ≤ noisePower [.left] 48000 1 ∧ noisePower [.left] 48000 1 ≤ 1 / 2 ^ 32 := by
  have hg : stateGain 48000 ≤ 3000000 := by unfold stateGain; norm_num
  have hg0 : 0 ≤ stateGain 48000 := by unfold stateGain; positivity
  have : (stateGain 48000 / 2 ^ 38 * 1) ^ 2 ≤ (3000000 / 2 ^ 38) ^ 2 := by
    rw [mul_one]
    exact pow_le_pow_left₀ (by positivity) (div_le_div_of_nonneg_right hg (by positivity)) 2
  have w1 : totalWeight [.left] = 1 := by simp [totalWeight, realWeight, surrounds]
  unfold noisePower
  rw [w1, one_mul]
  refine ⟨by positivity, this.trans ?_⟩
  norm_num

/-- An album of two tracks with a click each, one measured with a queue and one with a histogram: its loudness is, to
0.15 dB, that of a block of 19200 values all zero except one of 1.535. -/
example (bs : BSearch) (h64 : 2 ^ 64 - 1 ≤ t.usizeMax) :
    ∃ a0 a b0 b : Ebu F64 F32, Ebu.new (ieeeEnv Demo.libm57 bs t) 1 48000 Mode.I = .done (.ok a0) ∧
      Ebu.new (ieeeEnv Demo.libm57 bs t) 1 48000 (Mode.I ||| Mode.HISTOGRAM) = .done (.ok b0) ∧
      runOps (ieeeEnv Demo.libm57 bs t) a0 (Demo.late 19199) = .done a ∧
      runOps (ieeeEnv Demo.libm57 bs t) b0 (Demo.late 19199) = .done b ∧
      ∃ (v : F64) (y : ℝ), loudnessGlobalMultiple (ieeeEnv Demo.libm57 bs t) [a, b] = .done (.ok v) ∧
        Rounds y 1.53512485958697 ∧ |v.value - lufs (y ^ 2 / 19200)| ≤ 0.15 := by
  generalize hops : Demo.late 19199 = ops
  have hint : ∀ op ∈ ops, IntegerFeed op := by
    intro op hop
    simp only [← hops, Demo.late, List.mem_singleton] at hop
    subst hop; trivial
  have hfeed : ∀ op ∈ ops, Feed op := by
    intro op hop
    simp only [← hops, Demo.late, List.mem_singleton] at hop
    subst hop; trivial
  have hplain : ∀ {e0 : Ebu F64 F32} {mode : Mode}, Ebu.new (ieeeEnv Demo.libm57 bs t) 1 48000 mode = .done (.ok e0) →
      ∃ e, runOps (ieeeEnv Demo.libm57 bs t) e0 ops = .done e := fun he => C09_plain h64 he (by omega) ops (by
    intro op hop
    simp only [← hops, Demo.late, List.mem_singleton] at hop
    subst hop; trivial)
  obtain ⟨a0, ha⟩ := (C01_new_64 (ieeeEnv Demo.libm57 bs t) h64 1 48000 Mode.I).1.2
    ⟨⟨by omega, by omega, by omega, by omega⟩, by decide⟩
  obtain ⟨b0, hb⟩ := (C01_new_64 (ieeeEnv Demo.libm57 bs t) h64 1 48000 (Mode.I ||| Mode.HISTOGRAM)).1.2
    ⟨⟨by omega, by omega, by omega, by omega⟩, by decide⟩
  have sa := Started.new ha
  have sb := Started.new hb
  obtain ⟨a, ra⟩ := hplain ha
  obtain ⟨b, rb⟩ := hplain hb
  refine ⟨a0, a, b0, b, ha, hb, ra, rb, ?_⟩
  obtain ⟨rfl, -⟩ := Ebu.new_ok ha
  obtain ⟨rfl, -⟩ := Ebu.new_ok hb
  obtain ⟨y, P, hy, hP, hp1, hp2, hblocks⟩ := Demo.late_blocks (t := t) bs hops
  obtain ⟨W0, W1⟩ := Demo.late_noise
  have P0 : 0 < P := lt_of_lt_of_le (by norm_num) hp1
  have g0 : 0 < energyOf (-70) := lt_of_lt_of_le (by norm_num) gate70.1
  have g1 := energy70_small
  have hl : loud [P, P] = [P, P] := by
    refine List.filter_eq_self.2 fun Q hQ => decide_eq_true ?_
    rw [show Q = P by simpa using hQ]
    norm_num at hp1 g1
    linarith
  have hm1 : meanR [P, P] = P := by simp [meanR]
  have hgr : gateR [P, P] = P / 10 := by rw [gateR, hl, hm1]
  have hgd : gatedR [P, P] = [P, P] := by
    rw [gatedR, hl, hgr]
    refine List.filter_eq_self.2 fun Q hQ => decide_eq_true ?_
    rw [show Q = P by simpa using hQ]
    linarith
  obtain ⟨ta, hta⟩ : ∃ τ : Track, τ = ⟨Ebu.init (ieeeEnv Demo.libm57 bs t) 1 48000 Mode.I, ops, a⟩ := ⟨_, rfl⟩
  obtain ⟨tb, htb⟩ : ∃ τ : Track, τ = ⟨Ebu.init (ieeeEnv Demo.libm57 bs t) 1 48000 (Mode.I ||| Mode.HISTOGRAM), ops, b⟩ :=
    ⟨_, rfl⟩
  have both : ∀ {p : Track → Prop}, p ta → p tb → ∀ τ ∈ [ta, tb], p τ := by
    intro p pa pb τ hτ
    rcases List.mem_cons.1 hτ with h | h
    · rw [h]; exact pa
    · rw [List.mem_singleton.1 h]; exact pb
  have main := C70_album (bs := bs) (t := t) (δ := 1 / 10 ^ 5) (by norm_num) Demo.libm57_within.1 Demo.libm57_within.2
    Demo.libm57_tenth (X := 1) (by norm_num) (by norm_num) (.inr (by norm_num)) (ts := [ta, tb])
    (both (by
      rw [hta]
      exact ⟨sa, (show Adequate Mode.I 48000 (minWindow Mode.I) by decide), (by show 8000 ≤ 48000; omega),
        (by show 48000 ≤ 400000; omega), hfeed, ra, C57_integer hint⟩) (by
      rw [htb]
      exact ⟨sb, (show Adequate (Mode.I ||| Mode.HISTOGRAM) 48000 (minWindow (Mode.I ||| Mode.HISTOGRAM)) by decide),
        (by show 8000 ≤ 48000; omega), (by show 48000 ≤ 400000; omega), hfeed, rb, C57_integer hint⟩))
    (both (by rw [hta]; show Mode.I.contains Mode.I = true; decide)
      (by rw [htb]; show (Mode.I ||| Mode.HISTOGRAM).contains Mode.I = true; decide)) (N := 19201)
    (both (by rw [hta]; show 4 * hop 48000 + 1 ≤ 19201; decide) (by rw [htb]; show 4 * hop 48000 + 1 ≤ 19201; decide)) W0
    (both (by rw [hta]; exact le_refl (noisePower [.left] 48000 1)) (by rw [htb]; exact le_refl (noisePower [.left] 48000 1)))
    (r := 1 / 500) (by norm_num) bs 0 (b := binFactor) (.inl rfl)
  generalize noisePower [.left] 48000 1 = W at main W0 W1
  have hpa : Track.powers (ieeeEnv Demo.libm57 bs t) bs 0 ta = [P] := by rw [hta]; exact hblocks
  have hpb : Track.powers (ieeeEnv Demo.libm57 bs t) bs 0 tb = [P] := by rw [htb]; exact hblocks
  have hPs : List.flatMap (Track.powers (ieeeEnv Demo.libm57 bs t) bs 0) [ta, tb] = [P, P] := by
    rw [List.flatMap_cons, List.flatMap_cons, List.flatMap_nil, hpa, hpb]
    rfl
  revert main
  dsimp only
  rw [hPs]
  obtain ⟨θ, rθ⟩ : ∃ θ : ℝ, θ = 3 / (1 / 500) * W + 1 / 2 ^ 300 := ⟨_, rfl⟩
  obtain ⟨η, rη⟩ : ∃ η : ℝ, η = 1 / 500 + ((19201 : Nat) + [P, P].length + 2001 * [ta, tb].length + 4096 : ℝ) / 2 ^ 50 :=
    ⟨_, rfl⟩
  rw [← rθ, ← rη]
  have η1 : 0 ≤ η ∧ η ≤ 1 / 499 := by
    rw [rη]
    simp only [List.length_cons, List.length_nil]
    norm_num
  have θ1 : 0 ≤ θ ∧ θ ≤ 4 / 10 ^ 7 := by
    rw [rθ]
    have t0 : (0 : ℝ) < 1 / 2 ^ 300 := by positivity
    have t1 : (1 : ℝ) / 2 ^ 300 ≤ 1 / 2 ^ 60 := one_div_le_one_div_of_le (by positivity) (big_le (by norm_num))
    generalize (1 : ℝ) / 2 ^ 300 = z at *
    norm_num at W1 t1 ⊢
    constructor <;> linarith
  clear rθ rη
  intro main
  have b1 := binFactor_bounds
  have b2 : binFactor ^ 2 ≤ (103 / 100) ^ 2 := pow_le_pow_left₀ (by linarith) b1.2 2
  have hpair : ∀ {Q : ℝ}, Q ∈ [P, P] → Q = P := fun hQ => by simpa using hQ
  obtain ⟨v, v1, -, v2⟩ := main (by linarith) (by simp) (both (by
      rw [hpa, hta]
      refine ⟨rfl, ?_⟩
      show 1 ≤ t.usizeMax / 100
      omega) (by
      rw [hpb, htb]
      refine ⟨zeros_sum, fun Q hQ => ?_⟩
      rw [List.mem_singleton.1 hQ]
      norm_num at hp2 θ1
      linarith)) (by
    intro Q hQ
    rw [hpair hQ]
    refine .inl ?_
    have : (1 + 2 * η) * (energyOf (-70) + 2 * θ) ≤ (1 + 2 * (1 / 499)) * (1 / 10 ^ 6 + 2 * (4 / 10 ^ 7)) :=
      mul_le_mul (by linarith) (by linarith) (by linarith) (by norm_num)
    norm_num at this hp1
    linarith) (by
    intro Q hQ
    rw [hl] at hQ
    rw [hpair hQ, hgr]
    refine .inl ?_
    have a1 : binFactor ^ 2 * (1 + 4 * η) ≤ (103 / 100) ^ 2 * (1 + 4 * (1 / 499)) :=
      mul_le_mul b2 (by linarith) (by linarith) (by norm_num)
    have : binFactor ^ 2 * (1 + 4 * η) * (P / 10 + 2 * θ) ≤
        (103 / 100) ^ 2 * (1 + 4 * (1 / 499)) * (P / 10 + 2 * (4 / 10 ^ 7)) :=
      mul_le_mul a1 (by linarith) (by linarith) (by norm_num)
    norm_num at this hp1
    linarith)
  have v3 := (v2 (by rw [hl]; simp)).2
  rw [integratedR, hgd, hm1] at v3
  have hθP : θ / P ≤ 4 / 1220 := by
    rw [div_le_iff₀ P0]
    linarith
  refine ⟨v, y, by rw [hta, htb] at v1; exact v1, hy, ?_⟩
  rw [← hP]
  refine v3.trans ?_
  have := logb_binFactor
  unfold halfBin at this
  norm_num at this ⊢
  linarith

end Verif
