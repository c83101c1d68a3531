import Verif.Props.C58
/-!
# Gating with blocks near the absolute gate

What the gates do if it is not known on which side of the absolute gate the quiet blocks are.
-/

namespace Verif
open Spec Fl
variable {m : Libm F64} {bs : BSearch} {t : Target}

/-- A filter that keeps at least the elements whose partners satisfy `h`. -/
theorem forall₂_kept {α β : Type} {R : α → β → Prop} {p : α → Bool} {h : β → Bool} {l : List α} {l' : List β}
    (hl : List.Forall₂ R l l') (hp : ∀ x y, R x y → h y = true → p x = true) :
    ∃ A, A.Sublist l' ∧ List.Forall₂ R (l.filter p) A ∧ A.filter h = l'.filter h := by
  induction hl with
  | nil => exact ⟨[], .slnil, .nil, rfl⟩
  | @cons x y l l' h1 _ ih =>
    obtain ⟨A, a1, a2, a3⟩ := ih
    by_cases hx : p x = true
    · refine ⟨y :: A, a1.cons_cons y, ?_, ?_⟩
      · rw [List.filter_cons_of_pos hx]
        exact .cons h1 a2
      · rw [List.filter_cons, List.filter_cons, a3]
    · refine ⟨A, a1.cons y, ?_, ?_⟩
      · rw [List.filter_cons_of_neg hx]
        exact a2
      · rw [List.filter_cons_of_neg (fun hy => hx (hp x y h1 hy)), a3]

theorem sum_filter_split (h : ℝ → Bool) (l : List ℝ) : l.sum = (l.filter h).sum + (l.filter fun x => !h x).sum := by
  induction l with
  | nil => simp
  | cons x l ih =>
    cases hx : h x <;> simp [hx, ih] <;> ring

theorem length_filter_split (h : ℝ → Bool) (l : List ℝ) : l.length = (l.filter h).length + (l.filter fun x => !h x).length := by
  induction l with
  | nil => simp
  | cons x l ih =>
    cases hx : h x <;> simp [hx, ih] <;> omega

/-- The integrated loudness if the blocks are either of power `hi` at least, and then well above both gates, or of power `lo`
at most, and then well below the relative gate wherever the absolute gate is. -/
theorem robust_gate {δ : ℝ} (hδ : δ ≤ 1) (hm : LogWithin m δ) (ht : TenthWithin m) {η θ : ℝ} {q : List F64} {Ps : List ℝ}
    (h : List.Forall₂ (Close η θ) q Ps) (hη : ((Ps.length : ℝ) + 64) / 2 ^ 50 ≤ η) (hη' : η ≤ 1 / 100) (hθ : 0 ≤ θ)
    (hlen : Ps.length ≤ 2 ^ 40) (htop : ∀ P ∈ Ps, P + θ ≤ 2 ^ 150) {lo hi : ℝ} (hs : ∀ P ∈ Ps, P ≤ lo ∨ hi ≤ P)
    (hne : Ps.filter (fun P => hi ≤ P) ≠ []) (h70 : energyOf (-70) + 2 * (η * hi + θ) < hi)
    (hG : 1 / 10 ^ 7 ≤ (Ps.filter fun P => hi ≤ P).sum / Ps.length)
    (hlo : let G := (Ps.filter fun P => hi ≤ P).sum / Ps.length / 10
      lo + 2 * (η * lo + θ) + 2 * (η * G + θ) < G)
    (hhi : let G := meanR (Ps.filter fun P => hi ≤ P) / 10
      G + 2 * (η * G + θ) + 2 * (η * hi + θ) < hi) :
    let v := integrated (ieeeEnv m bs t) (ungated (ieeeEnv m bs t) (bnd 0) q)
    let M := meanR (Ps.filter fun P => hi ≤ P)
    v.Finite ∧ |v.value - lufs M| ≤ 20 * (η + θ / M) + 10 * δ + 1 / 10 ^ 12 := by
  intro v M
  have N0 : (0 : ℝ) ≤ Ps.length := by positivity
  have η0 : 64 / 2 ^ 50 ≤ η := _root_.le_trans (div_le_div_of_nonneg_right (by linarith) (by positivity)) hη
  have ηp : 0 < η := lt_of_lt_of_le (by norm_num) η0
  obtain ⟨bf, b1, b2⟩ := bnd0_finite
  have g0 := gate70.1
  have gp : 0 < energyOf (-70) := lt_of_lt_of_le (by norm_num) g0
  have P0 : ∀ P ∈ Ps, 0 ≤ P := by
    intro P hP
    obtain ⟨i, hi, rfl⟩ := List.getElem_of_mem hP
    exact (List.Forall₂.get h (by rw [h.length_eq]; exact hi) hi).2.2.1
  obtain ⟨A, a1, a2, a3⟩ := forall₂_kept (p := fun x => !Fl.lt x (bnd 0)) (h := fun P => decide (hi ≤ P)) h (by
    intro x P hx hP
    have hP := of_decide_eq_true hP
    obtain ⟨xf, -, P0, hxP⟩ := hx
    obtain ⟨c1, c2⟩ := abs_le.1 hxP
    have e1 : η * hi ≤ η * P := mul_le_mul_of_nonneg_left hP ηp.le
    have e2 : (1 - η) * hi ≤ (1 - η) * P := mul_le_mul_of_nonneg_left hP (by linarith)
    have e3 : 64 / 2 ^ 50 * hi ≤ η * hi := mul_le_mul_of_nonneg_right η0 (by
      by_contra hc
      push Not at hc
      have : (1 - 2 * η) * hi ≤ 0 := mul_nonpos_of_nonneg_of_nonpos (by linarith) hc.le
      linarith)
    have hv : (bnd 0).value < x.value := by
      norm_num at b2 e3 ⊢
      linarith
    have hl := lt_of_value bf xf hv
    have : Fl.lt x (bnd 0) = false := by
      rw [Bool.eq_false_iff]
      intro hh
      have k1 := value_fle (x := x) (y := bnd 0) (by
        obtain ⟨s, k, hk, rfl, -⟩ := xf
        rw [Fl.lt_rank rfl (bnd_not_nan 0)] at hh
        rw [Fl.le_rank rfl (bnd_not_nan 0)]
        omega)
      linarith
    rw [this]; rfl)
  change List.Forall₂ (Close η θ) (ungated (ieeeEnv m bs t) (bnd 0) q) A at a2
  have AP : ∀ P ∈ A, P ∈ Ps := fun P hP => a1.subset hP
  have hAlen : A.length ≤ Ps.length := a1.length_le
  have hAR : (A.length : ℝ) ≤ Ps.length := by exact_mod_cast hAlen
  have hl40 : (Ps.length : ℝ) ≤ 2 ^ 40 := by exact_mod_cast hlen
  change A.filter (fun P => decide (hi ≤ P)) = Ps.filter (fun P => decide (hi ≤ P)) at a3
  rw [← a3] at hne hG hlo hhi
  simp only [M]
  rw [← a3]
  dsimp only at hlo hhi
  have Hm : ∀ P ∈ A.filter (fun P => decide (hi ≤ P)), P ∈ A ∧ hi ≤ P := fun P hP =>
    ⟨(List.mem_filter.1 hP).1, of_decide_eq_true (List.mem_filter.1 hP).2⟩
  have hB : (A.filter (fun P => decide (hi ≤ P))).length ≤ A.length := List.length_filter_le ..
  have hBR : ((A.filter (fun P => decide (hi ≤ P))).length : ℝ) ≤ A.length := by exact_mod_cast hB
  have Bp : (0 : ℝ) < (A.filter (fun P => decide (hi ≤ P))).length := by exact_mod_cast List.length_pos_iff.2 hne
  have hAne : A ≠ [] := by
    rintro rfl
    exact hne rfl
  have hMhi : hi ≤ meanR (A.filter (fun P => decide (hi ≤ P))) := meanR_ge hne fun P hP => (Hm P hP).2
  have hi0 : 0 < hi := by
    by_contra hc
    push Not at hc
    have : (1 - 2 * η) * hi ≤ 0 := mul_nonpos_of_nonneg_of_nonpos (by linarith) hc
    linarith
  have M0 : 0 < meanR (A.filter (fun P => decide (hi ≤ P))) := by linarith
  have sumsp := sum_filter_split (fun P => decide (hi ≤ P)) A
  have lensp := length_filter_split (fun P => decide (hi ≤ P)) A
  have restm : ∀ P ∈ A.filter (fun P => !decide (hi ≤ P)), 0 ≤ P ∧ P ≤ lo := by
    intro P hP
    obtain ⟨p1, p2⟩ := List.mem_filter.1 hP
    refine ⟨P0 P (AP P p1), ?_⟩
    rcases hs P (AP P p1) with h1 | h1
    · exact h1
    · simp [h1] at p2
  have rest0 : 0 ≤ (A.filter (fun P => !decide (hi ≤ P))).sum := List.sum_nonneg fun P hP => (restm P hP).1
  have restM := sum_le_mul fun P hP => (restm P hP).2
  have Sp : 0 < (A.filter (fun P => decide (hi ≤ P))).sum := by
    have := sum_ge fun P hP => (Hm P hP).2
    have := mul_pos Bp hi0
    linarith
  -- the mean of the stored blocks is between these two
  have Ap : (0 : ℝ) < A.length := by linarith
  have lowM : (A.filter (fun P => decide (hi ≤ P))).sum / Ps.length ≤ meanR A := by
    unfold meanR
    exact div_le_div₀ (by linarith) (by linarith) Ap hAR
  have GM : (A.filter (fun P => decide (hi ≤ P))).sum / Ps.length ≤ meanR (A.filter (fun P => decide (hi ≤ P))) := by
    conv_rhs => unfold meanR
    exact div_le_div_of_nonneg_left Sp.le Bp (by linarith)
  have Gp : 0 < (A.filter (fun P => decide (hi ≤ P))).sum / Ps.length := lt_of_lt_of_le (by norm_num) hG
  have loM : lo ≤ meanR (A.filter (fun P => decide (hi ≤ P))) := by
    have k1 := mul_pos ηp Gp
    by_contra hc
    push Not at hc
    have k2 : 0 ≤ η * lo := mul_nonneg ηp.le (by linarith)
    linarith
  have highM : meanR A ≤ meanR (A.filter (fun P => decide (hi ≤ P))) := by
    conv_lhs => unfold meanR
    rw [div_le_iff₀ Ap, sumsp]
    have e1 : (A.filter (fun P => decide (hi ≤ P))).sum =
        meanR (A.filter (fun P => decide (hi ≤ P))) * (A.filter (fun P => decide (hi ≤ P))).length := by
      unfold meanR
      field_simp
    have e2 : (A.length : ℝ) = (A.filter (fun P => decide (hi ≤ P))).length + (A.filter (fun P => !decide (hi ≤ P))).length := by
      exact_mod_cast lensp
    have e3 := mul_le_mul_of_nonneg_left loM (Nat.cast_nonneg (α := ℝ) (A.filter (fun P => !decide (hi ≤ P))).length)
    rw [e2]
    linarith
  have htopl : ∀ l : List ℝ, (∀ P ∈ l, P ∈ Ps) → l.length ≤ Ps.length → l.sum + l.length * θ ≤ 2 ^ 200 := by
    intro l hl hlen'
    have h1 := sum_le_mul (l := l) (b := 2 ^ 150 - θ) fun P hP => by linarith [htop P (hl P hP)]
    have h2 : (l.length : ℝ) ≤ 2 ^ 40 := _root_.le_trans (by exact_mod_cast hlen') hl40
    calc l.sum + l.length * θ ≤ l.length * 2 ^ 150 := by linarith
      _ ≤ 2 ^ 40 * 2 ^ 150 := mul_le_mul_of_nonneg_right h2 (by positivity)
      _ ≤ 2 ^ 200 := by norm_num
  have tA := htopl A AP hAlen
  obtain ⟨gf, gv⟩ := gate_close (bs := bs) (t := t) ht a2 hAne
    (_root_.le_trans (div_le_div_of_nonneg_right (by linarith) (by positivity)) hη) hη' hθ (by omega) tA (hG.trans lowM)
  obtain ⟨gv1, gv2⟩ := abs_le.1 gv
  have gl : (1 - 2 * η) * ((A.filter (fun P => decide (hi ≤ P))).sum / Ps.length / 10) ≤ (1 - 2 * η) * (meanR A / 10) :=
    mul_le_mul_of_nonneg_left (by linarith) (by linarith)
  have gh : η * (meanR A / 10) ≤ η * (meanR (A.filter (fun P => decide (hi ≤ P))) / 10) :=
    mul_le_mul_of_nonneg_left (by linarith) ηp.le
  have hBc : List.Forall₂ (Close η θ) (passing (ieeeEnv m bs t) (ungated (ieeeEnv m bs t) (bnd 0) q))
      (A.filter (fun P => decide (hi ≤ P))) := by
    refine forall₂_filter a2 fun x P hP hx => ?_
    obtain ⟨xf, -, P1, hxP⟩ := hx
    obtain ⟨c1, c2⟩ := abs_le.1 hxP
    show Fl.le _ x = decide _
    by_cases hc : hi ≤ P
    · rw [decide_eq_true hc]
      have e1 : η * hi ≤ η * P := mul_le_mul_of_nonneg_left hc ηp.le
      have e2 : (1 - η) * hi ≤ (1 - η) * P := mul_le_mul_of_nonneg_left hc (by linarith)
      have e3 : 0 < η * hi := mul_pos ηp hi0
      exact le_of_value gf xf (by linarith)
    · rw [decide_eq_false hc]
      have hlo' : P ≤ lo := (hs P (AP P hP)).resolve_right hc
      have e1 : η * P ≤ η * lo := mul_le_mul_of_nonneg_left hlo' ηp.le
      have e2 : 0 ≤ η * P := mul_nonneg ηp.le P1
      rw [Bool.eq_false_iff]
      intro hh
      have := value_fle hh
      linarith
  have hM2 : 1 / 10 ^ 7 ≤ meanR (A.filter (fun P => decide (hi ≤ P))) := hG.trans GM
  have hθ4 : 4 * θ ≤ meanR (A.filter (fun P => decide (hi ≤ P))) := by
    have p1 : 0 < η * hi := mul_pos ηp hi0
    have p2 : 0 < η * (meanR (A.filter (fun P => decide (hi ≤ P))) / 10) := by positivity
    linarith
  obtain ⟨mf, mn, mv⟩ := mean_close hBc hne
    (_root_.le_trans (div_le_div_of_nonneg_right (by linarith) (by positivity)) hη) hη' hθ (by omega)
    (htopl _ (fun P hP => AP P (Hm P hP).1) (by omega)) (tiny_le.trans hM2)
  generalize A.filter (fun P => decide (hi ≤ P)) = B at *
  obtain ⟨l1, l2⟩ := lufs_near (x := (mean (Fl.arith Fmt.b64)
      (passing (ieeeEnv m bs t) (ungated (ieeeEnv m bs t) (bnd 0) q))).value) M0
    (r := 13 / 10 * η + 101 / 100 * (θ / meanR B)) (by
      have : θ / meanR B ≤ 1 / 4 := by rw [div_le_iff₀ M0]; linarith
      linarith) (mv.trans (le_of_eq (by field_simp)))
  have hq1 : ungated (ieeeEnv m bs t) (bnd 0) q ≠ [] := by
    intro hc; rw [hc] at a2
    exact hAne (List.forall₂_nil_left_iff.1 a2)
  have hq2 : passing (ieeeEnv m bs t) (ungated (ieeeEnv m bs t) (bnd 0) q) ≠ [] := by
    intro hc; rw [hc] at hBc
    exact hne (List.forall₂_nil_left_iff.1 hBc)
  have hsumA : ((ungated (ieeeEnv m bs t) (bnd 0) q).map Fl.value).sum ≤ 2 ^ 240 := by
    obtain ⟨S0, hS⟩ := close_sum a2
    have := (abs_le.1 hS).2
    have k : η * A.sum ≤ 1 / 100 * A.sum := mul_le_mul_of_nonneg_right hη' S0
    have : (2 : ℝ) * 2 ^ 200 ≤ 2 ^ 240 := by norm_num
    have p : 0 ≤ (A.length : ℝ) * θ := by positivity
    linarith
  obtain ⟨tf, -, -⟩ := total_near (close_mem a2) (by rw [a2.length_eq]; omega) hsumA
  have tn : (ieeeEnv m bs t).f64.isNan (total (ieeeEnv m bs t).f64 (ungated (ieeeEnv m bs t) (bnd 0) q)) = false := by
    obtain ⟨s, k, hk, e, -⟩ := tf
    show Fl.isNan (total (Fl.arith Fmt.b64) _) = false
    rw [e]; rfl
  have ev : v = lufsD (ieeeEnv m bs t) (mean (Fl.arith Fmt.b64)
      (passing (ieeeEnv m bs t) (ungated (ieeeEnv m bs t) (bnd 0) q))) := by
    show integrated _ _ = _
    unfold integrated
    rw [if_neg hq1, tn, if_neg Bool.false_ne_true, if_neg hq2]
    rfl
  have el : v = level (ieeeEnv m bs t) (mean (Fl.arith Fmt.b64)
      (passing (ieeeEnv m bs t) (ungated (ieeeEnv m bs t) (bnd 0) q))) := by
    rw [ev]
    unfold level
    rw [show (ieeeEnv m bs t).f64.le _ (ieeeEnv m bs t).f64.zero = false from num_pos mf l1, if_neg (by simp)]
    rfl
  obtain ⟨f1, f2⟩ := level_near (bs := bs) (t := t) hδ hm mf l1
  rw [← el] at f1 f2
  refine ⟨f1, (abs_sub_le _ _ _).trans (_root_.le_trans (add_le_add f2 l2) ?_)⟩
  have : 0 ≤ θ / meanR B := by positivity
  linarith

/-- The same from the samples on. -/
theorem robust_integrated {δ : ℝ} (hδ : δ ≤ 1) (hm : LogWithin m δ) (he : ElemWithin m (1 / 2 ^ 50)) (ht : TenthWithin m)
    {e0 e : Ebu F64 F32} (h : Started (ieeeEnv m bs t) e0)
    (hg : Adequate e0.mode e0.rate e0.window) (hI : e0.mode.contains Mode.I = true) {max : Nat}
    (hq : e0.blockEnergyHistory = .queue [] max) (hr : 8000 ≤ e0.rate) (hr' : e0.rate ≤ 400000)
    {ops : List (Op F64 F32)} (hops : ∀ op ∈ ops, Feed op) (hrun : runOps (ieeeEnv m bs t) e0 ops = .done e)
    {X : ℝ} (hX : 1 / 2 ^ 100 ≤ X) (hX' : X ≤ 2 ^ 60) (hs : t.sse2 = true ∨ 1 / 2 ^ 13 ≤ X)
    (hx : SamplesWithin X (heard (ieeeEnv m bs t) e0.channels ops)) {r : ℝ} (h0 : 0 < r) (bs' : BSearch) (u : Nat) {lo hi : ℝ} :
    let E := ieeeEnv m bs t
    let Ps := idealBlocks bs' u e0.rate e0.channelMap (heard E e0.channels ops) (measured E e0.channels ops)
    let η := r + (4 * hop e0.rate + e0.channels + Ps.length + 64 : ℝ) / 2 ^ 50
    let θ := 3 / r * noisePower e0.channelMap e0.rate X + 1 / 2 ^ 300
    let H := Ps.filter fun P => hi ≤ P
    η ≤ 1 / 100 → Ps.length ≤ max → Ps.length ≤ 2 ^ 40 → (∀ P ∈ Ps, P ≤ lo ∨ hi ≤ P) → H ≠ [] →
    energyOf (-70) + 2 * (η * hi + θ) < hi → 1 / 10 ^ 7 ≤ H.sum / Ps.length →
    lo + 2 * (η * lo + θ) + 2 * (η * (H.sum / Ps.length / 10) + θ) < H.sum / Ps.length / 10 →
    meanR H / 10 + 2 * (η * (meanR H / 10) + θ) + 2 * (η * hi + θ) < hi →
    ∃ v : F64, ask E e .loudnessGlobal = .done (.ok v) ∧ v.Finite ∧
      |v.value - lufs (meanR H)| ≤ 20 * (η + θ / meanR H) + 10 * δ + 1 / 10 ^ 12 := by
  intro E Ps η θ H hη hmax hlen hsplit hne h70 hG hlo hhi
  have hinv := h.reachable.inv
  have hcm : e0.channelMap.length = e0.channels := hinv.map
  have hc64 : e0.channels ≤ 64 := hinv.ch64
  have X0 : 0 < X := lt_of_lt_of_le (by positivity) hX
  have hhop : 0 < hop e0.rate := by
    unfold hop
    omega
  have hhop' : 4 * hop e0.rate ≤ 2 ^ 20 := by
    unfold hop
    omega
  have hη0 : r ≤ η := by
    show r ≤ r + _
    have : (0 : ℝ) ≤ (4 * hop e0.rate + e0.channels + Ps.length + 64 : ℝ) / 2 ^ 50 := by positivity
    linarith
  have W0 : 0 ≤ noisePower e0.channelMap e0.rate X := mul_nonneg (totalWeight_bounds _).1 (by positivity)
  have hθ : 0 ≤ θ := by
    show (0 : ℝ) ≤ 3 / r * _ + _
    positivity
  let q := (blockEnds (hop e0.rate) (measured E e0.channels ops)).map fun k =>
    energy E (capacity e0.rate e0.window) (4 * hop e0.rate) k e0.channelMap (signalOn E e0.rate e0.channels ops)
  have hclose : List.Forall₂ (Close η θ) q Ps := by
    show List.Forall₂ _ (List.map _ _) (List.map _ _)
    rw [List.forall₂_map_left_iff, List.forall₂_map_right_iff, List.forall₂_same]
    intro k _
    refine (C58_block (bs' := bs') (u := u) he hr hr' hX hX' hs hx (capacity e0.rate e0.window) e0.channelMap
      (N := 4 * hop e0.rate) (n := k) (by omega) (by omega) h0 (by linarith)).mono ?_ le_rfl
    show _ ≤ r + _
    have : ((4 * hop e0.rate : Nat) + e0.channelMap.length + 5 : ℝ) / 2 ^ 51 ≤
        (4 * hop e0.rate + e0.channels + Ps.length + 64 : ℝ) / 2 ^ 50 := by
      rw [hcm]
      push_cast
      refine div_le_div₀ (by positivity) ?_ (by positivity) (by norm_num)
      have : (0 : ℝ) ≤ Ps.length := by positivity
      linarith
    linarith
  have hbig : ∀ P ∈ Ps, 0 ≤ P ∧ P ≤ 2 * 64 * (169 * (2 ^ 60) ^ 2) := by
    intro P hP
    obtain ⟨k, -, rfl⟩ := List.mem_map.1 hP
    have hb := idealPower_bounds e0.channelMap (N := 4 * hop e0.rate) (n := k)
      (ys := idealOuts bs' u e0.rate (heard E e0.channels ops)) (Y := 13 * X) (by positivity)
      fun c => (C57_signal (bs := bs) (t := t) (bs' := bs') (u := u) he hr hr' hX hX' hs hx c).2.1
    generalize idealPower e0.channelMap (4 * hop e0.rate) k (idealOuts bs' u e0.rate (heard E e0.channels ops)) = P at *
    have c1 : (e0.channelMap.length : ℝ) ≤ 64 := by rw [hcm]; exact_mod_cast hc64
    have c2 : X ^ 2 ≤ (2 ^ 60) ^ 2 := pow_le_pow_left₀ X0.le hX' 2
    refine ⟨hb.1, hb.2.trans (mul_le_mul (by linarith) ?_ (by positivity) (by norm_num))⟩
    rw [mul_pow]
    norm_num at c2 ⊢
    linarith
  have htop : ∀ P ∈ Ps, P + θ ≤ 2 ^ 150 := by
    intro P hP
    obtain ⟨p, hp⟩ := List.exists_mem_of_ne_nil _ hne
    have c1 := (hbig p (List.mem_filter.1 hp).1).2
    have c2 : hi ≤ p := of_decide_eq_true (List.mem_filter.1 hp).2
    have c3 := (hbig P hP).2
    have c4 := gate70.1
    have c5 : 0 < η := by linarith
    clear_value θ
    have c6 : 0 < hi := by
      by_contra hc
      push Not at hc
      have : (1 - 2 * η) * hi ≤ 0 := mul_nonpos_of_nonneg_of_nonpos (by linarith) hc
      norm_num at c4
      linarith
    have c7 : 0 < η * hi := mul_pos c5 c6
    norm_num at c1 c3 c4 ⊢
    linarith
  have main := robust_gate (bs := bs) (t := t) hδ hm ht hclose (by
    show _ ≤ r + _
    have : ((Ps.length : ℝ) + 64) / 2 ^ 50 ≤ (4 * hop e0.rate + e0.channels + Ps.length + 64 : ℝ) / 2 ^ 50 := by
      refine div_le_div_of_nonneg_right ?_ (by positivity)
      have : (0 : ℝ) ≤ 4 * hop e0.rate + e0.channels := by positivity
      linarith
    linarith) hη hθ hlen htop hsplit hne h70 hG hlo hhi
  have hb := (C61_blocks (ieee_zero m bs t) h hg hops hrun).1 hI
  rw [foldL_add _ hinv.hist, hq] at hb
  injection hb with hb
  have hroom : ([] : List F64).length + q.length ≤ max := by
    rw [List.length_nil, Nat.zero_add, hclose.length_eq]; exact hmax
  rw [foldl_queue E max q [] hroom, List.nil_append] at hb
  have hre : Reachable E e := reachable_run h.reachable hrun
  have hI' : e.mode.contains Mode.I = true := by rw [runFeeds_mode hops hinv hrun]; exact hI
  have ha := C32_integrated hre hI' hb.symm
  rw [gate0_bnd] at ha
  exact ⟨_, ha, main⟩

end Verif
