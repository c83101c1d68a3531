import Verif.Props.C60
import Verif.Props.C39
/-!
# Rounding of sums over the blocks of several analyzers
-/

namespace Verif
open Spec Fl
variable {m : Libm F64} {bs : BSearch} {t : Target}

/-- The energies a history stands for: those of a queue, and as many bin energies as a histogram has counted. -/
def Spec.stored : History F64 → List F64
  | .queue q _ => q
  | .histogram c => expand centre (fun i => c.getD i 0) allBins

theorem binTotal_plain {E : Env F64 F32} (hE : E.f64 = Fl.arith Fmt.b64) (hc : ∀ i < 1000, binEnergy E i = centre i)
    {bins : List Nat} (hb : ∀ i ∈ bins, i < 1000) (c : Nat → Nat) :
    ∀ s : F64, bins.foldl (fun s i => E.f64.add s (E.f64.mul (E.f64.ofInt (c i)) (binEnergy E i))) s =
      bins.foldl (fun s i => Fl.add s (Fl.mul (Fl.ofInt Fmt.b64 (c i : Int)) (centre i))) s := by
  rw [hE]
  simp only [arith_add, arith_mul, arith_ofInt]
  induction bins with
  | nil => intro s; rw [List.foldl_nil, List.foldl_nil]
  | cons i bins ih =>
    intro s
    rw [List.foldl_cons, List.foldl_cons, ih fun j hj => hb j (List.mem_cons_of_mem _ hj), hc i (hb i (List.mem_cons_self ..))]

theorem binTotal_centre (m : Libm F64) (bs : BSearch) (t : Target) {bins : List Nat} (hb : ∀ i ∈ bins, i < 1000) (c : Nat → Nat) :
    ∀ s : F64, bins.foldl (fun s i => (ieeeEnv m bs t).f64.add s ((ieeeEnv m bs t).f64.mul
        ((ieeeEnv m bs t).f64.ofInt (c i)) (binEnergy (ieeeEnv m bs t) i))) s =
      bins.foldl (fun s i => Fl.add s (Fl.mul (Fl.ofInt Fmt.b64 (c i : Int)) (centre i))) s :=
  binTotal_plain rfl (fun _ h => binEnergy_centre h) hb c

theorem binTotal_fold {E : Env F64 F32} (hE : E.f64 = Fl.arith Fmt.b64) (hc : ∀ i < 1000, binEnergy E i = centre i)
    {bins : List Nat} (hb : ∀ i ∈ bins, i < 1000) (c : Nat → Nat) :
    binTotal E.f64 (binEnergy E) c bins = binTotal (Fl.arith Fmt.b64) centre c bins := by
  unfold binTotal
  rw [binTotal_plain hE hc hb c, hE]
  simp only [arith_add, arith_mul, arith_ofInt]

theorem stored_count {c : List Nat} (hc : c.length = 1000) : c.sum = (stored (.histogram c)).length := by
  rw [← sum_range c hc]
  exact (expand_length ..).symm

theorem count_bound {c : List Nat} (hl : (stored (.histogram c)).length ≤ 2 ^ 40) {bins : List Nat}
    (hb : ∀ i ∈ bins, i ∈ allBins) : ∀ i ∈ bins, c.getD i 0 ≤ 2 ^ 41 := by
  intro i hi
  have h1 : c.getD i 0 ≤ binCount (fun i => c.getD i 0) allBins :=
    List.single_le_sum (fun _ _ => Nat.zero_le _) _ (List.mem_map_of_mem (f := fun i => c.getD i 0) (hb i hi))
  have h2 : binCount (fun i => c.getD i 0) allBins = (stored (.histogram c)).length := (expand_length ..).symm
  omega

/-- Number and sum of the energies of one history. -/
theorem calc_near {h : History F64} (hi : h.Inv) (hx : ∀ x ∈ stored h, x.Finite ∧ x.Nonneg)
    (hl : (stored h).length ≤ 2 ^ 40) (hsum : ((stored h).map Fl.value).sum ≤ 2 ^ 240) :
    let r := h.calcRelativeThreshold (ieeeEnv m bs t)
    r.1 = (stored h).length ∧ r.2.Finite ∧ r.2.Nonneg ∧
      Near Fmt.b64 ((stored h).length + 2000) (((stored h).length + 2000 : Nat) * eta Fmt.b64) r.2.value
        ((stored h).map Fl.value).sum := by
  have hmb := b64_ok.1
  have e0 := (eta_pos Fmt.b64).le
  have v0 := values_nonneg hx
  cases h with
  | queue q max =>
    obtain ⟨t1, t2, t3⟩ := total_near hx (by omega) hsum
    refine ⟨rfl, t1, t2, t3.mono hmb (by omega) ?_ (by positivity) t2.value_nonneg v0⟩
    exact mul_le_mul_of_nonneg_right (by push_cast; linarith) e0
  | histogram c =>
    rw [calc_hist _ hi]
    obtain ⟨t1, t2, t3⟩ := binTotal_near (c := fun i => c.getD i 0) (fun i hi => mem_allBins.1 hi)
      (count_bound hl fun _ h => h) (by rw [allBins_eq, List.length_range]) hsum
    have e := binTotal_fold (E := ieeeEnv m bs t) rfl (fun _ h => binEnergy_centre h) (fun i hi => mem_allBins.1 hi)
      (fun i => c.getD i 0)
    simp only
    rw [e]
    refine ⟨stored_count hi, t1, t2, t3.mono hmb (by omega) ?_ (by positivity) t2.value_nonneg v0⟩
    refine mul_le_mul_of_nonneg_right ?_ e0
    push_cast
    have : (0 : ℝ) ≤ (stored (.histogram c)).length := by positivity
    linarith

theorem room_one {n a b c M N : Nat} (h : n + (a + b) + M * (c + 1) ≤ N) : n + a + M ≤ N := by
  rw [Nat.mul_succ] at h; omega

theorem room_rest {n a b c M N : Nat} (h : n + (a + b) + M * (c + 1) ≤ N) : n + a + M + b + M * c ≤ N := by
  rw [Nat.mul_succ] at h; omega

theorem room_eq {n a b c M : Nat} : n + (a + b) + M * (c + 1) = n + a + M + b + M * c := by
  rw [Nat.mul_succ]; omega

theorem room_weight {w a b c M N : Nat} (h : w + (a + b) + (M + 1) * (c + 1) ≤ N) : w + (a + M) ≤ N := by
  rw [Nat.mul_succ] at h; omega

/-- Sums of sums: one more rounding for each. -/
theorem totals_step (C : Nat) (hs : List (History F64)) : ∀ (j w k : Nat) (s : F64) (S : ℝ), 0 ≤ S → s.Finite → s.Nonneg →
    Near Fmt.b64 (C + j) (w * eta Fmt.b64) s.value S → (∀ h ∈ hs, h.Inv) →
    (∀ h ∈ hs, ∀ x ∈ stored h, x.Finite ∧ x.Nonneg) → (∀ h ∈ hs, (stored h).length + 2000 ≤ C) →
    C + j + hs.length ≤ 2 ^ 42 → C ≤ 2 ^ 40 → w + (hs.flatMap stored).length + 2001 * hs.length ≤ 2 ^ 50 →
    S + ((hs.flatMap stored).map Fl.value).sum ≤ 2 ^ 240 →
    let T := hs.foldl (fun acc h => (acc.1 + (h.calcRelativeThreshold (ieeeEnv m bs t)).1,
      (ieeeEnv m bs t).f64.add acc.2 (h.calcRelativeThreshold (ieeeEnv m bs t)).2)) (k, s)
    T.1 = k + (hs.flatMap stored).length ∧ T.2.Finite ∧ T.2.Nonneg ∧
      Near Fmt.b64 (C + j + hs.length) ((w + (hs.flatMap stored).length + 2001 * hs.length : Nat) * eta Fmt.b64) T.2.value
        (S + ((hs.flatMap stored).map Fl.value).sum) := by
  have hmb := b64_ok.1
  have e0 := (eta_pos Fmt.b64).le
  have e1 := eta64
  induction hs with
  | nil =>
    intro j w k s S hS hs hn hN _ _ _ _ _ _ _
    refine ⟨rfl, hs, hn, ?_⟩
    simpa using hN
  | cons h hs ih =>
    intro j w k s S hS hsf hn hN hi hx hC hj hC' hw hsum
    have e : (h :: hs).flatMap stored = stored h ++ hs.flatMap stored := rfl
    rw [e] at hw hsum ⊢
    rw [List.map_append, List.sum_append] at hsum ⊢
    rw [List.length_append, List.length_cons] at hw ⊢
    rw [List.length_cons] at hj
    have hxh := hx h (List.mem_cons_self ..)
    have x0 := values_nonneg hxh
    have rest : 0 ≤ ((hs.flatMap stored).map Fl.value).sum := values_nonneg fun x hx' => by
      obtain ⟨h', hh, hx'⟩ := List.mem_flatMap.1 hx'
      exact hx h' (List.mem_cons_of_mem _ hh) x hx'
    have hCh := hC h (List.mem_cons_self ..)
    obtain ⟨c1, c2, c3, c4⟩ := calc_near (m := m) (bs := bs) (t := t) (hi h (List.mem_cons_self ..)) hxh (by omega)
      (by linarith)
    intro T
    have eT : T = hs.foldl (fun acc h => (acc.1 + (h.calcRelativeThreshold (ieeeEnv m bs t)).1,
      (ieeeEnv m bs t).f64.add acc.2 (h.calcRelativeThreshold (ieeeEnv m bs t)).2))
      (k + (h.calcRelativeThreshold (ieeeEnv m bs t)).1, Fl.add s (h.calcRelativeThreshold (ieeeEnv m bs t)).2) := rfl
    rw [c1] at eT
    clear c1
    generalize (h.calcRelativeThreshold (ieeeEnv m bs t)).2 = x at *
    generalize ((stored h).map Fl.value).sum = X at *
    generalize ((hs.flatMap stored).map Fl.value).sum = R at *
    generalize hn1 : (stored h).length = n1 at *
    have y0 := c3.value_nonneg
    have s0 := hn.value_nonneg
    have n2 : Near Fmt.b64 (C + j) (w * eta Fmt.b64 + (n1 + 2000 : Nat) * eta Fmt.b64) (s.value + x.value) (S + X) :=
      hN.add (c4.mono hmb (hCh.trans (Nat.le_add_right C j)) le_rfl (by positivity) y0 x0)
    have we : (w : ℝ) * eta Fmt.b64 + (n1 + 2000 : Nat) * eta Fmt.b64 ≤ 1 := by
      have a : ((w + (n1 + 2000) : Nat) : ℝ) ≤ 2 ^ 50 := by exact_mod_cast room_weight hw
      calc (w : ℝ) * eta Fmt.b64 + (n1 + 2000 : Nat) * eta Fmt.b64 = ((w + (n1 + 2000) : Nat) : ℝ) * eta Fmt.b64 := by
            push_cast; ring
        _ ≤ 2 ^ 50 * (1 / 2 ^ 200) := mul_le_mul a e1 e0 (by positivity)
        _ ≤ 1 := by norm_num
    have we0 : 0 ≤ (w : ℝ) * eta Fmt.b64 + (n1 + 2000 : Nat) * eta Fmt.b64 := by positivity
    have sv : s.value + x.value ≤ 2 * (2 ^ 240 + 1) := by
      refine n2.1.trans ?_
      have g := grow64 (n := C + j) (by omega)
      calc _ ≤ 2 * (S + X + (w * eta Fmt.b64 + (n1 + 2000 : Nat) * eta Fmt.b64)) :=
            mul_le_mul_of_nonneg_right g (by linarith)
        _ ≤ _ := by linarith
    have af : (Fl.add s x).Finite := by
      refine add_finite Fmt.ok64 hsf c2 ?_
      rw [abs_of_nonneg (by linarith)]
      have ht := top64
      norm_num at ht sv ⊢
      linarith
    have an : (Fl.add s x).Nonneg := hn.add hmb c3
    have n3 : Near Fmt.b64 1 (eta Fmt.b64) (Fl.add s x).value (s.value + x.value) :=
      Near.round hmb an.value_nonneg (add_err hmb hsf c2 af)
    have n4 := n3.trans hmb e0 we0 n2
    have := ih (j + 1) (w + n1 + 2001) (k + n1) (Fl.add s x) (S + X) (by linarith) af an
      (by convert n4 using 1 <;> first | omega | (push_cast; ring))
      (fun y hy => hi y (List.mem_cons_of_mem _ hy)) (fun y hy => hx y (List.mem_cons_of_mem _ hy))
      (fun y hy => hC y (List.mem_cons_of_mem _ hy)) (by omega) hC' (by omega) (by linarith)
    rw [← eT] at this
    obtain ⟨r1, r2, r3, r4⟩ := this
    refine ⟨by omega, r2, r3, ?_⟩
    convert r4 using 1
    · omega
    · push_cast; ring
    · ring

/-- Number and sum of the energies of several histories. -/
theorem totals_near {hs : List (History F64)} (hi : ∀ h ∈ hs, h.Inv)
    (hx : ∀ x ∈ hs.flatMap stored, x.Finite ∧ x.Nonneg)
    (hl : (hs.flatMap stored).length + 2001 * hs.length + 2000 ≤ 2 ^ 40)
    (hsum : ((hs.flatMap stored).map Fl.value).sum ≤ 2 ^ 240) :
    (totals (ieeeEnv m bs t) hs).1 = (hs.flatMap stored).length ∧ (totals (ieeeEnv m bs t) hs).2.Finite ∧
      (totals (ieeeEnv m bs t) hs).2.Nonneg ∧
      Near Fmt.b64 ((hs.flatMap stored).length + 2001 * hs.length + 2000)
        (((hs.flatMap stored).length + 2001 * hs.length + 2000 : Nat) * eta Fmt.b64) (totals (ieeeEnv m bs t) hs).2.value
        ((hs.flatMap stored).map Fl.value).sum := by
  have hmb := b64_ok.1
  have e0 := (eta_pos Fmt.b64).le
  have key := totals_step (m := m) (bs := bs) (t := t) ((hs.flatMap stored).length + 2000) hs 0 0 0 (Fl.zero false) 0
    le_rfl zero64_finite rfl (by
      rw [value_zero]
      exact (Near.refl (φ := Fmt.b64) 0).mono hmb (by omega) (by simp) le_rfl le_rfl le_rfl) hi
    (fun h hh x hx' => hx x (List.mem_flatMap.2 ⟨h, hh, hx'⟩))
    (fun h hh => by
      have : (stored h).length ≤ (hs.flatMap stored).length := by
        rw [List.length_flatMap]
        exact List.single_le_sum (fun _ _ => Nat.zero_le _) _ (List.mem_map_of_mem (f := fun a => (stored a).length) hh)
      omega)
    (by omega) (by omega) (by omega) (by linarith)
  obtain ⟨k1, k2, k3, k4⟩ := key
  rw [_root_.zero_add (List.sum _)] at k4
  refine ⟨by rw [← Nat.zero_add (List.length _)]; exact k1, k2, k3, ?_⟩
  have l1 : (hs.flatMap stored).length + 2000 + 0 + hs.length ≤ (hs.flatMap stored).length + 2001 * hs.length + 2000 := by
    omega
  have l2 : 0 + (hs.flatMap stored).length + 2001 * hs.length ≤ (hs.flatMap stored).length + 2001 * hs.length + 2000 := by
    omega
  have l3 : ((0 + (hs.flatMap stored).length + 2001 * hs.length : Nat) : ℝ) * eta Fmt.b64 ≤
      (((hs.flatMap stored).length + 2001 * hs.length + 2000 : Nat) : ℝ) * eta Fmt.b64 :=
    mul_le_mul_of_nonneg_right (Nat.cast_le.2 l2) e0
  have l4 : 0 ≤ ((0 + (hs.flatMap stored).length + 2001 * hs.length : Nat) : ℝ) * eta Fmt.b64 :=
    mul_nonneg (Nat.cast_nonneg _) e0
  exact Near.mono hmb l1 l3 l4 k3.value_nonneg (values_nonneg hx) k4

/-! ## The blocks at or above a gate -/

theorem items_map {ι : Type} (n : ι → Nat) (f : ι → F64) (l : List ι) : ∀ (k : Nat) (s : F64),
    (l.map fun i => (n i, f i)).foldl (fun acc (x : Nat × F64) => (acc.1 + x.1, Fl.add acc.2 x.2)) (k, s) =
      (k + (l.map n).sum, l.foldl (fun s i => Fl.add s (f i)) s) := by
  induction l with
  | nil => intro k s; rfl
  | cons i l ih =>
    intro k s
    rw [List.map_cons, List.foldl_cons, ih, List.map_cons, List.sum_cons, List.foldl_cons, Nat.add_assoc]

/-- What one history contributes to a running sum. -/
theorem gated_step {h : History F64} (hi : h.Inv) (hx : ∀ x ∈ stored h, x.Finite ∧ x.Nonneg) {g : F64} (hg : g.isNan = false)
    {n k : Nat} {s : F64} {S : ℝ} (hS : 0 ≤ S) (hs : s.Finite) (hn : s.Nonneg)
    (hN : Near Fmt.b64 n (n * eta Fmt.b64) s.value S) (hl : n + (stored h).length + 2000 ≤ 2 ^ 40)
    (hsum : S + (((stored h).filter fun x => Fl.le g x).map Fl.value).sum ≤ 2 ^ 240) :
    let T := (h.gatedP (ieeeEnv m bs t) (startP (ieeeEnv m bs t) g) g).foldl
      (fun acc (x : Nat × F64) => (acc.1 + x.1, Fl.add acc.2 x.2)) (k, s)
    T.1 = k + ((stored h).filter fun x => Fl.le g x).length ∧ T.2.Finite ∧ T.2.Nonneg ∧
      Near Fmt.b64 (n + (stored h).length + 2000) ((n + (stored h).length + 2000 : Nat) * eta Fmt.b64) T.2.value
        (S + (((stored h).filter fun x => Fl.le g x).map Fl.value).sum) := by
  have hmb := b64_ok.1
  have e0 := (eta_pos Fmt.b64).le
  have hx' : ∀ x ∈ (stored h).filter fun x => Fl.le g x, x.Finite ∧ x.Nonneg := fun x hxx => hx x (List.mem_filter.1 hxx).1
  have v0 := values_nonneg hx'
  intro T
  cases h with
  | queue q max =>
    have eT : T = (k + ((q.filter fun x => Fl.le g x).map fun _ => 1).sum,
        (q.filter fun x => Fl.le g x).foldl (fun s i => Fl.add s i) s) :=
      items_map (fun _ => 1) (fun x => x) (q.filter fun x => Fl.le g x) k s
    have hfl : (q.filter fun x => Fl.le g x).length ≤ q.length := List.length_filter_le ..
    change n + q.length + 2000 ≤ 2 ^ 40 at hl
    show _ ∧ _ ∧ _ ∧ Near Fmt.b64 (n + q.length + 2000) ((n + q.length + 2000 : Nat) * eta Fmt.b64) T.2.value _
    have hfl2 : n + (q.filter fun x => Fl.le g x).length ≤ n + q.length + 2000 := by omega
    obtain ⟨t1, t2, t3⟩ := total_step (q.filter fun x => Fl.le g x) n s S hS hs hn hN hx'
      ((Nat.add_le_add_left hfl n).trans (by omega)) hsum
    rw [eT]
    refine ⟨by simp [stored], t1, t2, t3.mono hmb hfl2 ?_ (by positivity) t2.value_nonneg (add_nonneg hS v0)⟩
    exact mul_le_mul_of_nonneg_right (by exact_mod_cast hfl2) e0
  | histogram c =>
    have hb : (allBins.filter fun i => decide (startP (ieeeEnv m bs t) g ≤ i)) = binsFrom (Fl.arith Fmt.b64) centre g := by
      unfold binsFrom
      apply List.filter_congr
      intro i hi'
      have := (ieee_order (m := m) (bs := bs) (t := t)).start (x := g) hg (mem_allBins.1 hi')
      rw [binEnergy_centre (mem_allBins.1 hi')] at this
      rw [Bool.eq_iff_iff, decide_eq_true_iff]
      exact this
    have hz : List.zip (c.drop (startP (ieeeEnv m bs t) g)) ((energies (ieeeEnv m bs t)).drop (startP (ieeeEnv m bs t) g)) =
        (binsFrom (Fl.arith Fmt.b64) centre g).map fun i => (c.getD i 0, binEnergy (ieeeEnv m bs t) i) := by
      have h : List.zip (c.drop (startP (ieeeEnv m bs t) g)) ((energies (ieeeEnv m bs t)).drop (startP (ieeeEnv m bs t) g)) =
          (List.zip c (energies (ieeeEnv m bs t))).drop (startP (ieeeEnv m bs t) g) := by
        simp only [List.zip, List.drop_zipWith]
      rw [h, zip_energies _ hi, ← List.map_drop, allBins_eq, drop_range, ← allBins_eq, hb]
    have hmem : ∀ i ∈ binsFrom (Fl.arith Fmt.b64) centre g, i ∈ allBins := fun i hi => (List.mem_filter.1 hi).1
    have hblen : (binsFrom (Fl.arith Fmt.b64) centre g).length ≤ 1000 := by
      refine (List.length_filter_le ..).trans ?_
      rw [allBins_eq, List.length_range]
    have hfil : (stored (.histogram c)).filter (fun x => Fl.le g x) =
        expand centre (fun i => c.getD i 0) (binsFrom (Fl.arith Fmt.b64) centre g) := by
      show (expand _ _ _).filter _ = _
      rw [expand_filter]
      rfl
    rw [hfil] at hsum v0 ⊢
    generalize binsFrom (Fl.arith Fmt.b64) centre g = bins at *
    have eT : T = (k + (bins.map fun i => c.getD i 0).sum, bins.foldl (fun s i => (ieeeEnv m bs t).f64.add s
        ((ieeeEnv m bs t).f64.mul ((ieeeEnv m bs t).f64.ofInt ((c.getD i 0 : Nat) : Int)) (binEnergy (ieeeEnv m bs t) i))) s) := by
      show ((List.zip _ _).map _).foldl _ _ = _
      rw [hz, List.map_map]
      exact items_map (fun i => c.getD i 0) (fun i => (ieeeEnv m bs t).f64.mul
        ((ieeeEnv m bs t).f64.ofInt ((c.getD i 0 : Nat) : Int)) (binEnergy (ieeeEnv m bs t) i)) bins k s
    rw [binTotal_centre m bs t (fun i hi => mem_allBins.1 (hmem i hi)) (fun i => c.getD i 0)] at eT
    obtain ⟨t1, t2, t3⟩ := binTotal_step (fun i => c.getD i 0) bins n s S hS hs hn hN
      (fun i hi => mem_allBins.1 (hmem i hi)) (count_bound (by omega) hmem) (by omega) hsum
    rw [eT]
    refine ⟨by rw [expand_length]; rfl, t1, t2, t3.mono hmb (by omega) ?_ (by positivity) t2.value_nonneg (add_nonneg hS v0)⟩
    exact mul_le_mul_of_nonneg_right (by exact_mod_cast (by omega)) e0

theorem gated_steps {g : F64} (hg : g.isNan = false) (hs : List (History F64)) : ∀ (n k : Nat) (s : F64) (S : ℝ), 0 ≤ S →
    s.Finite → s.Nonneg → Near Fmt.b64 n (n * eta Fmt.b64) s.value S → (∀ h ∈ hs, h.Inv) →
    (∀ h ∈ hs, ∀ x ∈ stored h, x.Finite ∧ x.Nonneg) →
    n + (hs.flatMap stored).length + 2000 * hs.length ≤ 2 ^ 40 →
    S + (((hs.flatMap stored).filter fun x => Fl.le g x).map Fl.value).sum ≤ 2 ^ 240 →
    let T := (hs.map (History.gatedP (ieeeEnv m bs t) (startP (ieeeEnv m bs t) g) g)).flatten.foldl
      (fun acc (x : Nat × F64) => (acc.1 + x.1, Fl.add acc.2 x.2)) (k, s)
    T.1 = k + ((hs.flatMap stored).filter fun x => Fl.le g x).length ∧ T.2.Finite ∧ T.2.Nonneg ∧
      Near Fmt.b64 (n + (hs.flatMap stored).length + 2000 * hs.length)
        ((n + (hs.flatMap stored).length + 2000 * hs.length : Nat) * eta Fmt.b64) T.2.value
        (S + (((hs.flatMap stored).filter fun x => Fl.le g x).map Fl.value).sum) := by
  induction hs with
  | nil =>
    intro n k s S hS hs hn hN _ _ _ _
    refine ⟨rfl, hs, hn, ?_⟩
    simpa using hN
  | cons h hs ih =>
    intro n k s S hS hsf hn hN hi hx hl hsum
    have e : (h :: hs).flatMap stored = stored h ++ hs.flatMap stored := rfl
    rw [e] at hl hsum ⊢
    rw [List.filter_append, List.map_append, List.sum_append] at hsum ⊢
    rw [List.length_append, List.length_cons] at hl ⊢
    have hxh := hx h (List.mem_cons_self ..)
    have rest : 0 ≤ (((hs.flatMap stored).filter fun x => Fl.le g x).map Fl.value).sum := values_nonneg fun x hx' => by
      obtain ⟨h', hh, hx'⟩ := List.mem_flatMap.1 (List.mem_filter.1 hx').1
      exact hx h' (List.mem_cons_of_mem _ hh) x hx'
    have x0 : 0 ≤ (((stored h).filter fun x => Fl.le g x).map Fl.value).sum := values_nonneg fun x hx' =>
      hxh x (List.mem_filter.1 hx').1
    obtain ⟨c1, c2, c3, c4⟩ := gated_step (m := m) (bs := bs) (t := t) (k := k) (hi h (List.mem_cons_self ..)) hxh hg hS hsf
      hn hN (room_one hl) (by linarith)
    intro T
    have eT : T = (hs.map (History.gatedP (ieeeEnv m bs t) (startP (ieeeEnv m bs t) g) g)).flatten.foldl
        (fun acc (x : Nat × F64) => (acc.1 + x.1, Fl.add acc.2 x.2))
        ((h.gatedP (ieeeEnv m bs t) (startP (ieeeEnv m bs t) g) g).foldl
          (fun acc (x : Nat × F64) => (acc.1 + x.1, Fl.add acc.2 x.2)) (k, s)) := by
      show ((List.map _ (h :: hs)).flatten).foldl _ _ = _
      rw [List.map_cons, List.flatten_cons, List.foldl_append]
    generalize (h.gatedP (ieeeEnv m bs t) (startP (ieeeEnv m bs t) g) g).foldl
          (fun acc (x : Nat × F64) => (acc.1 + x.1, Fl.add acc.2 x.2)) (k, s) = T' at *
    obtain ⟨k', s'⟩ := T'
    have key := ih (n + (stored h).length + 2000) k' s' _ (add_nonneg hS x0) c2 c3 c4
      (fun y hy => hi y (List.mem_cons_of_mem _ hy)) (fun y hy => hx y (List.mem_cons_of_mem _ hy)) (room_rest hl) (by linarith)
    rw [← eT] at key
    obtain ⟨r1, r2, r3, r4⟩ := key
    refine ⟨?_, r2, r3, ?_⟩
    · rw [r1, show k' = _ from c1, Nat.add_assoc]
    · rw [List.length_append, room_eq, ← add_assoc]
      exact r4

/-- Number and sum of the blocks of several histories at or above a gate. -/
theorem items_near {hs : List (History F64)} (hi : ∀ h ∈ hs, h.Inv)
    (hx : ∀ x ∈ hs.flatMap stored, x.Finite ∧ x.Nonneg) {g : F64} (hg : g.isNan = false)
    (hl : (hs.flatMap stored).length + 2000 * hs.length ≤ 2 ^ 40)
    (hsum : (((hs.flatMap stored).filter fun x => Fl.le g x).map Fl.value).sum ≤ 2 ^ 240) :
    let T := sumItems (ieeeEnv m bs t) (hs.map (History.gatedP (ieeeEnv m bs t) (startP (ieeeEnv m bs t) g) g)).flatten
    T.1 = ((hs.flatMap stored).filter fun x => Fl.le g x).length ∧ T.2.Finite ∧ T.2.Nonneg ∧
      Near Fmt.b64 ((hs.flatMap stored).length + 2000 * hs.length)
        (((hs.flatMap stored).length + 2000 * hs.length : Nat) * eta Fmt.b64) T.2.value
        (((hs.flatMap stored).filter fun x => Fl.le g x).map Fl.value).sum := by
  have key := gated_steps (m := m) (bs := bs) (t := t) hg hs 0 0 (Fl.zero false) 0 le_rfl zero64_finite rfl (by
    rw [value_zero]; simpa using Near.refl (φ := Fmt.b64) 0) hi
    (fun h hh x hx' => hx x (List.mem_flatMap.2 ⟨h, hh, hx'⟩)) (by omega) (by linarith)
  intro T
  obtain ⟨r1, r2, r3, r4⟩ := key
  simp only [_root_.zero_add] at r1 r4
  exact ⟨r1, r2, r3, r4⟩

end Verif
