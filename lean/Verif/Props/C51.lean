import Verif.Proofs.FloatMono
import Verif.Props.C35
import Verif.Props.C33
/-!
# C51: louder never reports quieter
-/

namespace Verif
open Spec Fl
variable {m : Libm F64} {bs : BSearch} {t : Target}

theorem Fl.le_numbers {φ : Fmt} {x y : Fl φ} (h : Fl.le x y = true) : x.isNan = false ∧ y.isNan = false := by
  cases x <;> cases y <;> first | exact ⟨rfl, rfl⟩ | exact absurd h Bool.false_ne_true

theorem lit_ten : ∃ k h, Fl.lit Fmt.b64 10 1 = .num false k h ∧ k ≠ 0 ∧ k ≠ Fmt.b64.infK :=
  ⟨4621819117588971520, by decide +kernel, by decide +kernel, by decide +kernel, by decide +kernel⟩

theorem lit_691 : ∃ k h, Fl.lit Fmt.b64 691 1000 = .num false k h ∧ k ≠ 0 ∧ k ≠ Fmt.b64.infK :=
  ⟨4604399194230302441, by decide +kernel, by decide +kernel, by decide +kernel, by decide +kernel⟩

theorem Fl.mul_pos_not_nan {φ : Fmt} {c : Nat} {hc : c ≤ φ.infK} (c0 : c ≠ 0) (c1 : c ≠ φ.infK) {x : Fl φ}
    (h : x.isNan = false) : (mul (.num false c hc) x).isNan = false := by
  cases x with
  | nan => cases h
  | num s k hk =>
    unfold mul
    by_cases ck : k = φ.infK
    · simp only [if_neg c1, if_pos ck, if_neg c0]; rfl
    · simp only [if_neg c1, if_neg ck]; rfl

theorem Fl.sub_fin_not_nan {φ : Fmt} {c : Nat} {hc : c ≤ φ.infK} (c1 : c ≠ φ.infK) {x : Fl φ}
    (h : x.isNan = false) : (sub x (.num false c hc)).isNan = false := by
  cases x with
  | nan => cases h
  | num s k hk =>
    unfold sub neg add
    by_cases ck : k = φ.infK
    · simp only [if_neg c1, if_pos ck]; rfl
    · simp only [if_neg c1, if_neg ck]; exact ofSMag_not_nan _ _

/-- A number has a number as loudness if the logarithm gives one. -/
theorem lufs_not_nan {x : F64} (h : (m.log10 x).isNan = false) : (lufsD (ieeeEnv m bs t) x).isNan = false := by
  obtain ⟨a, ha, e1, a0, a1⟩ := lit_ten
  obtain ⟨b, hb, e2, b0, b1⟩ := lit_691
  unfold lufsD
  rw [ieee_f64, arith_sub, arith_mul, arith_lit, e1, e2]
  exact Fl.sub_fin_not_nan b1 (Fl.mul_pos_not_nan a0 a1 h)

theorem Fl.sub_mono {φ : Fmt} (hmb : 1 ≤ φ.mb) {x y z : Fl φ} (h : Fl.le x y = true)
    (h1 : (sub x z).isNan = false) (h2 : (sub y z).isNan = false) : Fl.le (sub x z) (sub y z) = true :=
  Fl.add_mono hmb h h1 h2

/-- **C51.** `energy_to_loudness` keeps the order wherever `log10` does: if `log10 x <= log10 y` then the
loudness of `x` is at most that of `y`. -/
theorem C51_loudness {x y : F64} (h : Fl.le (m.log10 x) (m.log10 y) = true) :
    Fl.le (energyToLoudness (ieeeEnv m bs t) x) (energyToLoudness (ieeeEnv m bs t) y) = true := by
  rw [energyToLoudness_eq, energyToLoudness_eq]
  obtain ⟨hx, hy⟩ := Fl.le_numbers h
  have nx := lufs_not_nan (bs := bs) (t := t) hx
  have ny := lufs_not_nan (bs := bs) (t := t) hy
  obtain ⟨a, ha, e1, a0, a1⟩ := lit_ten
  have hl : (ieeeEnv m bs t).libm = m := rfl
  unfold lufsD at nx ny ⊢
  rw [ieee_f64, arith_sub, arith_mul, arith_lit, hl] at nx ny ⊢
  generalize Fl.lit Fmt.b64 691 1000 = c at nx ny ⊢
  rw [e1] at nx ny ⊢
  exact Fl.sub_mono Fmt.b64_mb (Fl.mul_mono Fmt.b64_mb a0 a1 h) nx ny

/-- A logarithm that keeps the order of non-negative numbers. -/
def Spec.MonotoneLog (m : Libm F64) : Prop :=
  ∀ x y : F64, x.Nonneg → Fl.le x y = true → Fl.le (m.log10 x) (m.log10 y) = true

theorem Fl.Nonneg.of_le {φ : Fmt} {x y : Fl φ} (hx : x.Nonneg) (hn : y ≠ zero true) (h : Fl.le x y = true) :
    y.Nonneg := by
  obtain ⟨k, hk, rfl⟩ := hx.out
  cases y with
  | nan => cases h
  | num s l hl =>
    cases s
    · rfl
    · rw [le_num, decide_eq_true_eq] at h
      simp only [skey, Bool.false_eq_true, if_false, if_true] at h
      have : l = 0 := by omega
      subst this
      exact absurd rfl hn

/-- **C51.** A window that is not quieter does not report a lower momentary, short-term or window loudness
(`level` is what those three queries return of the window's energy, see `C15_windows`). -/
theorem C51_level (hm : MonotoneLog m) {x y : F64} (hx : x.Nonneg) (h : Fl.le x y = true) :
    Fl.le (level (ieeeEnv m bs t) x) (level (ieeeEnv m bs t) y) = true := by
  have hi : ∀ z : F64, z.isNan = false → Fl.le (Fl.inf true) z = true := by
    intro z hz
    cases z with
    | nan => cases hz
    | num s k hk =>
      unfold inf
      rw [le_num, decide_eq_true_eq]
      cases s <;> simp only [skey, Bool.false_eq_true, if_false, if_true] <;> omega
  have hl : Fl.le (lufsD (ieeeEnv m bs t) x) (lufsD (ieeeEnv m bs t) y) = true := C51_loudness (hm x y hx h)
  have ny := (Fl.le_numbers hl).2
  unfold level
  by_cases cx : (ieeeEnv m bs t).f64.le x (ieeeEnv m bs t).f64.zero = true
  · rw [if_pos cx]
    split
    · exact hi _ rfl
    · exact hi _ ny
  · rw [if_neg cx, if_neg]
    · exact hl
    · intro cy
      exact cx (Fl.le_trans h cy)

/-- Energies in pairs, none quieter than its partner. -/
def Spec.Louder (xs ys : List F64) : Prop := List.Forall₂ (fun x y => Fl.le x y = true) xs ys

theorem Fl.add_le_add {φ : Fmt} (hmb : 1 ≤ φ.mb) {a b c d : Fl φ} (ha : a.Nonneg) (hb : b.Nonneg) (hc : c.Nonneg)
    (hd : d.Nonneg) (h1 : Fl.le a b = true) (h2 : Fl.le c d = true) : Fl.le (add a c) (add b d) = true := by
  have n1 := (Fl.Nonneg.add hmb ha hc).not_nan
  have n2 := (Fl.Nonneg.add hmb hb hc).not_nan
  have n3 := (Fl.Nonneg.add hmb hb hd).not_nan
  refine Fl.le_trans (add_mono hmb h1 n1 n2) ?_
  rw [Fl.add_comm b c, Fl.add_comm b d] at *
  exact add_mono hmb h2 n2 n3

theorem total_louder {xs ys : List F64} (h : Louder xs ys) (hx : ∀ x ∈ xs, x.Nonneg) (hy : ∀ y ∈ ys, y.Nonneg) :
    Fl.le (total (Fl.arith Fmt.b64) xs) (total (Fl.arith Fmt.b64) ys) = true := by
  unfold total
  have key : ∀ a b : F64, a.Nonneg → b.Nonneg → Fl.le a b = true →
      Fl.le (xs.foldl Fl.add a) (ys.foldl Fl.add b) = true := by
    induction h with
    | nil => intro a b _ _ h; exact h
    | @cons x y xs ys hxy _ ih =>
      intro a b ha hb hab
      rw [List.foldl_cons, List.foldl_cons]
      have hx' := hx x (List.mem_cons_self ..)
      have hy' := hy y (List.mem_cons_self ..)
      exact ih (fun z hz => hx z (List.mem_cons_of_mem _ hz)) (fun z hz => hy z (List.mem_cons_of_mem _ hz)) _ _
        (Fl.Nonneg.add Fmt.b64_mb ha hx') (Fl.Nonneg.add Fmt.b64_mb hb hy')
        (Fl.add_le_add Fmt.b64_mb ha hb hx' hy' hab hxy)
  exact key _ _ rfl rfl rfl

theorem Fl.div_le_div {φ : Fmt} (hmb : 1 ≤ φ.mb) {x y : Fl φ} (hx : x.Nonneg) (hy : y.Nonneg) {c : Nat}
    {hc : c ≤ φ.infK} (c0 : c ≠ 0) (c1 : c ≠ φ.infK) (h : Fl.le x y = true) :
    Fl.le (div x (.num false c hc)) (div y (.num false c hc)) = true := by
  obtain ⟨k, hk, rfl⟩ := hx.out
  obtain ⟨l, hl, rfl⟩ := hy.out
  rw [le_pos, decide_eq_true_eq] at h
  have cp : 0 < φ.mag c := mag_pos_iff.2 (Nat.pos_of_ne_zero c0)
  by_cases ck : k = φ.infK
  · have cl : l = φ.infK := by omega
    subst ck cl
    unfold div
    simp only [if_neg c1]
    exact Fl.le_refl rfl
  · by_cases cl : l = φ.infK
    · unfold div
      simp only [if_neg c1, if_neg ck, if_pos cl, if_neg c0]
      exact decide_eq_true (Int.ofNat_le.2 (φ.rnd_le_infK ..))
    · rw [div_pos ck c1 c0, div_pos cl c1 c0, le_pos, decide_eq_true_eq]
      exact φ.rnd_mono hmb cp cp
        (Nat.mul_le_mul_right _ (Nat.mul_le_mul_right _ (φ.mag_le h)))

theorem total_nonneg {xs : List F64} (hx : ∀ x ∈ xs, x.Nonneg) : (total (Fl.arith Fmt.b64) xs).Nonneg :=
  foldl_nonneg hx rfl

/-- **C51.** Of two equally long lists of gated blocks, the one that is louder block by block has the higher mean
energy and is not reported as quieter. -/
theorem C51_gated (hm : MonotoneLog m) {xs ys : List F64} (h : Louder xs ys) (hx : ∀ x ∈ xs, x.Nonneg)
    (hy : ∀ y ∈ ys, y.Nonneg) (h0 : xs ≠ []) (hlen : xs.length < 2 ^ 99) :
    Fl.le (mean (Fl.arith Fmt.b64) xs) (mean (Fl.arith Fmt.b64) ys) = true ∧
    Fl.le (lufsD (ieeeEnv m bs t) (mean (Fl.arith Fmt.b64) xs))
      (lufsD (ieeeEnv m bs t) (mean (Fl.arith Fmt.b64) ys)) = true := by
  have hl : xs.length = ys.length := h.length_eq
  obtain ⟨k, hk, e, k0, k1⟩ := Fl.ofInt_fin (n := xs.length) (fun h => h0 (List.length_eq_zero_iff.1 h)) hlen
  have hmean : Fl.le (mean (Fl.arith Fmt.b64) xs) (mean (Fl.arith Fmt.b64) ys) = true := by
    unfold mean
    rw [arith_div, arith_ofInt, ← hl, e]
    exact Fl.div_le_div Fmt.b64_mb (total_nonneg hx) (total_nonneg hy) k0 k1 (total_louder h hx hy)
  refine ⟨hmean, C51_loudness (hm _ _ ?_ hmean)⟩
  unfold mean
  rw [arith_div, arith_ofInt]
  exact Fl.Nonneg.div_fin (total_nonneg hx) e k0 k1

/-- **C51.** So two integrating analyzers whose gated blocks can be paired like that report loudnesses in that
order. -/
theorem C51_global (hm : MonotoneLog m) {e1 e2 : Ebu F64 F32} (h1 : Reachable (ieeeEnv m bs t) e1)
    (h2 : Reachable (ieeeEnv m bs t) e2) (i1 : e1.mode.contains Mode.I = true) (i2 : e2.mode.contains Mode.I = true)
    {q1 q2 : List F64} {max1 max2 : Nat} (hq1 : e1.blockEnergyHistory = .queue q1 max1)
    (hq2 : e2.blockEnergyHistory = .queue q2 max2)
    (n1 : (total (Fl.arith Fmt.b64) q1).isNan = false) (n2 : (total (Fl.arith Fmt.b64) q2).isNan = false)
    (h : Louder (passing (ieeeEnv m bs t) q1) (passing (ieeeEnv m bs t) q2)) (h0 : passing (ieeeEnv m bs t) q1 ≠ [])
    (hlen : q1.length < 2 ^ 99) :
    ∃ x y, e1.loudnessGlobal (ieeeEnv m bs t) = .done (.ok x) ∧
      e2.loudnessGlobal (ieeeEnv m bs t) = .done (.ok y) ∧ Fl.le x y = true := by
  have hp : ∀ {q : List F64}, (∀ x ∈ q, x.NonnegOrNan) → ∀ x ∈ passing (ieeeEnv m bs t) q, x.Nonneg := by
    intro q hq x hx
    obtain ⟨hx1, hx2⟩ := List.mem_filter.1 hx
    have hn := (Fl.le_numbers hx2).2
    have := hq x hx1
    cases x with
    | nan => cases hn
    | num => exact this
  have hg := C51_gated (bs := bs) (t := t) hm h (hp ((C32_stored h1).1 hq1)) (hp ((C32_stored h2).1 hq2)) h0
    (Nat.lt_of_le_of_lt (List.length_filter_le ..) hlen)
  have h0' : passing (ieeeEnv m bs t) q2 ≠ [] := by
    intro hc
    rw [hc] at h
    cases h' : passing (ieeeEnv m bs t) q1 with
    | nil => exact h0 h'
    | cons => rw [h'] at h; cases h
  have ne : ∀ {q : List F64}, passing (ieeeEnv m bs t) q ≠ [] → q ≠ [] := by
    rintro _ hq rfl
    exact hq rfl
  refine ⟨_, _, C32_integrated h1 i1 hq1, C32_integrated h2 i2 hq2, ?_⟩
  have n1' : (ieeeEnv m bs t).f64.isNan (total (ieeeEnv m bs t).f64 q1) = false := n1
  have n2' : (ieeeEnv m bs t).f64.isNan (total (ieeeEnv m bs t).f64 q2) = false := n2
  unfold integrated
  rw [if_neg (ne h0), if_neg (ne h0'), n1', n2', if_neg Bool.false_ne_true, if_neg Bool.false_ne_true, if_neg h0,
    if_neg h0']
  exact hg.2

/-- Not vacuous: a logarithm keeping the order (here a stand-in, the identity), … -/
example : MonotoneLog { Demo.libm with log10 := fun x => x } := fun _ _ _ h => h

/-- … and with the software `log10`, 1/4 and 1/2 report different loudnesses, in this order. -/
example : Fl.lt (energyToLoudness (Demo.envReal false) (Fl.lit Fmt.b64 1 4))
    (energyToLoudness (Demo.envReal false) (Fl.lit Fmt.b64 1 2)) = true := by decide +kernel

/-- Strictly louder blocks report strictly louder. -/
example : Fl.lt (integrated (Demo.envReal false) [Fl.lit Fmt.b64 1 4, Fl.lit Fmt.b64 1 8])
    (integrated (Demo.envReal false) [Fl.lit Fmt.b64 1 4, Fl.lit Fmt.b64 1 5]) = true := by decide +kernel

end Verif
