import Verif.Proofs.Near
import Verif.Proofs.FloatSum
import Verif.Props.C25_C26
/-!
# Rounding errors of sums of squares, energies and levels
-/

set_option linter.unusedSimpArgs false

namespace Verif
open Spec Fl
variable {φ : Fmt} {m : Libm F64} {bs : BSearch} {t : Target}

/-! ## Finite results have finite operands -/

theorem Fl.not_finite_nan : ¬ (.nan : Fl φ).Finite := by rintro ⟨_, _, _, h, _⟩; cases h

theorem Fl.not_finite_inf (s : Bool) : ¬ (Fl.inf s : Fl φ).Finite := by
  rintro ⟨_, _, _, h, h'⟩
  unfold Fl.inf at h
  injection h with _ h2
  exact h' h2.symm

theorem Fl.finite_num {s : Bool} {k : Nat} {h : k ≤ φ.infK} : (.num s k h : Fl φ).Finite ↔ k ≠ φ.infK := by
  constructor
  · rintro ⟨_, _, _, h, h'⟩
    injection h with _ h2
    rw [h2]; exact h'
  · intro h'
    exact ⟨_, _, _, rfl, h'⟩

theorem Fl.finite_of_add {x y : Fl φ} (h : (Fl.add x y).Finite) : x.Finite ∧ y.Finite := by
  cases x with
  | nan => exact absurd h not_finite_nan
  | num s k hk =>
    cases y with
    | nan => exact absurd h not_finite_nan
    | num s' l hl =>
      unfold Fl.add at h
      simp only at h
      split at h
      · split at h
        · split at h
          · exact absurd h (not_finite_inf _)
          · exact absurd h not_finite_nan
        · exact absurd h (not_finite_inf _)
      · split at h
        · exact absurd h (not_finite_inf _)
        · rename_i h1 h2
          exact ⟨finite_num.2 h1, finite_num.2 h2⟩

theorem Fl.finite_of_mul {x y : Fl φ} (h : (Fl.mul x y).Finite) : x.Finite ∧ y.Finite := by
  cases x with
  | nan => exact absurd h not_finite_nan
  | num s k hk =>
    cases y with
    | nan => exact absurd h not_finite_nan
    | num s' l hl =>
      unfold Fl.mul at h
      simp only at h
      split at h
      · split at h
        · exact absurd h not_finite_nan
        · exact absurd h (not_finite_inf _)
      · split at h
        · split at h
          · exact absurd h not_finite_nan
          · exact absurd h (not_finite_inf _)
        · rename_i h1 h2
          exact ⟨finite_num.2 h1, finite_num.2 h2⟩

theorem Fl.finite_of_div {x y : Fl φ} (hy : y.Finite) (h : (Fl.div x y).Finite) : x.Finite ∧ y.value ≠ 0 := by
  obtain ⟨s', l, hl, rfl, l0⟩ := hy
  cases x with
  | nan => exact absurd h not_finite_nan
  | num s k hk =>
    unfold Fl.div at h
    simp only at h
    rw [if_neg l0] at h
    split at h
    · exact absurd h (not_finite_inf _)
    · split at h
      · split at h
        · exact absurd h not_finite_nan
        · exact absurd h (not_finite_inf _)
      · rename_i h1 h2
        refine ⟨finite_num.2 h1, ?_⟩
        have hp : 0 < φ.mag l := mag_pos_iff.2 (by omega)
        have hpR : (0 : ℝ) < φ.mag l := by exact_mod_cast hp
        have : (0 : ℝ) < (φ.mag l : ℝ) / 2 ^ φ.u := by positivity
        unfold value
        cases s'
        · simpa using hp.ne'
        · simpa using hp.ne'

theorem Fl.Nonneg.value_nonneg {x : Fl φ} (h : x.Nonneg) : 0 ≤ x.value := by
  obtain ⟨k, hk, rfl⟩ := h.out
  unfold value
  simp
  positivity

theorem Fl.mul_self_nonneg {x : Fl φ} (h : (Fl.mul x x).Finite) : (Fl.mul x x).Nonneg := by
  obtain ⟨hx, -⟩ := finite_of_mul h
  rcases Fl.mul_self x with h1 | ⟨k, hk, h1, -⟩
  · rw [h1.1] at h; exact absurd h not_finite_nan
  · rw [h1]; rfl

/-! ## Sums of squares -/

/-- Sum of the squares of the values, in exact arithmetic. -/
noncomputable def sumSqR (l : List (Fl φ)) : ℝ := (l.map fun x => x.value ^ 2).sum

theorem sumSqR_nonneg (l : List (Fl φ)) : 0 ≤ sumSqR l := by
  unfold sumSqR
  apply List.sum_nonneg
  intro x hx
  obtain ⟨y, -, rfl⟩ := List.mem_map.1 hx
  positivity

theorem sumSq_step (hmb : 1 ≤ φ.mb) (l : List (Fl φ)) : ∀ (n : Nat) (h : ℝ) (s : Fl φ) (S : ℝ), 0 ≤ h → 0 ≤ S →
    s.Nonneg → Near φ (n + 1) h s.value S →
    (l.foldl (fun s x => Fl.add s (Fl.mul x x)) s).Finite →
    (l.foldl (fun s x => Fl.add s (Fl.mul x x)) s).Nonneg ∧
    Near φ (n + l.length + 1) (h + 2 * l.length * eta φ) (l.foldl (fun s x => Fl.add s (Fl.mul x x)) s).value
      (S + sumSqR l) := by
  have hfin : ∀ (l : List (Fl φ)) (s : Fl φ), (l.foldl (fun s x => Fl.add s (Fl.mul x x)) s).Finite → s.Finite := by
    intro l
    induction l with
    | nil => intro s h; exact h
    | cons x l ih => intro s h; exact (finite_of_add (ih _ h)).1
  induction l with
  | nil =>
    intro n h s S h0 hS hs hN _
    refine ⟨hs, ?_⟩
    simpa [sumSqR] using hN
  | cons x l ih =>
    intro n h s S h0 hS hs hN hf
    have hf1 := hfin l _ hf
    obtain ⟨hsf, hqf⟩ := finite_of_add hf1
    have hxf := (finite_of_mul hqf).1
    have hq := mul_self_nonneg hqf
    have e0 := (eta_pos φ).le
    have hs' : (Fl.add s (Fl.mul x x)).Nonneg := hs.add hmb hq
    have n1 : Near φ 1 (eta φ) (Fl.mul x x).value (x.value ^ 2) := by
      rw [pow_two]
      exact Near.round hmb hq.value_nonneg (mul_err hmb hxf hxf hqf)
    have n2 : Near φ (n + 1) (h + eta φ) (s.value + (Fl.mul x x).value) (S + x.value ^ 2) :=
      hN.add (n1.mono hmb (by omega) (by linarith) e0 hq.value_nonneg (by positivity))
    have n3 : Near φ 1 (eta φ) (Fl.add s (Fl.mul x x)).value (s.value + (Fl.mul x x).value) :=
      Near.round hmb hs'.value_nonneg (add_err hmb hsf hqf hf1)
    have n4 := n3.trans hmb e0 (by linarith) n2
    have := ih (n + 1) (h + 2 * eta φ) _ (S + x.value ^ 2) (by linarith) (by positivity) hs'
      (by convert n4 using 1 <;> first | omega | ring) hf
    refine ⟨this.1, ?_⟩
    have h2 := this.2
    simp only [List.foldl_cons, List.length_cons]
    convert h2 using 1
    · omega
    · push_cast; ring
    · unfold sumSqR; rw [List.map_cons, List.sum_cons]; ring

theorem sumSq_near (hmb : 1 ≤ φ.mb) (l : List (Fl φ)) (hf : (sumSq (Fl.arith φ) l).Finite) :
    (sumSq (Fl.arith φ) l).Nonneg ∧
    Near φ (l.length + 1) (2 * l.length * eta φ) (sumSq (Fl.arith φ) l).value (sumSqR l) := by
  have h0 : (zero false : Fl φ).Nonneg := rfl
  have hn : Near φ (0 + 1) 0 (zero false : Fl φ).value 0 := by
    rw [value_zero]
    exact (Near.refl 0).mono hmb (by omega) le_rfl le_rfl le_rfl le_rfl
  have := sumSq_step hmb l 0 0 (zero false) 0 le_rfl le_rfl h0 hn hf
  refine ⟨this.1, ?_⟩
  have h2 := this.2
  simp only [Nat.zero_add, _root_.zero_add] at h2
  exact h2

/-! ## Weights -/

theorem lit_near (hmb : 1 ≤ φ.mb) (hu : φ.mb < φ.u) {n d : Nat} (hd : 0 < d) (h1 : d ≤ n) (hf : (Fl.lit φ n d).Finite) :
    Near φ 2 0 (Fl.lit φ n d).value ((n : ℝ) / d) := by
  have he := lit_err hmb hd hf
  have hp : (Fl.lit φ n d).Nonneg := by rw [lit_pos]; rfl
  have hn := (Near.round hmb hp.value_nonneg he)
  have g := one_le_grow hmb
  have gm := grow_mul hmb
  have e0 := eps_pos φ
  have n0 := eta_pos φ
  have hdR : (0 : ℝ) < d := by exact_mod_cast hd
  have hw : (1 : ℝ) ≤ (n : ℝ) / d := by rw [le_div_iff₀ hdR]; exact_mod_cast by omega
  have hee : 2 * eta φ ≤ eps φ := by
    have : (2 : ℝ) ^ (φ.mb + 1) ≤ 2 ^ φ.u := pow_le_pow_right₀ (by norm_num) hu
    rw [pow_succ] at this
    have := one_div_le_one_div_of_le (by positivity) this
    unfold eta eps
    calc 2 * (1 / (2 * (2 : ℝ) ^ φ.u)) = 1 / 2 ^ φ.u := by field_simp
      _ ≤ _ := by rw [mul_comm 2]; exact this
  have h2 : (1 : ℝ) / 2 ≤ (Fl.lit φ n d).value := by
    have hx := hp.value_nonneg
    rw [Int.cast_natCast, abs_of_nonneg hx, abs_le] at he
    have := eps_le hmb
    nlinarith [he.1]
  push_cast at he hn
  generalize (Fl.lit φ n d).value = x at *
  generalize (n : ℝ) / d = w at *
  rw [abs_of_nonneg (a := x) (by linarith), abs_le] at he
  have key : ∀ y z : ℝ, 1 / 2 ≤ y → z ≤ y * (1 + eps φ) + eta φ → z ≤ grow φ ^ 2 * y := by
    intro y z hy hz
    have h1e : 1 + eps φ ≤ grow φ := by
      have := eps_le hmb
      unfold grow
      rw [le_div_iff₀ (by linarith)]
      nlinarith
    have h2e : (1 + eps φ) ^ 2 ≤ grow φ ^ 2 := pow_le_pow_left₀ (by linarith) h1e 2
    have h3e : 1 / 2 * eps φ ≤ y * eps φ := mul_le_mul_of_nonneg_right hy e0.le
    have h4e : 0 ≤ y * (eps φ * eps φ) := by positivity
    calc z ≤ y * (1 + eps φ) + eta φ := hz
      _ ≤ (1 + eps φ) ^ 2 * y := by ring_nf at h4e ⊢; linarith
      _ ≤ _ := mul_le_mul_of_nonneg_right h2e (by linarith)
  constructor
  · rw [add_zero]
    -- `x (1 - eps) ≤ w + eta`
    have hx1 : x * (1 - eps φ) ≤ w + eta φ := by nlinarith
    have : x * (1 - eps φ) ^ 2 ≤ w := by nlinarith [eps_le hmb]
    calc x = (grow φ * (1 - eps φ)) ^ 2 * x := by rw [gm]; ring
      _ = grow φ ^ 2 * (x * (1 - eps φ) ^ 2) := by ring
      _ ≤ _ := mul_le_mul_of_nonneg_left this (by positivity)
  · rw [add_zero]
    exact key x w h2 (by linarith [he.1])

theorem lit_le (hmb : 1 ≤ φ.mb) (hu : φ.mb < φ.u) {n d : Nat} (hd : 0 < d) (h1 : n ≤ 2 * d) (hf : (Fl.lit φ n d).Finite) :
    (Fl.lit φ n d).value ≤ 3 := by
  have he := lit_err hmb hd hf
  have hp : (Fl.lit φ n d).Nonneg := by rw [lit_pos]; rfl
  have hx := hp.value_nonneg
  have hdR : (0 : ℝ) < d := by exact_mod_cast hd
  have hw : (n : ℝ) / d ≤ 2 := by rw [div_le_iff₀ hdR]; exact_mod_cast h1
  have hn : eta φ ≤ 1 / 4 := by
    unfold eta
    apply one_div_le_one_div_of_le (by positivity)
    have : (2 : ℝ) ^ 1 ≤ 2 ^ φ.u := pow_le_pow_right₀ (by norm_num) (by omega)
    linarith
  rw [Int.cast_natCast, abs_of_nonneg hx, abs_le] at he
  have := eps_le hmb
  nlinarith [he.2]

theorem realWeight_eq {ch : Channel} (h : ch ≠ .unused) : realWeight ch = (weight ch).1 / (weight ch).2 := by
  cases ch <;> simp [realWeight, weight, surrounds] at h ⊢ <;> norm_num

theorem realWeight_bound (ch : Channel) : 0 ≤ realWeight ch ∧ realWeight ch ≤ 2 := by
  cases ch <;> simp [realWeight, surrounds] <;> norm_num

theorem weight_bound (ch : Channel) : 0 < (weight ch).2 ∧ (weight ch).2 ≤ (weight ch).1 ∧ (weight ch).1 ≤ 2 * (weight ch).2 := by
  cases ch <;> decide

theorem weighted_near (hmb : 1 ≤ φ.mb) (hu : φ.mb < φ.u) {ch : Channel} (hc : ch ≠ .unused) {n : Nat} {h : ℝ} (h0 : 0 ≤ h)
    {s : Fl φ} {S : ℝ} (hS : 0 ≤ S) (hs : s.Finite → s.Nonneg ∧ Near φ n h s.value S)
    (hf : (weighted (Fl.arith φ) ch s).Finite) :
    (weighted (Fl.arith φ) ch s).Nonneg ∧
      Near φ (n + 3) (3 * h + eta φ) (weighted (Fl.arith φ) ch s).value (realWeight ch * S) := by
  have n0 := (eta_pos φ).le
  rw [realWeight_eq hc]
  obtain ⟨w1, w2, w3⟩ := weight_bound ch
  unfold weighted at hf ⊢
  split at hf
  · rename_i hw
    rw [if_pos hw, hw]
    obtain ⟨h1, h2⟩ := hs hf
    refine ⟨h1, ?_⟩
    simp only [Nat.cast_one, div_one, one_mul]
    exact h2.mono hmb (by omega) (by linarith) h0 h1.value_nonneg hS
  · rename_i hw
    rw [if_neg hw]
    have hf' : (Fl.mul s (Fl.lit φ ((weight ch).1 : Nat) (weight ch).2)).Finite := hf
    show (Fl.mul s (Fl.lit φ ((weight ch).1 : Nat) (weight ch).2)).Nonneg ∧ Near φ (n + 3) (3 * h + eta φ)
      (Fl.mul s (Fl.lit φ ((weight ch).1 : Nat) (weight ch).2)).value _
    obtain ⟨f1, f2⟩ := finite_of_mul hf'
    obtain ⟨h1, h2⟩ := hs f1
    have l1 := lit_near hmb hu w1 w2 f2
    have l2 := lit_le hmb hu w1 w3 f2
    have hl : (Fl.lit φ ((weight ch).1 : Nat) (weight ch).2).Nonneg := by rw [lit_pos]; rfl
    have wR : (0 : ℝ) < (weight ch).2 := by exact_mod_cast w1
    have wb : ((weight ch).1 : ℝ) / (weight ch).2 ≤ 3 := by
      rw [div_le_iff₀ wR]
      have : ((weight ch).1 : ℝ) ≤ 2 * (weight ch).2 := by exact_mod_cast w3
      linarith
    have hm : (Fl.mul s (Fl.lit φ ((weight ch).1 : Nat) (weight ch).2)).Nonneg := by
      obtain ⟨k, hk, e⟩ := h1.out
      obtain ⟨l, hl', e'⟩ := hl.out
      rw [e, e'] at hf' ⊢
      rw [e] at f1
      rw [e'] at f2
      unfold Fl.mul
      simp only
      rw [if_neg (finite_num.1 f1), if_neg (finite_num.1 f2)]
      rfl
    refine ⟨hm, ?_⟩
    have e1 := h2.mul hmb h1.value_nonneg hS h0 hl.value_nonneg (by positivity) l2 wb l1
    have e2 := (Near.round hmb hm.value_nonneg (mul_err hmb f1 f2 hf')).trans hmb n0 (by positivity) e1
    rw [mul_comm (_ / _) S]
    convert e2 using 1
    · omega
    · ring

/-! ## The sum over the channels -/

theorem channels_near (hmb : 1 ≤ φ.mb) (hu : φ.mb < φ.u) {n : Nat} {h : ℝ} (h0 : 0 ≤ h) (f : Nat → Fl φ) (F : Nat → ℝ)
    (hF : ∀ c, 0 ≤ F c) (hf : ∀ c, (f c).Finite → (f c).Nonneg ∧ Near φ n h (f c).value (F c))
    (cm : List (Channel × Nat)) : ∀ (j : Nat) (k : ℝ) (s : Fl φ) (S : ℝ), 0 ≤ k → 0 ≤ S → s.Nonneg →
    Near φ (n + 3 + j) k s.value S →
    (cm.foldl (fun s x => if x.1 = .unused then s else Fl.add s (weighted (Fl.arith φ) x.1 (f x.2))) s).Finite →
    (cm.foldl (fun s x => if x.1 = .unused then s else Fl.add s (weighted (Fl.arith φ) x.1 (f x.2))) s).Nonneg ∧
    Near φ (n + 3 + j + cm.length) (k + cm.length * (3 * h + 2 * eta φ))
      (cm.foldl (fun s x => if x.1 = .unused then s else Fl.add s (weighted (Fl.arith φ) x.1 (f x.2))) s).value
      (S + (cm.map fun x => realWeight x.1 * F x.2).sum) := by
  have n0 := (eta_pos φ).le
  have hfin : ∀ (l : List (Channel × Nat)) (s : Fl φ),
      (l.foldl (fun s x => if x.1 = .unused then s else Fl.add s (weighted (Fl.arith φ) x.1 (f x.2))) s).Finite →
      s.Finite := by
    intro l
    induction l with
    | nil => intro s h; exact h
    | cons x l ih =>
      intro s h
      have := ih _ h
      dsimp only at this
      split at this
      · exact this
      · exact (finite_of_add this).1
  induction cm with
  | nil =>
    intro j k s S k0 hS hs hN _
    refine ⟨hs, ?_⟩
    simpa using hN
  | cons x cm ih =>
    intro j k s S k0 hS hs hN hF'
    have hf1 := hfin cm _ hF'
    dsimp only at hf1
    have hp : 0 ≤ realWeight x.1 * F x.2 := mul_nonneg (realWeight_bound _).1 (hF _)
    rw [List.foldl_cons] at hF' ⊢
    by_cases hc : x.1 = .unused
    · rw [if_pos hc] at hF' ⊢
      have := ih (j + 1) (k + (3 * h + 2 * eta φ)) s S (by linarith) hS hs
        (hN.mono hmb (by omega) (by linarith) k0 hs.value_nonneg hS) hF'
      refine ⟨this.1, ?_⟩
      convert this.2 using 1
      · simp; omega
      · simp; ring
      · have : realWeight x.1 = 0 := by rw [hc]; simp [realWeight]
        simp [this]
    · rw [if_neg hc] at hF' hf1 ⊢
      obtain ⟨f1, f2⟩ := finite_of_add hf1
      obtain ⟨w1, w2⟩ := weighted_near hmb hu hc h0 (hF x.2) (hf x.2) f2
      have hs' : (Fl.add s (weighted (Fl.arith φ) x.1 (f x.2))).Nonneg := hs.add hmb w1
      have a1 := hN.add (w2.mono hmb (m := n + 3 + j) (by omega) le_rfl (by linarith) w1.value_nonneg hp)
      have a2 := (Near.round hmb hs'.value_nonneg (add_err hmb f1 f2 hf1)).trans hmb n0 (by linarith) a1
      have := ih (j + 1) (k + (3 * h + 2 * eta φ)) _ (S + realWeight x.1 * F x.2) (by linarith) (by linarith) hs'
        (by convert a2 using 1 <;> first | omega | ring) hF'
      refine ⟨this.1, ?_⟩
      convert this.2 using 1
      · simp; omega
      · simp; ring
      · simp; ring

/-! ## The energy of a window -/

/-- The exact energy: weighted sum of the mean squares of the values. -/
noncomputable def Spec.power (cm : List Channel) (w : Nat → List F64) : ℝ :=
  (cm.zipIdx.map fun x => realWeight x.1 * meanSquare ((w x.2).map Fl.value)).sum

theorem Spec.power_nonneg (cm : List Channel) (w : Nat → List F64) : 0 ≤ power cm w := by
  apply List.sum_nonneg
  intro x hx
  obtain ⟨y, -, rfl⟩ := List.mem_map.1 hx
  apply mul_nonneg (realWeight_bound _).1
  unfold meanSquare
  apply div_nonneg _ (by positivity)
  apply List.sum_nonneg
  intro x hx
  obtain ⟨y, -, rfl⟩ := List.mem_map.1 hx
  positivity

theorem energy_near (cm : List Channel) {N : Nat} (hN : N ≤ 2 ^ 53) (w : Nat → List F64)
    (hw : ∀ c, (w c).length = N)
    (hf : (Fl.div (channelSum (Fl.arith Fmt.b64) cm fun c => sumSq (Fl.arith Fmt.b64) (w c))
      (Fl.ofInt Fmt.b64 N)).Finite) :
    (Fl.div (channelSum (Fl.arith Fmt.b64) cm fun c => sumSq (Fl.arith Fmt.b64) (w c))
      (Fl.ofInt Fmt.b64 N)).Nonneg ∧
    Near Fmt.b64 (N + cm.length + 5) ((8 * cm.length + 1) * eta Fmt.b64)
      (Fl.div (channelSum (Fl.arith Fmt.b64) cm fun c => sumSq (Fl.arith Fmt.b64) (w c))
        (Fl.ofInt Fmt.b64 N)).value (Spec.power cm w) := by
  have hmb : 1 ≤ Fmt.b64.mb := by decide
  have hu : Fmt.b64.mb < Fmt.b64.u := by decide
  have n0 := (eta_pos Fmt.b64).le
  obtain ⟨v1, v2⟩ := value_ofInt Fmt.ok64 (n := N) (by simpa [Fmt.b64] using hN)
  obtain ⟨f1, f2⟩ := finite_of_div v2 hf
  rw [v1] at f2
  have N0 : (0 : ℝ) < N := lt_of_le_of_ne (by positivity) f2.symm
  have N1 : (1 : ℝ) ≤ N := by
    have : 0 < N := by exact_mod_cast N0
    exact_mod_cast this
  have hz : Near Fmt.b64 (N + 1 + 3 + 0) 0 (zero false : F64).value 0 := by
    rw [value_zero]
    exact (Near.refl 0).mono hmb (by omega) le_rfl le_rfl le_rfl le_rfl
  obtain ⟨c1, c2⟩ := channels_near hmb hu (n := N + 1) (h := 2 * N * eta Fmt.b64) (by positivity)
    (fun c => sumSq (Fl.arith Fmt.b64) (w c)) (fun c => sumSqR (w c)) (fun c => sumSqR_nonneg _)
    (fun c hc => by
      have := sumSq_near hmb (w c) hc
      rw [hw c] at this
      exact this) cm.zipIdx 0 0 (zero false) 0 le_rfl le_rfl rfl hz f1
  have hd := (Near.scale (c := 1 / N) (by positivity) c2)
  rw [_root_.zero_add, _root_.zero_add, List.length_zipIdx] at hd
  have hdn : (Fl.div (channelSum (Fl.arith Fmt.b64) cm fun c => sumSq (Fl.arith Fmt.b64) (w c))
      (Fl.ofInt Fmt.b64 N)).Nonneg := by
    obtain ⟨k, hk, e⟩ := c1.out
    have e : channelSum (Fl.arith Fmt.b64) cm (fun c => sumSq (Fl.arith Fmt.b64) (w c)) = .num false k hk := e
    rw [e] at hf f1 ⊢
    rw [ofInt_pos] at hf v1 v2 ⊢
    have l0 := finite_num.1 v2
    have l1 : Fmt.b64.rnd (N * 2 ^ Fmt.b64.u) 1 ≠ 0 := by
      intro h0
      rw [value_num, h0] at v1
      have : smag Fmt.b64 false 0 = 0 := by decide
      rw [this] at v1
      simp at v1
      linarith
    show (if _ then _ else if _ then _ else if _ then _ else _ : F64).Nonneg
    rw [if_neg (finite_num.1 f1), if_neg l0, if_neg l1]
    rfl
  refine ⟨hdn, ?_⟩
  have he := div_err hmb f1 v2 (by rw [v1]; exact f2) hf
  rw [v1] at he
  have r := (Near.round hmb hdn.value_nonneg he)
  have hd' : Near Fmt.b64 (N + 1 + 3 + 0 + cm.length) (8 * cm.length * eta Fmt.b64)
      ((channelSum (Fl.arith Fmt.b64) cm fun c => sumSq (Fl.arith Fmt.b64) (w c)).value / N) (Spec.power cm w) := by
    have e1 : Spec.power cm w = 1 / N * (List.map (fun x => realWeight x.1 * sumSqR (w x.2)) cm.zipIdx).sum := by
      unfold Spec.power
      rw [← List.sum_map_mul_left]
      congr 1
      apply List.map_congr_left
      intro x _
      unfold meanSquare sumSqR
      rw [List.length_map, hw, List.map_map]
      show realWeight x.1 * ((List.map (fun x => x.value ^ 2) (w x.2)).sum / N) = _
      ring
    rw [e1, div_eq_mul_one_div, _root_.mul_comm _ (1 / (N : ℝ))]
    refine hd.mono hmb le_rfl ?_ (by positivity) (mul_nonneg (by positivity) (Nonneg.value_nonneg c1))
      (by rw [← e1]; exact Spec.power_nonneg _ _)
    have hc0 : (0 : ℝ) ≤ cm.length := by positivity
    rw [one_div, inv_mul_le_iff₀ N0]
    have : cm.length * eta Fmt.b64 ≤ N * (cm.length * eta Fmt.b64) :=
      le_mul_of_one_le_left (by positivity) N1
    nlinarith
  have := r.trans hmb n0 (by positivity) hd'
  convert this using 1
  · omega
  · ring

/-! ## No overflow -/

theorem b64_ok : 1 ≤ Fmt.b64.mb ∧ Fmt.b64.mb < Fmt.b64.u := by decide

theorem big_le {a b : Nat} (h : a ≤ b) : (2 : ℝ) ^ a ≤ 2 ^ b := pow_le_pow_right₀ (by norm_num) h

theorem top64 : 2 ^ 250 ≤ top Fmt.b64 := by
  have : top Fmt.b64 = 2 ^ 1023 := by
    show 2 * 2 ^ 52 * 2 ^ (2046 - 2) / 2 ^ 1074 = (2 : ℝ) ^ 1023
    rw [div_eq_iff (by positivity), ← pow_add, show (2 : ℝ) * 2 ^ 52 = 2 ^ 53 by norm_num, ← pow_add]
  rw [this]
  exact big_le (by norm_num)

theorem eta64_eq : eta Fmt.b64 = 1 / 2 ^ 1075 := by
  show 1 / (2 * (2 : ℝ) ^ 1074) = _
  rw [← pow_succ']

theorem eta64 : eta Fmt.b64 ≤ 1 / 2 ^ 200 := by
  rw [eta64_eq]
  exact one_div_le_one_div_of_le (by positivity) (big_le (by norm_num))

theorem eps64 : eps Fmt.b64 = 1 / 2 ^ 53 := by
  show 1 / (2 * (2 : ℝ) ^ 52) = _
  norm_num

theorem grow64 {n : Nat} (hn : n ≤ 2 ^ 52) : grow Fmt.b64 ^ n ≤ 2 := by
  have hnR : (n : ℝ) ≤ (2 : ℝ) ^ 52 := by exact_mod_cast hn
  have := grow_pow_le b64_ok.1 (n := n) (by rw [eps64]; linarith)
  rw [eps64] at this
  linarith

/-- Small enough that no sum over a window overflows. -/
def Spec.Tame (x : F64) : Prop := x.Finite ∧ |x.value| ≤ 2 ^ 64

theorem Spec.Tame.sq {x : F64} (h : Tame x) : x.value ^ 2 ≤ 2 ^ 128 := by
  have h1 := h.2
  rw [← sq_abs]
  calc |x.value| ^ 2 ≤ (2 ^ 64) ^ 2 := pow_le_pow_left₀ (abs_nonneg _) h1 2
    _ = 2 ^ 128 := by rw [← pow_mul]

theorem sumSqR_le (l : List F64) (h : ∀ x ∈ l, Tame x) : sumSqR l ≤ l.length * 2 ^ 128 := by
  induction l with
  | nil => simp [sumSqR]
  | cons x l ih =>
    have h1 := (h x (by simp)).sq
    have h2 := ih fun y hy => h y (by simp [hy])
    unfold sumSqR at h2 ⊢
    simp only [List.map_cons, List.sum_cons, List.length_cons]
    push_cast
    linarith

theorem sumSq_finite (l : List F64) (hl : l.length ≤ 2 ^ 50) (h : ∀ x ∈ l, Tame x) :
    (sumSq (Fl.arith Fmt.b64) l).Finite := by
  induction l using List.reverseRecOn with
  | nil => exact ⟨false, 0, Nat.zero_le _, rfl, by decide⟩
  | append_singleton l x ih =>
    rw [List.length_append] at hl
    have hl' : l.length + 1 ≤ 2 ^ 50 := by simpa using hl
    have hf := ih (by omega) fun y hy => h y (by simp [hy])
    have hx := h x (by simp)
    obtain ⟨n1, n2⟩ := sumSq_near b64_ok.1 l hf
    have e : sumSq (Fl.arith Fmt.b64) (l ++ [x]) = Fl.add (sumSq (Fl.arith Fmt.b64) l) (Fl.mul x x) := by
      unfold sumSq
      rw [List.foldl_append]
      rfl
    rw [e]
    have sq := hx.sq
    have q0 : 0 ≤ x.value ^ 2 := by positivity
    have qf : (Fl.mul x x).Finite := by
      refine mul_finite Fmt.ok64 hx.1 hx.1 ?_
      refine _root_.le_trans ?_ top64
      rw [← pow_two, abs_of_nonneg q0]
      linarith
    have q1 := (Near.round b64_ok.1 (mul_self_nonneg qf).value_nonneg (mul_err b64_ok.1 hx.1 hx.1 qf)).1
    have g1 := grow64 (n := 1) (by norm_num)
    have g2 := grow64 (n := l.length + 1) (by omega)
    have e0 := (eta_pos Fmt.b64).le
    have e1 := eta64
    have q2 : (Fl.mul x x).value ≤ 2 * (x.value ^ 2 + 1) := by
      rw [← pow_two] at q1
      calc _ ≤ _ := q1
        _ ≤ 2 * (x.value ^ 2 + eta Fmt.b64) := mul_le_mul_of_nonneg_right g1 (by linarith)
        _ ≤ _ := by linarith
    have lR : (l.length : ℝ) ≤ 2 ^ 50 := by
      have : l.length ≤ 2 ^ 50 := by omega
      exact_mod_cast this
    have s1 : sumSqR l ≤ 2 ^ 178 := by
      have := sumSqR_le l fun y hy => h y (by simp [hy])
      have h2 : (l.length : ℝ) * 2 ^ 128 ≤ 2 ^ 50 * 2 ^ 128 := mul_le_mul_of_nonneg_right lR (by positivity)
      linarith
    have s0 := sumSqR_nonneg l
    have s2 : (sumSq (Fl.arith Fmt.b64) l).value ≤ 2 * (2 ^ 178 + 2 * 2 ^ 50) := by
      have hh : 2 * (l.length : ℝ) * eta Fmt.b64 ≤ 2 * 2 ^ 50 := by
        have : (l.length : ℝ) * eta Fmt.b64 ≤ 2 ^ 50 * 1 := mul_le_mul lR (by linarith) e0 (by positivity)
        linarith
      calc _ ≤ _ := n2.1
        _ ≤ 2 * (sumSqR l + 2 * l.length * eta Fmt.b64) := mul_le_mul_of_nonneg_right g2 (by positivity)
        _ ≤ _ := by linarith
    refine add_finite Fmt.ok64 hf qf ?_
    have v1 := n1.value_nonneg
    have v2 := (mul_self_nonneg qf).value_nonneg
    refine _root_.le_trans ?_ top64
    rw [abs_of_nonneg (by linarith)]
    linarith

theorem channels_value (f : Nat → F64) {n : Nat} (hn : n ≤ 2 ^ 50) (F : Nat → ℝ)
    (hF : ∀ c, 0 ≤ F c ∧ F c ≤ 2 ^ 178) (hN : ∀ c, (f c).Nonneg ∧ Near Fmt.b64 n 1 (f c).value (F c))
    (cm : List (Channel × Nat)) (hc : cm.length ≤ 2 ^ 50)
    (i1 : (cm.foldl (fun s x => if x.1 = .unused then s else Fl.add s (weighted (Fl.arith Fmt.b64) x.1 (f x.2)))
      (zero false)).Finite) :
    (cm.foldl (fun s x => if x.1 = .unused then s else Fl.add s (weighted (Fl.arith Fmt.b64) x.1 (f x.2)))
      (zero false)).value ≤ 2 * (2 * 2 ^ 228 + 5 * 2 ^ 50) := by
  have hmb := b64_ok.1
  have hu := b64_ok.2
  have e0 := (eta_pos Fmt.b64).le
  have e1 := eta64
  have hz : Near Fmt.b64 (n + 3 + 0) 0 (zero false : F64).value 0 := by
    rw [value_zero]
    exact (Near.refl 0).mono hmb (by omega) le_rfl le_rfl le_rfl le_rfl
  have g3 := grow64 (n := n + 3 + 0 + cm.length) (by omega)
  obtain ⟨c1, c2⟩ := channels_near hmb hu zero_le_one f F (fun c => (hF c).1) (fun c _ => hN c) cm 0 0
    (zero false) 0 le_rfl le_rfl rfl hz i1
  have cR : (cm.length : ℝ) ≤ 2 ^ 50 := by
    have : cm.length ≤ 2 ^ 50 := by omega
    exact_mod_cast this
  have hsum : (cm.map fun x => realWeight x.1 * F x.2).sum ≤ cm.length * (2 * 2 ^ 178) := by
    have := List.sum_le_card_nsmul (cm.map fun x => realWeight x.1 * F x.2) (2 * 2 ^ 178) (by
      intro v hv
      obtain ⟨y, -, rfl⟩ := List.mem_map.1 hv
      exact mul_le_mul (realWeight_bound y.1).2 (hF y.2).2 (hF y.2).1 (by norm_num))
    rw [List.length_map, nsmul_eq_mul] at this
    exact this
  have hsum0 : 0 ≤ (cm.map fun x => realWeight x.1 * F x.2).sum := by
    apply List.sum_nonneg
    intro v hv
    obtain ⟨y, -, rfl⟩ := List.mem_map.1 hv
    exact mul_nonneg (realWeight_bound y.1).1 (hF y.2).1
  have sv := c2.1
  rw [_root_.zero_add, _root_.zero_add] at sv
  have h1 : (cm.length : ℝ) * (2 * 2 ^ 178) ≤ 2 ^ 50 * (2 * 2 ^ 178) :=
    mul_le_mul_of_nonneg_right cR (by positivity)
  have h2 : (cm.length : ℝ) * (3 * 1 + 2 * eta Fmt.b64) ≤ 2 ^ 50 * 5 :=
    mul_le_mul cR (by linarith) (by linarith) (by positivity)
  have h3 : (0 : ℝ) ≤ (cm.length : ℝ) * (3 * 1 + 2 * eta Fmt.b64) := by positivity
  calc _ ≤ _ := sv
    _ ≤ 2 * _ := mul_le_mul_of_nonneg_right g3 (by linarith)
    _ ≤ _ := by linarith

theorem channels_finite (f : Nat → F64) {n : Nat} (hn : n ≤ 2 ^ 50) (hf : ∀ c, (f c).Finite) (F : Nat → ℝ)
    (hF : ∀ c, 0 ≤ F c ∧ F c ≤ 2 ^ 178) (hN : ∀ c, (f c).Nonneg ∧ Near Fmt.b64 n 1 (f c).value (F c))
    (cm : List (Channel × Nat)) (hc : cm.length ≤ 2 ^ 50) :
    (cm.foldl (fun s x => if x.1 = .unused then s else Fl.add s (weighted (Fl.arith Fmt.b64) x.1 (f x.2)))
      (zero false)).Finite := by
  have hmb := b64_ok.1
  have hu := b64_ok.2
  have hz : Near Fmt.b64 (n + 3 + 0) 0 (zero false : F64).value 0 := by
    rw [value_zero]
    exact (Near.refl 0).mono hmb (by omega) le_rfl le_rfl le_rfl le_rfl
  induction cm using List.reverseRecOn with
  | nil => exact ⟨false, 0, Nat.zero_le _, rfl, by decide⟩
  | append_singleton cm x ih =>
    rw [List.length_append] at hc
    have hc' : cm.length + 1 ≤ 2 ^ 50 := by simpa using hc
    have i1 := ih (by omega)
    obtain ⟨c1, c2⟩ := channels_near hmb hu zero_le_one f F (fun c => (hF c).1) (fun c _ => hN c) cm 0 0
      (zero false) 0 le_rfl le_rfl rfl hz i1
    rw [List.foldl_append, List.foldl_cons, List.foldl_nil]
    split
    · exact i1
    · rename_i hu'
      have e0 := (eta_pos Fmt.b64).le
      have e1 := eta64
      have g1 := grow64 (n := n) (by omega)
      have g2 := grow64 (n := n + 3) (by omega)
      have g3 := grow64 (n := n + 3 + 0 + cm.length) (by omega)
      have hv : (f x.2).value ≤ 2 * (2 ^ 178 + 1) := by
        calc _ ≤ _ := (hN x.2).2.1
          _ ≤ 2 * (F x.2 + 1) := mul_le_mul_of_nonneg_right g1 (by linarith [(hF x.2).1])
          _ ≤ _ := by linarith [(hF x.2).2]
      have wf : (weighted (Fl.arith Fmt.b64) x.1 (f x.2)).Finite := by
        unfold weighted
        split
        · exact hf _
        · obtain ⟨w1, w2, w3⟩ := weight_bound x.1
          have lf : (Fl.lit Fmt.b64 ((weight x.1).1 : Nat) (weight x.1).2).Finite := by
            refine lit_finite Fmt.ok64 w1 ?_
            have h1 : ((weight x.1).1 : ℝ) ≤ 2 * (weight x.1).2 := by exact_mod_cast w3
            have h2 : (2 : ℝ) ≤ top Fmt.b64 := _root_.le_trans (by norm_num) top64
            have h3 : (0 : ℝ) ≤ (weight x.1).2 := by positivity
            nlinarith
          have ll := lit_le hmb hu w1 w3 lf
          have ln : (Fl.lit Fmt.b64 ((weight x.1).1 : Nat) (weight x.1).2).Nonneg := by rw [lit_pos]; rfl
          show (Fl.mul (f x.2) (Fl.lit Fmt.b64 ((weight x.1).1 : Nat) (weight x.1).2)).Finite
          refine mul_finite Fmt.ok64 (hf _) lf ?_
          refine _root_.le_trans ?_ top64
          rw [abs_of_nonneg (mul_nonneg (hN x.2).1.value_nonneg ln.value_nonneg)]
          calc _ ≤ (2 * (2 ^ 178 + 1)) * (3 : ℝ) := mul_le_mul hv ll ln.value_nonneg (by positivity)
            _ ≤ _ := by
              linarith
      obtain ⟨w1, w2⟩ := weighted_near hmb hu hu' zero_le_one (hF x.2).1 (fun _ => hN x.2) wf
      have wv : (weighted (Fl.arith Fmt.b64) x.1 (f x.2)).value ≤ 2 * (2 * 2 ^ 178 + 4) := by
        have := realWeight_bound x.1
        have : realWeight x.1 * F x.2 ≤ 2 * 2 ^ 178 := mul_le_mul this.2 (hF x.2).2 (hF x.2).1 (by norm_num)
        have h0 : 0 ≤ realWeight x.1 * F x.2 := mul_nonneg (realWeight_bound x.1).1 (hF x.2).1
        calc _ ≤ _ := w2.1
          _ ≤ 2 * (realWeight x.1 * F x.2 + (3 * 1 + eta Fmt.b64)) :=
            mul_le_mul_of_nonneg_right g2 (by linarith)
          _ ≤ _ := by linarith
      have sv' := channels_value f hn F hF hN cm (by omega) i1
      refine add_finite Fmt.ok64 i1 wf ?_
      have v1 := c1.value_nonneg
      have v2 := w1.value_nonneg
      refine _root_.le_trans ?_ top64
      rw [abs_of_nonneg (add_nonneg v1 v2)]
      linarith

theorem energy_finite (cm : List Channel) (hc : cm.length ≤ 2 ^ 50) {N : Nat} (h0 : 0 < N) (hN : N ≤ 2 ^ 49)
    (w : Nat → List F64) (hw : ∀ c, (w c).length = N) (ht : ∀ c, ∀ x ∈ w c, Tame x) :
    (Fl.div (channelSum (Fl.arith Fmt.b64) cm fun c => sumSq (Fl.arith Fmt.b64) (w c))
      (Fl.ofInt Fmt.b64 N)).Finite := by
  have hmb := b64_ok.1
  have e0 := (eta_pos Fmt.b64).le
  have e1 := eta64
  have NR : (N : ℝ) ≤ 2 ^ 49 := by exact_mod_cast hN
  have N1 : (1 : ℝ) ≤ N := by exact_mod_cast h0
  obtain ⟨v1, v2⟩ := value_ofInt Fmt.ok64 (n := N) (by
    show N ≤ 2 * 2 ^ 52
    omega)
  have sf : ∀ c, (sumSq (Fl.arith Fmt.b64) (w c)).Finite := fun c =>
    sumSq_finite _ (by rw [hw]; omega) (ht c)
  have sn : ∀ c, (sumSq (Fl.arith Fmt.b64) (w c)).Nonneg ∧
      Near Fmt.b64 (N + 1) 1 (sumSq (Fl.arith Fmt.b64) (w c)).value (sumSqR (w c)) := by
    intro c
    obtain ⟨h1, h2⟩ := sumSq_near hmb (w c) (sf c)
    rw [hw] at h2
    refine ⟨h1, h2.mono hmb le_rfl ?_ (by positivity) h1.value_nonneg (sumSqR_nonneg _)⟩
    have : (N : ℝ) * eta Fmt.b64 ≤ 2 ^ 49 * (1 / 2 ^ 200) := mul_le_mul NR e1 e0 (by positivity)
    linarith
  have sF : ∀ c, 0 ≤ sumSqR (w c) ∧ sumSqR (w c) ≤ 2 ^ 178 := by
    intro c
    refine ⟨sumSqR_nonneg _, ?_⟩
    have := sumSqR_le _ (ht c)
    rw [hw] at this
    have h2 : (N : ℝ) * 2 ^ 128 ≤ 2 ^ 49 * 2 ^ 128 := mul_le_mul_of_nonneg_right NR (by positivity)
    linarith
  have hz : Near Fmt.b64 (N + 1 + 3 + 0) 0 (zero false : F64).value 0 := by
    rw [value_zero]
    exact (Near.refl 0).mono hmb (by omega) le_rfl le_rfl le_rfl le_rfl
  have cf := channels_finite (fun c => sumSq (Fl.arith Fmt.b64) (w c)) (n := N + 1) (by omega) sf _ sF sn
    cm.zipIdx (by rw [List.length_zipIdx]; exact hc)
  have cv := channels_value (fun c => sumSq (Fl.arith Fmt.b64) (w c)) (n := N + 1) (by omega) _ sF sn
    cm.zipIdx (by rw [List.length_zipIdx]; exact hc) cf
  have cn := (channels_near hmb b64_ok.2 zero_le_one (fun c => sumSq (Fl.arith Fmt.b64) (w c)) _
    (fun c => (sF c).1) (fun c _ => sn c) cm.zipIdx 0 0 (zero false) 0 le_rfl le_rfl rfl hz cf).1.value_nonneg
  refine div_finite Fmt.ok64 cf v2 (by rw [v1]; linarith) ?_
  refine _root_.le_trans ?_ top64
  rw [v1]
  unfold channelSum
  show |(cm.zipIdx.foldl (fun s x => if x.1 = .unused then s else Fl.add s (weighted (Fl.arith Fmt.b64) x.1
    (sumSq (Fl.arith Fmt.b64) (w x.2)))) (zero false)).value / N| ≤ 2 ^ 250
  rw [abs_of_nonneg (div_nonneg cn (by linarith)), div_le_iff₀ (by linarith)]
  linarith
