import Verif.Model.Examples
import Verif.Proofs.Convert
import Verif.Proofs.FloatMono
/-!
# The sample arithmetic of `examples/normalize.rs`

Order properties of the conversion to `f32`, the gain, the clamp and the conversion back.
-/

set_option linter.unnecessarySeqFocus false

namespace Verif.Examples
open Verif.Fl

theorem ok32 : Fmt.b32.Ok := Fmt.ok32
theorem mb32 : 1 ≤ Fmt.b32.mb := Fmt.ok32.mb

theorem full_eq : Fl.ofInt Fmt.b32 32767 = Fl.lit Fmt.b32 ((32767 : Nat) : Int) 1 := rfl

theorem sampleOf_eq (s : Int16) : sampleOf s = .num (decide (s.toInt < 0))
    (Fmt.b32.rnd (s.toInt.natAbs * 2 ^ Fmt.b32.u) 32767) (Fmt.b32.rnd_le_infK ..) := by
  unfold sampleOf
  rw [full_eq]
  refine ofInt_div ok32 ?_ (by omega) (by decide)
  have h1 := s.toInt_lt
  have h2 := s.le_toInt
  have : 2 * 2 ^ Fmt.b32.mb = 16777216 := by decide
  omega

theorem sampleOf_notNan (s : Int16) : (sampleOf s).isNan = false := by rw [sampleOf_eq]; rfl

theorem sample_key_pos {n : Nat} (h : n ≠ 0) : Fmt.b32.rnd (n * 2 ^ Fmt.b32.u) 32767 ≠ 0 := by
  have h1 : 1 ≤ Fmt.b32.rnd (n * 2 ^ Fmt.b32.u) 32767 := by
    apply Fmt.le_rnd _ mb32 (by omega) (by decide)
    have h2 : Fmt.b32.mag 1 * 32767 ≤ 2 ^ Fmt.b32.u := by decide
    calc _ ≤ 2 ^ Fmt.b32.u := h2
      _ ≤ n * 2 ^ Fmt.b32.u := Nat.le_mul_of_pos_left _ (by omega)
  omega

theorem sample_key_fin {n : Nat} (h : n ≤ 32768) : Fmt.b32.rnd (n * 2 ^ Fmt.b32.u) 32767 ≠ Fmt.b32.infK := by
  have h1 : Fmt.b32.rnd (n * 2 ^ Fmt.b32.u) 32767 ≤ Fmt.b32.rnd (32768 * 2 ^ Fmt.b32.u) 32767 :=
    Fmt.rnd_mono _ mb32 (by omega) (by omega) (Nat.mul_le_mul_right _ (Nat.mul_le_mul_right _ h))
  have h2 : Fmt.b32.rnd (32768 * 2 ^ Fmt.b32.u) 32767 < Fmt.b32.infK := by decide +kernel
  omega

theorem natAbs_le (s : Int16) : s.toInt.natAbs ≤ 32768 := by
  have h1 := s.toInt_lt
  have h2 := s.le_toInt
  omega

theorem sampleOf_mono {s s' : Int16} (h : s.toInt ≤ s'.toInt) : le (sampleOf s) (sampleOf s') = true := by
  have key : ∀ {a b : Nat}, a ≤ b → Fmt.b32.rnd (a * 2 ^ Fmt.b32.u) 32767 ≤ Fmt.b32.rnd (b * 2 ^ Fmt.b32.u) 32767 :=
    fun {a b} hab => Fmt.rnd_mono _ mb32 (by omega) (by omega) (Nat.mul_le_mul_right _ (Nat.mul_le_mul_right _ hab))
  rw [sampleOf_eq, sampleOf_eq, le_num, decide_eq_true_eq]
  unfold skey
  by_cases h1 : s.toInt < 0 <;> by_cases h2 : s'.toInt < 0 <;>
    simp only [h1, h2, decide_true, decide_false, if_true, if_false, Bool.false_eq_true]
  · have := key (a := s'.toInt.natAbs) (b := s.toInt.natAbs) (by omega); omega
  · omega
  · omega
  · have := key (a := s.toInt.natAbs) (b := s'.toInt.natAbs) (by omega); omega

/-! ## The clamp and the way back -/

def one (s : Bool) : F32 := .num s 1065353216 (by decide)

theorem lit_one : Fl.lit Fmt.b32 1 1 = one false := by decide +kernel
theorem lit_neg_one : Fl.lit Fmt.b32 (-1) 1 = one true := by decide +kernel

theorem clamp_eq (x : F32) : clamp x = if lt x (one true) then one true else if lt (one false) x then one false else x := by
  unfold clamp
  simp only [lit_one, lit_neg_one]
  split
  · rfl
  · rfl

theorem clamp_range {x : F32} (hx : x.isNan = false) :
    (clamp x).isNan = false ∧ le (one true) (clamp x) = true ∧ le (clamp x) (one false) = true := by
  rw [clamp_eq]
  have h0 : (one true).isNan = false := rfl
  have h1 : (one false).isNan = false := rfl
  split
  · exact ⟨rfl, rfl, rfl⟩
  · next h =>
    split
    · exact ⟨rfl, rfl, rfl⟩
    · next h' =>
      rw [Bool.not_eq_true] at h h'
      exact ⟨hx, (Fl.not_lt hx h0).1 h, (Fl.not_lt h1 hx).1 h'⟩

theorem clamp_mono {x y : F32} (hx : x.isNan = false) (hy : y.isNan = false) (h : le x y = true) :
    le (clamp x) (clamp y) = true := by
  obtain ⟨c1, c2, c3⟩ := clamp_range hx
  obtain ⟨d1, d2, d3⟩ := clamp_range hy
  have h0 : (one true).isNan = false := rfl
  have h1 : (one false).isNan = false := rfl
  by_cases hl : lt x (one true) = true
  · rw [clamp_eq x, if_pos hl]; exact d2
  by_cases hg : lt (one false) y = true
  · have : lt y (one true) = false := by
      rw [Fl.not_lt hy h0]
      exact Fl.le_trans (y := one false) rfl (Fl.le_of_lt hg)
    rw [clamp_eq y, this, if_pos hg]; exact c3
  rw [Bool.not_eq_true] at hl hg
  have hyx := (Fl.not_lt hx h0).1 hl
  have hxy := (Fl.not_lt h1 hy).1 hg
  have k1 : lt y (one true) = false := (Fl.not_lt hy h0).2 (Fl.le_trans hyx h)
  have k2 : lt (one false) x = false := (Fl.not_lt h1 hx).2 (Fl.le_trans h hxy)
  rw [clamp_eq, clamp_eq, hl, hg, k1, k2]
  exact h

def full (s : Bool) : F32 := .num s 1191181824 (by decide)

theorem full_lit : Fl.ofInt Fmt.b32 32767 = full false := by decide +kernel

theorem mul_full_mono {x y : F32} (h : le x y = true) :
    le (mul x (full false)) (mul y (full false)) = true := by
  rw [Fl.mul_comm x, Fl.mul_comm y]
  exact Fl.mul_mono mb32 (by decide) (by decide) h

theorem one_full (s : Bool) : mul (one s) (full false) = full s := by cases s <;> decide +kernel

theorem toI16_num (s : Bool) (k : Nat) (hk : k ≤ Fmt.b32.infK) : toI16 (.num s k hk) =
    if k = Fmt.b32.infK then (if s then -32768 else 32767)
    else max (-32768) (min 32767 (Int.tdiv (Fl.smag Fmt.b32 s k) (2 ^ Fmt.b32.u))) := rfl

theorem toI16_mono {x y : F32} (h : le x y = true) : toI16 x ≤ toI16 y := by
  have hb : ∀ z, -32768 ≤ toI16 z ∧ toI16 z ≤ 32767 := by
    intro z
    cases z with
    | nan => exact ⟨by decide, by decide⟩
    | num s k hk =>
      rw [toI16_num]
      by_cases hi : k = Fmt.b32.infK
      · rw [if_pos hi]; cases s <;> decide
      · rw [if_neg hi]; omega
  cases x with
  | nan => simp [le] at h
  | num s k hk =>
  cases y with
  | nan => simp [le] at h
  | num t l hl =>
    by_cases h1 : k = Fmt.b32.infK ∧ s = true
    · have : toI16 (.num s k hk) = -32768 := by simp [toI16, h1]
      rw [this]; exact (hb _).1
    by_cases h2 : l = Fmt.b32.infK ∧ t = false
    · have : toI16 (.num t l hl) = 32767 := by simp [toI16, h2]
      rw [this]; exact (hb _).2
    rw [le_num, decide_eq_true_eq] at h
    have hm := Fl.smag_mono (φ := Fmt.b32) h
    have hp := infK_pos Fmt.b32
    have hk1 : k ≠ Fmt.b32.infK := by
      rintro rfl
      unfold skey at h
      cases s <;> cases t <;> simp_all <;> omega
    have hl1 : l ≠ Fmt.b32.infK := by
      rintro rfl
      unfold skey at h
      cases s <;> cases t <;> simp_all <;> omega
    rw [toI16_num, toI16_num, if_neg hk1, if_neg hl1]
    have := Int.tdiv_le_tdiv (c := (2 ^ Fmt.b32.u : Int)) (by positivity) hm
    omega

theorem toI16_full (s : Bool) : toI16 (full s) = if s then -32767 else 32767 := by cases s <;> decide +kernel

/-- The part after the multiplication by the gain. -/
def finish (x : F32) : Int := toI16 (mul (clamp x) (Fl.ofInt Fmt.b32 32767))

theorem finish_mono {x y : F32} (hx : x.isNan = false) (hy : y.isNan = false) (h : le x y = true) :
    finish x ≤ finish y := by
  unfold finish
  rw [full_lit]
  exact toI16_mono (mul_full_mono (clamp_mono hx hy h))

theorem finish_range (x : F32) : -32767 ≤ finish x ∧ finish x ≤ 32767 := by
  unfold finish
  rw [full_lit]
  cases hx : x.isNan with
  | true =>
    rw [Fl.isNan_iff.1 hx]
    have : toI16 (mul (clamp (.nan : F32)) (full false)) = 0 := by decide +kernel
    omega
  | false =>
    obtain ⟨-, c2, c3⟩ := clamp_range hx
    have h1 := toI16_mono (mul_full_mono c2)
    have h2 := toI16_mono (mul_full_mono c3)
    rw [one_full, toI16_full] at h1 h2
    exact ⟨h1, h2⟩

theorem scale_eq (g : F32) (s : Int16) : scale g s = finish (mul (sampleOf s) g) := rfl

theorem finish_nan : finish .nan = 0 := by decide +kernel
theorem finish_zero (s : Bool) : finish (zero s) = 0 := by cases s <;> decide +kernel
theorem finish_inf (s : Bool) : finish (inf s) = if s then -32767 else 32767 := by cases s <;> decide +kernel

/-- A sample times infinity. -/
theorem scale_inf (s : Int16) : scale (inf false) s =
    if s.toInt < 0 then -32767 else if s.toInt = 0 then 0 else 32767 := by
  rw [scale_eq, sampleOf_eq]
  by_cases h0 : s.toInt = 0
  · have : mul (.num (decide (s.toInt < 0)) (Fmt.b32.rnd (s.toInt.natAbs * 2 ^ Fmt.b32.u) 32767)
        (Fmt.b32.rnd_le_infK ..)) (inf false) = .nan := by
      rw [h0]; decide +kernel
    rw [this, finish_nan]
    simp [h0]
  · have hk := sample_key_pos (n := s.toInt.natAbs) (by omega)
    have hm : mul (.num (decide (s.toInt < 0)) (Fmt.b32.rnd (s.toInt.natAbs * 2 ^ Fmt.b32.u) 32767)
        (Fmt.b32.rnd_le_infK ..)) (inf false) = inf (decide (s.toInt < 0)) := by
      have hf := sample_key_fin (natAbs_le s)
      simp [mul, inf, hk, hf]
    rw [hm, finish_inf]
    by_cases hn : s.toInt < 0 <;> simp [hn, h0]

theorem scale_zero_gain (b : Bool) (s : Int16) : scale (zero b) s = 0 := by
  rw [scale_eq, sampleOf_eq]
  have hf := sample_key_fin (natAbs_le s)
  have hz : (0 : Nat) ≠ Fmt.b32.infK := by decide
  have : ∃ t, mul (.num (decide (s.toInt < 0)) (Fmt.b32.rnd (s.toInt.natAbs * 2 ^ Fmt.b32.u) 32767)
        (Fmt.b32.rnd_le_infK ..)) (zero b : F32) = zero t := by
    refine ⟨decide (s.toInt < 0) ^^ b, ?_⟩
    simp only [mul, zero, if_neg hf, if_neg hz, Fmt.mag_zero, Nat.mul_zero, ofMag]
    exact ext_num rfl (Fmt.rnd_zero _ mb32 (Nat.two_pow_pos _))
  obtain ⟨t, ht⟩ := this
  rw [ht, finish_zero]

theorem mul_notNan {x : F32} (hx : x.isNan = false) (hx' : ∀ s, x ≠ inf s) {c : Nat} {hc : c ≤ Fmt.b32.infK}
    (c1 : c ≠ Fmt.b32.infK) : (mul x (.num false c hc)).isNan = false := by
  obtain ⟨s, k, hk, rfl⟩ := num_of_not_nan hx
  have : k ≠ Fmt.b32.infK := by rintro rfl; exact hx' s rfl
  simp [mul, this, c1, ofMag, isNan]

theorem sampleOf_fin (s : Int16) (b : Bool) : sampleOf s ≠ inf b := by
  rw [sampleOf_eq]
  intro h
  simp only [inf, Fl.num.injEq] at h
  exact sample_key_fin (natAbs_le s) h.2

/-- Louder in, louder out, for every gain that is not negative. -/
theorem scale_mono {c : Nat} {hc : c ≤ Fmt.b32.infK} {s s' : Int16} (h : s.toInt ≤ s'.toInt) :
    scale (.num false c hc) s ≤ scale (.num false c hc) s' := by
  by_cases c1 : c = Fmt.b32.infK
  · subst c1
    have := scale_inf s
    have := scale_inf s'
    change scale (inf false) s ≤ scale (inf false) s'
    split_ifs at * <;> omega
  by_cases c0 : c = 0
  · subst c0
    have := scale_zero_gain false s
    have := scale_zero_gain false s'
    change scale (zero false) s ≤ scale (zero false) s'
    omega
  rw [scale_eq, scale_eq]
  refine finish_mono (mul_notNan (sampleOf_notNan _) (sampleOf_fin _) c1)
    (mul_notNan (sampleOf_notNan _) (sampleOf_fin _) c1) ?_
  rw [Fl.mul_comm, Fl.mul_comm (sampleOf s')]
  exact Fl.mul_mono mb32 c0 c1 (sampleOf_mono h)

/-! ## The gain 1

The quotient by 32767 is rounded to 24 bits, and so is the product with 32767.  Where the quotient's last bit weighs `X`,
the product is off by less than `2^14 X`, and the last bit of the product weighs `2^15 X`. -/

theorem back_near {φ : Fmt} (mb1 : 1 ≤ φ.mb) {B T K X Y : Nat} (mB : φ.mag B = 2 ^ 23 * X) (mT : φ.mag T = 2 ^ 24 * X)
    (gap : ∀ i, B ≤ i → i < T → φ.mag (i + 1) = φ.mag i + X) (m0 : φ.mag K + 2 ^ 15 * X = 2 ^ 15 * Y)
    (m1 : φ.mag (K + 1) = 2 ^ 15 * Y) (m2 : φ.mag (K + 1 + 1) = 2 ^ 15 * Y + 2 ^ 15 * X) (_X0 : 0 < X)
    (Y1 : 2 ^ 23 * X < Y) (Y3 : 2 ^ 15 * Y ≤ 2 ^ 24 * 32767 * X) (g0 : T ≤ φ.infK) (g1 : K + 1 < φ.infK) (g3 : B ≤ T)
    (g4 : 0 < B) : φ.rnd (φ.mag (φ.rnd (2 ^ 15 * Y) 32767) * 32767) 1 = K + 1 := by
  have kB : B ≤ φ.rnd (2 ^ 15 * Y) 32767 :=
    φ.le_rnd mb1 (Nat.succ_pos _) (Nat.le_trans g3 g0) (by rw [mB]; omega)
  have kT : φ.rnd (2 ^ 15 * Y) 32767 ≤ T := φ.rnd_le mb1 (Nat.succ_pos _) g0 (by rw [mT]; omega)
  have low := φ.rnd_lower mb1 (a := 2 ^ 15 * Y) (b := 32767) (Nat.succ_pos _) (Nat.lt_of_lt_of_le g4 kB)
  have up := φ.rnd_upper mb1 (a := 2 ^ 15 * Y) (b := 32767) (Nat.succ_pos _)
  generalize φ.rnd (2 ^ 15 * Y) 32767 = k at *
  have iB : B < k ↔ 2 ^ 23 * X < φ.mag k := by rw [← mB, φ.mag_lt_iff]
  have iT : k < T ↔ φ.mag k < 2 ^ 24 * X := by rw [← mT, φ.mag_lt_iff]
  have lo' : B < k → (φ.mag k + φ.mag k) * 32767 ≤ 2 * (2 ^ 15 * Y) + X * 32767 := by
    intro hk
    have := gap (k - 1) (Nat.le_sub_one_of_lt hk) (Nat.lt_of_lt_of_le (Nat.sub_lt (Nat.lt_of_lt_of_le g4 kB) Nat.one_pos) kT)
    rw [Nat.sub_add_cancel (Nat.lt_of_lt_of_le g4 kB)] at this
    clear gap up iB iT m0 m1 m2 mB mT g0 g1 mb1
    generalize φ.mag (k - 1) = L at *
    generalize φ.mag k = M at *
    linarith
  have up' : k < T → 2 * (2 ^ 15 * Y) ≤ (φ.mag k + φ.mag k + X) * 32767 := by
    intro hk
    have := gap k kB hk
    have := up (Nat.lt_of_lt_of_le hk g0)
    clear gap low up iB iT m0 m1 m2 mB mT g0 g1 mb1
    generalize φ.mag (k + 1) = L at *
    generalize φ.mag k = M at *
    rw [‹L = _›] at this
    linarith
  clear gap up low mB mT
  apply Nat.le_antisymm
  · rw [← Nat.not_lt, φ.rnd_gt_iff mb1 (Nat.succ_pos _) g1, m1, m2]
    clear m0 m1 m2
    generalize φ.mag k = M at *
    have : 2 * (M * 32767) < (2 ^ 15 * Y + (2 ^ 15 * Y + 2 ^ 15 * X)) * 1 := by
      by_cases hc : M * 32767 ≤ 2 ^ 15 * Y
      · omega
      · have := lo' (iB.2 (by omega))
        omega
    split <;> omega
  · rw [Nat.succ_le_iff, φ.rnd_gt_iff mb1 (Nat.succ_pos _) (by omega), m1]
    clear m1 m2
    generalize φ.mag K = L at *
    generalize φ.mag k = M at *
    have : (L + 2 ^ 15 * Y) * 1 < 2 * (M * 32767) := by
      by_cases hc : 2 ^ 15 * Y ≤ M * 32767
      · omega
      · have := up' (iT.2 (by omega))
        omega
    split <;> omega

theorem back_core {φ : Fmt} (hmb : φ.mb = 23) (hinf : φ.infK = 255 * 2 ^ 23) {e N : Nat} (he : e ≤ 200)
    (h1 : 2 ^ 23 < N) (h2 : N < 2 ^ 24) (h3 : N * 32768 ≤ 2 ^ 24 * 32767) :
    φ.rnd (φ.mag (φ.rnd (N * 32768 * 2 ^ e) 32767) * 32767) 1 = (e + 16) * 2 ^ 23 + (N - 2 ^ 23) := by
  have mb1 : 1 ≤ φ.mb := by omega
  have bin : ∀ sh r, r ≤ 2 ^ 23 → φ.mag ((sh + 1) * 2 ^ 23 + r) = (2 ^ 23 + r) * 2 ^ sh := fun sh r hr => by
    have := φ.mag_binade sh r (by rw [hmb]; exact hr)
    rwa [hmb] at this
  obtain ⟨r, hr⟩ : ∃ r, N = 2 ^ 23 + 1 + r := ⟨N - (2 ^ 23 + 1), by omega⟩
  rw [show (e + 16) * 2 ^ 23 + (N - 2 ^ 23) = (e + 16) * 2 ^ 23 + r + 1 by omega]
  have g0 : (e + 2) * 2 ^ 23 ≤ φ.infK := by
    rw [hinf]; exact Nat.mul_le_mul_right _ (by clear hinf hr h1 h2 h3; omega)
  have g1 : (e + 16) * 2 ^ 23 + r + 1 < φ.infK := by
    have : (e + 17) * 2 ^ 23 ≤ φ.infK := by
      rw [hinf]; exact Nat.mul_le_mul_right _ (by clear hinf hr h1 h2 h3; omega)
    clear hinf h3 g0
    omega
  have g3 : (e + 1) * 2 ^ 23 ≤ (e + 2) * 2 ^ 23 := Nat.mul_le_mul_right _ (Nat.le_succ _)
  have g4 : 0 < (e + 1) * 2 ^ 23 := Nat.mul_pos (Nat.succ_pos _) (Nat.two_pow_pos _)
  have mB : φ.mag ((e + 1) * 2 ^ 23) = 2 ^ 23 * 2 ^ e := by
    have := bin e 0 (by omega)
    rwa [Nat.add_zero, Nat.add_zero] at this
  have mT : φ.mag ((e + 2) * 2 ^ 23) = 2 ^ 24 * 2 ^ e := by
    rw [show (e + 2) * 2 ^ 23 = (e + 1) * 2 ^ 23 + 2 ^ 23 by omega, bin e _ (Nat.le_refl _)]
    norm_num
  have gap : ∀ i, (e + 1) * 2 ^ 23 ≤ i → i < (e + 2) * 2 ^ 23 → φ.mag (i + 1) = φ.mag i + 2 ^ e := by
    intro i hi hi'
    obtain ⟨r, rfl⟩ := Nat.exists_eq_add_of_le hi
    rw [Nat.add_assoc, bin e r (by omega), bin e (r + 1) (by omega), ← Nat.add_assoc, Nat.succ_mul]
  have p15 : (2 : Nat) ^ (e + 15) = 2 ^ 15 * 2 ^ e := by rw [Nat.pow_add, Nat.mul_comm]
  have m0 : φ.mag ((e + 16) * 2 ^ 23 + r) + 2 ^ 15 * 2 ^ e = 2 ^ 15 * (N * 2 ^ e) := by
    rw [bin (e + 15) r (by omega), p15, hr]
    ring
  have m1 : φ.mag ((e + 16) * 2 ^ 23 + r + 1) = 2 ^ 15 * (N * 2 ^ e) := by
    rw [Nat.add_assoc, bin (e + 15) (r + 1) (by omega), p15, hr]
    ring
  have m2 : φ.mag ((e + 16) * 2 ^ 23 + r + 1 + 1) = 2 ^ 15 * (N * 2 ^ e) + 2 ^ 15 * 2 ^ e := by
    rw [Nat.add_assoc, Nat.add_assoc, bin (e + 15) (r + (1 + 1)) (by omega), p15, hr]
    ring
  have X0 : 0 < 2 ^ e := Nat.two_pow_pos e
  have Y1 : 2 ^ 23 * 2 ^ e < N * 2 ^ e := Nat.mul_lt_mul_of_pos_right h1 X0
  have Y3 : 2 ^ 15 * (N * 2 ^ e) ≤ 2 ^ 24 * 32767 * 2 ^ e := by
    calc 2 ^ 15 * (N * 2 ^ e) = N * 32768 * 2 ^ e := by ring
      _ ≤ _ := Nat.mul_le_mul_right _ h3
  have ha : N * 32768 * 2 ^ e = 2 ^ 15 * (N * 2 ^ e) := by ring
  rw [ha]
  exact back_near mb1 mB mT gap m0 m1 m2 X0 Y1 Y3 g0 g1 g3 g4

theorem back_pow : ∀ i, i < 15 →
    Fmt.b32.mag (Fmt.b32.rnd (Fmt.b32.mag (Fmt.b32.rnd (2 ^ i * 2 ^ Fmt.b32.u) 32767) * 32767) 1) = 2 ^ i * 2 ^ Fmt.b32.u := by
  decide +kernel

/-- Dividing by 32767 and multiplying again, each time rounding to `f32`, gives the number back. -/
theorem back_mag {n : Nat} (h0 : n ≠ 0) (h : n ≤ 32767) :
    Fmt.b32.mag (Fmt.b32.rnd (Fmt.b32.mag (Fmt.b32.rnd (n * 2 ^ Fmt.b32.u) 32767) * 32767) 1) = n * 2 ^ Fmt.b32.u := by
  obtain ⟨j, hj1, hj2⟩ : ∃ j, 2 ^ j ≤ n ∧ n < 2 ^ (j + 1) :=
    ⟨Nat.log2 n, Nat.log2_self_le h0, Nat.lt_log2_self⟩
  have hj : j < 15 := by
    by_contra hc
    have : 2 ^ 15 ≤ 2 ^ j := Nat.pow_le_pow_right (by omega) (by omega)
    omega
  by_cases hp : n = 2 ^ j
  · rw [hp]; exact back_pow j hj
  obtain ⟨i, hi⟩ : ∃ i, 23 = j + i := ⟨23 - j, by omega⟩
  have e1 : n * 2 ^ Fmt.b32.u = n * 2 ^ i * 32768 * 2 ^ (111 + j) := by
    have : Fmt.b32.u = i + 15 + (111 + j) := by
      have : Fmt.b32.u = 149 := rfl
      omega
    rw [this, Nat.pow_add, Nat.pow_add]
    ring
  have hi0 := Nat.two_pow_pos i
  have q1 : 2 ^ 23 < n * 2 ^ i := by
    rw [hi, Nat.pow_add]
    exact Nat.mul_lt_mul_of_pos_right (by omega) hi0
  have q2 : (n + 1) * 2 ^ i ≤ 2 ^ 24 := by
    rw [show (24 : Nat) = (j + 1) + i by omega, Nat.pow_add]
    exact Nat.mul_le_mul_right _ hj2
  have q3 : 2 ^ 9 ≤ 2 ^ i := Nat.pow_le_pow_right (by omega) (by omega)
  rw [Nat.add_mul, Nat.one_mul] at q2
  have key := back_core (φ := Fmt.b32) rfl (by decide) (e := 111 + j) (N := n * 2 ^ i) (by omega) q1 (by omega) (by omega)
  rw [e1, key]
  have b := Fmt.b32.mag_binade (111 + j + 15) (n * 2 ^ i - 2 ^ 23) (by
    have : Fmt.b32.mb = 23 := rfl
    rw [this]; omega)
  rw [show Fmt.b32.mb = 23 from rfl] at b
  rw [show 111 + j + 16 = 111 + j + 15 + 1 by omega, b, show 2 ^ 23 + (n * 2 ^ i - 2 ^ 23) = n * 2 ^ i by omega,
    Nat.pow_add 2 (111 + j) 15]
  ring

theorem smag_tdiv (s : Bool) {k n : Nat} (h : Fmt.b32.mag k = n * 2 ^ Fmt.b32.u) :
    Int.tdiv (smag Fmt.b32 s k) (2 ^ Fmt.b32.u) = if s then -(n : Int) else n := by
  have hp : (2 ^ Fmt.b32.u : Int) ≠ 0 := by positivity
  have : smag Fmt.b32 s k = (if s then -(n : Int) else n) * 2 ^ Fmt.b32.u := by
    unfold smag
    rw [h]
    cases s <;> push_cast <;> simp
  rw [this, Int.mul_tdiv_cancel _ hp]

theorem mul_one32 {s : Bool} {k : Nat} {hk : k ≤ Fmt.b32.infK} (hf : k ≠ Fmt.b32.infK) :
    mul (.num s k hk) (one false) = .num s k hk := by
  have h1 : (1065353216 : Nat) ≠ Fmt.b32.infK := by decide
  have h2 : Fmt.b32.mag 1065353216 = 2 ^ Fmt.b32.u := by decide +kernel
  simp only [mul, one, if_neg hf, if_neg h1, h2, ofMag]
  exact ext_num (by simp) (Fmt.rnd_mag _ mb32 hk (Nat.two_pow_pos _))

theorem clamp_id {s : Bool} {k : Nat} {hk : k ≤ Fmt.b32.infK} (h : k ≤ 1065353216) :
    clamp (.num s k hk) = .num s k hk := by
  rw [clamp_eq]
  have h1 : lt (.num s k hk) (one true) = false := by
    simp only [one, lt_num, decide_eq_false_iff_not, skey]
    cases s <;> simp <;> omega
  have h2 : lt (one false) (.num s k hk) = false := by
    simp only [one, lt_num, skey]
    cases s <;> simp <;> omega
  simp [h1, h2]

/-- The gain 1 gives every sample back, except that −32768 becomes −32767. -/
theorem scale_one (s : Int16) : scale (one false) s = max (-32767) s.toInt := by
  have b1 := s.toInt_lt
  have b2 := s.le_toInt
  by_cases h0 : s.toInt = 0
  · rw [scale_eq, sampleOf_eq, h0]; decide +kernel
  by_cases hm : s.toInt = -32768
  · rw [scale_eq, sampleOf_eq, hm]; decide +kernel
  have hn : s.toInt.natAbs ≤ 32767 := by omega
  have hn0 : s.toInt.natAbs ≠ 0 := by omega
  have hz : max (-32767) s.toInt = if decide (s.toInt < 0) = true then -((s.toInt.natAbs : Nat) : Int) else s.toInt.natAbs := by
    by_cases hs : s.toInt < 0 <;> simp only [hs, decide_true, decide_false, if_true, Bool.false_eq_true, if_false] <;> omega
  rw [hz, scale_eq, sampleOf_eq]
  have hf := sample_key_fin (natAbs_le s)
  have back := back_mag hn0 hn
  have hle : Fmt.b32.rnd (s.toInt.natAbs * 2 ^ Fmt.b32.u) 32767 ≤ 1065353216 := by
    apply Fmt.rnd_le _ mb32 (by omega) (by decide)
    have h2 : Fmt.b32.mag 1065353216 = 2 ^ Fmt.b32.u := by decide +kernel
    rw [h2, Nat.mul_comm]
    exact Nat.mul_le_mul_left _ hn
  generalize s.toInt.natAbs = n at *
  generalize decide (s.toInt < 0) = b at *
  have hk' : Fmt.b32.rnd (n * 2 ^ Fmt.b32.u) 32767 ≤ Fmt.b32.infK := Fmt.b32.rnd_le_infK ..
  change finish (mul (.num b _ hk') _) = _
  generalize Fmt.b32.rnd (n * 2 ^ Fmt.b32.u) 32767 = k at *
  have e1 : mul (.num b k hk') (one false) = .num b k hk' := mul_one32 hf
  unfold finish
  rw [e1, clamp_id hle, full_lit]
  have f1 : (1191181824 : Nat) ≠ Fmt.b32.infK := by decide
  have f2 : Fmt.b32.mag 1191181824 = 32767 * 2 ^ Fmt.b32.u := by decide +kernel
  have e2 : Fmt.b32.rnd (Fmt.b32.mag k * (32767 * 2 ^ Fmt.b32.u)) (2 ^ Fmt.b32.u) =
      Fmt.b32.rnd (Fmt.b32.mag k * 32767) 1 := by
    apply Fmt.rnd_congr _ mb32 (Nat.two_pow_pos _) (by omega)
    ring
  have e3 : mul (.num b k hk') (full false) = .num b (Fmt.b32.rnd (Fmt.b32.mag k * 32767) 1) (Fmt.b32.rnd_le_infK ..) := by
    simp only [mul, full, if_neg hf, if_neg f1, f2, ofMag]
    exact ext_num (by simp) e2
  rw [e3, toI16_num, smag_tdiv b back]
  have hi : Fmt.b32.rnd (Fmt.b32.mag k * 32767) 1 ≠ Fmt.b32.infK := by
    intro hc
    rw [hc] at back
    have : 32768 * 2 ^ Fmt.b32.u ≤ Fmt.b32.mag Fmt.b32.infK := by decide +kernel
    have : n * 2 ^ Fmt.b32.u ≤ 32767 * 2 ^ Fmt.b32.u := Nat.mul_le_mul_right _ hn
    have := Nat.two_pow_pos Fmt.b32.u
    omega
  rw [if_neg hi]
  cases b <;> simp <;> omega

end Verif.Examples
