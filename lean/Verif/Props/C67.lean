import Verif.Model.Generator
import Verif.Props.C58
import Verif.Props.C63
/-!
# C67: the program that generates the histogram tables

Printing with 36 decimals and reading the text again loses nothing for numbers of the size of the tables, the file in the
repository is what the program prints for its own doubles, and with any accurate `powf` the program writes tables that
are right and ordered.
-/

namespace Verif
open Fl Spec Examples

namespace Spec

/-- The literal with these 36 decimals, as the compiler reads it. -/
def literal (n : Nat) : F64 := Fl.lit Fmt.b64 n (10 ^ 36)

end Spec

/-! ## Printing and reading -/

/-- The nearest integer is at most a half away. -/
theorem rne_near {a b : Nat} (hb : 0 < b) : 2 * a ≤ 2 * (rne a b * b) + b ∧ 2 * (rne a b * b) ≤ 2 * a + b := by
  have h := Nat.div_add_mod a b
  have hm := Nat.mod_lt a hb
  unfold rne
  generalize a / b = q at *
  generalize a % b = r at *
  subst h
  have e : q * b = b * q := Nat.mul_comm ..
  split
  · constructor <;> (rw [e]; omega)
  · split
    · rw [Nat.add_mul, e, Nat.one_mul]; omega
    · rcases Nat.mod_two_eq_zero_or_one q with h | h <;> rw [h]
      · rw [Nat.add_zero, e]; omega
      · rw [Nat.add_mul, e, Nat.one_mul]; omega

/-- From the binade `g + 1` up, neighbouring doubles are at least `2^g` units apart. -/
theorem mag_gap {k g : Nat} (h : (g + 1) * 2 ^ 52 ≤ k) : Fmt.b64.mag k + 2 ^ g ≤ Fmt.b64.mag (k + 1) := by
  have hm : Fmt.b64.mb = 52 := rfl
  obtain ⟨e, r, hr, rfl⟩ : ∃ e r, r < 2 ^ 52 ∧ k = (e + 1) * 2 ^ 52 + r := by
    refine ⟨k / 2 ^ 52 - 1, k % 2 ^ 52, Nat.mod_lt _ (by norm_num), ?_⟩
    have : g + 1 ≤ k / 2 ^ 52 := by omega
    omega
  have he : g ≤ e := by omega
  have b1 := Fmt.b64.mag_binade e r (by rw [hm]; omega)
  have b2 := Fmt.b64.mag_binade e (r + 1) (by rw [hm]; omega)
  rw [hm] at b1 b2
  rw [b1, Nat.add_assoc, b2, ← Nat.add_assoc, Nat.add_mul _ 1, Nat.one_mul]
  exact Nat.add_le_add_left (Nat.pow_le_pow_right (Nat.succ_pos 1) he) _


theorem readback_key {k : Nat} (hk : k < Fmt.b64.infK) (h : 957 * 2 ^ 52 ≤ k) :
    Fmt.b64.rnd (rne (Fmt.b64.mag k * 10 ^ 36) (2 ^ Fmt.b64.u) * 2 ^ Fmt.b64.u) (10 ^ 36) = k := by
  have mb1 : 1 ≤ Fmt.b64.mb := by decide
  obtain ⟨n1, n2⟩ := rne_near (a := Fmt.b64.mag k * 10 ^ 36) (b := 2 ^ Fmt.b64.u) (Nat.two_pow_pos _)
  have hU : 2 ^ Fmt.b64.u < 2 ^ 955 * 10 ^ 36 := by decide +kernel
  obtain ⟨j, rfl⟩ : ∃ j, k = j + 1 := ⟨k - 1, by omega⟩
  have g1 := mag_gap (k := j) (g := 955) (by omega)
  have g2 := mag_gap (k := j + 1) (g := 955) (by omega)
  generalize hN : rne (Fmt.b64.mag (j + 1) * 10 ^ 36) (2 ^ Fmt.b64.u) * 2 ^ Fmt.b64.u = N at *
  have i1 := Fmt.b64.rnd_gt_iff mb1 (a := N) (b := 10 ^ 36) (by norm_num) (k := j) (by omega)
  have i2 := Fmt.b64.rnd_gt_iff mb1 (a := N) (b := 10 ^ 36) (by norm_num) (k := j + 1) hk
  have l1 : j < Fmt.b64.rnd N (10 ^ 36) := by
    rw [i1]
    have : (Fmt.b64.mag j + Fmt.b64.mag (j + 1)) * 10 ^ 36 < 2 * N := by
      generalize Fmt.b64.mag j = a at *
      generalize Fmt.b64.mag (j + 1) = b at *
      generalize 2 ^ Fmt.b64.u = U at *
      generalize 2 ^ 955 = G at *
      generalize 10 ^ 36 = P at *
      nlinarith
    split
    · exact this
    · exact this.le
  have l2 : ¬ j + 1 < Fmt.b64.rnd N (10 ^ 36) := by
    rw [i2]
    have : 2 * N < (Fmt.b64.mag (j + 1) + Fmt.b64.mag (j + 1 + 1)) * 10 ^ 36 := by
      generalize Fmt.b64.mag (j + 1 + 1) = c at *
      generalize Fmt.b64.mag (j + 1) = b at *
      generalize 2 ^ Fmt.b64.u = U at *
      generalize 2 ^ 955 = G at *
      generalize 10 ^ 36 = P at *
      nlinarith
    split
    · exact this.asymm
    · exact this.not_ge
  exact Nat.le_antisymm (Nat.le_of_not_lt l2) l1

/-- **C67.** Numbers from `2^-66` up survive: printed with 36 decimals and read as a literal, every such double is itself
again. -/
theorem C67_readback {x : F64} (hf : x.Finite) (h : 1 / 2 ^ 66 ≤ x.value) : literal (printed x) = x := by
  obtain ⟨s, k, hk, rfl, hne⟩ := hf
  have hs : s = false := by
    cases s
    · rfl
    · exfalso
      have : (0 : ℝ) ≤ (Fmt.b64.mag k : ℝ) / 2 ^ Fmt.b64.u := by positivity
      rw [value_num, show smag Fmt.b64 true k = -(Fmt.b64.mag k : Int) from rfl, Int.cast_neg, Int.cast_natCast, neg_div] at h
      have : (0 : ℝ) < 1 / 2 ^ 66 := by norm_num
      linarith
  subst hs
  have hk' : k < Fmt.b64.infK := Nat.lt_of_le_of_ne hk hne
  have hb : 957 * 2 ^ 52 ≤ k := by
    rw [← Fmt.b64.mag_le_iff]
    have hm : Fmt.b64.mag (957 * 2 ^ 52) = 2 ^ 1008 := by decide +kernel
    rw [hm]
    rw [value_num, show smag Fmt.b64 false k = (Fmt.b64.mag k : Int) from rfl, Int.cast_natCast] at h
    have hu : Fmt.b64.u = 66 + 1008 := rfl
    rw [hu, div_le_div_iff₀ (by positivity) (by positivity), one_mul, pow_add, _root_.mul_comm] at h
    have := le_of_mul_le_mul_right h (by positivity)
    exact_mod_cast this
  have key := readback_key hk' hb
  unfold literal
  rw [Fl.lit_pos]
  have hp : printed (.num false k hk) = rne (Fmt.b64.mag k * 10 ^ 36) (2 ^ Fmt.b64.u) := by
    have : (k == Fmt.b64.infK) = false := by simp; omega
    simp only [printed, this, Bool.or_false, Bool.false_eq_true, if_false]
  rw [Fl.num.injEq]
  exact ⟨rfl, by rw [hp, key]⟩

theorem energies_text : energiesN.map (fun n => printed (literal n)) = energiesN := by decide +kernel

theorem boundaries_text : boundariesN.map (fun n => printed (literal n)) = boundariesN := by decide +kernel

section
variable {m : Libm F64} {bs : BSearch} {t : Target}

/-- **C67.** The file in the repository is what the program prints for the doubles its literals stand for: all 36 decimals
of every entry are right. -/
theorem C67_text : (energies (ieeeEnv m bs t)).map printed = energiesN ∧
    (boundaries (ieeeEnv m bs t)).map printed = boundariesN := by
  constructor
  · rw [energies, List.map_map]; exact energies_text
  · rw [boundaries, List.map_map]; exact boundaries_text

/-! ## What the program computes -/

theorem gen_energy (hm : PowWithin m (1 / 2 ^ 50)) {i : Nat} (hi : i < 1000) :
    (level m i (Fl.lit Fmt.b64 6995 100)).Finite ∧
      |(level m i (Fl.lit Fmt.b64 6995 100)).value - energyOf (-70 + i / 10 + 1 / 20)| ≤
        42 / 10 ^ 15 * energyOf (-70 + i / 10 + 1 / 20) := by
  have hi' : (i : ℝ) ≤ 999 := by exact_mod_cast Nat.le_of_lt_succ hi
  have hi0 : (0 : ℝ) ≤ i := Nat.cast_nonneg i
  have hl : Ulp (Fl.lit Fmt.b64 6995 100) (6995 / 100) 71 := by
    have := Ulp.lit (n := 6995) (d := 100) (A := 70) (c := 71) (by norm_num) (by norm_num) (by norm_num)
      (by norm_num)
    push_cast at this
    exact this
  have ha := CRef.level_arg (CRef.tenths hi.le) hl (by linarith) (by linarith)
  have key := CRef.pow_level hm ha (by linarith) (by linarith)
  rw [show (i : ℝ) / 10 - 6995 / 100 = -70 + (i : ℝ) / 10 + 1 / 20 by ring] at key
  exact key

theorem gen_boundary (hm : PowWithin m (1 / 2 ^ 50)) {i : Nat} (hi : i ≤ 1000) :
    (level m i (Fl.lit Fmt.b64 70 1)).Finite ∧
      |(level m i (Fl.lit Fmt.b64 70 1)).value - energyOf (-70 + i / 10)| ≤ 42 / 10 ^ 15 * energyOf (-70 + i / 10) := by
  have hi' : (i : ℝ) ≤ 1000 := by exact_mod_cast hi
  have hi0 : (0 : ℝ) ≤ i := Nat.cast_nonneg i
  have hl : Ulp (Fl.lit Fmt.b64 70 1) 70 71 := by
    have := (Ulp.nat 70 (by norm_num)).weaken (c' := 71) (by norm_num)
    push_cast at this
    exact this
  have ha := CRef.level_arg (CRef.tenths hi) hl (by linarith) (by linarith)
  have key := CRef.pow_level hm ha (by linarith) (by linarith)
  rw [show (i : ℝ) / 10 - 70 = -70 + (i : ℝ) / 10 by ring] at key
  exact key

/-- Half a tenth of a LU is more than one percent of the energy. -/
theorem energyOf_step (l : ℝ) : 101 / 100 * energyOf l ≤ energyOf (l + 1 / 20) := by
  have e : energyOf (l + 1 / 20) = (10 : ℝ) ^ ((1 : ℝ) / 200) * energyOf l := by
    unfold energyOf
    rw [← Real.rpow_add (by norm_num)]
    congr 1
    ring
  rw [e]
  refine mul_le_mul_of_nonneg_right ?_ (energyOf_pos l).le
  have : (101 / 100 : ℝ) = ((101 / 100 : ℝ) ^ (200 : ℕ)) ^ ((1 : ℝ) / 200) := by
    rw [← Real.rpow_natCast, ← Real.rpow_mul (by norm_num)]
    norm_num
  rw [this]
  exact Real.rpow_le_rpow (by positivity) (by norm_num) (by norm_num)

theorem energyOf_low {l : ℝ} (h : -70 ≤ l) : 1 / 10 ^ 7 ≤ energyOf l := by
  have : (1 / 10 ^ 7 : ℝ) = (10 : ℝ) ^ (-7 : ℝ) := by
    rw [Real.rpow_neg (by norm_num)]; norm_num
  rw [this]
  exact Real.rpow_le_rpow_of_exponent_le (by norm_num) (by linarith)

theorem near_order {x y e f : ℝ} (he : 0 < e) (hx : |x - e| ≤ 42 / 10 ^ 15 * e) (hy : |y - f| ≤ 42 / 10 ^ 15 * f)
    (h : 101 / 100 * e ≤ f) : x < y := by
  rw [abs_le] at hx hy
  norm_num at *
  linarith [hx.2, hy.1]

theorem near_low {x e : ℝ} (he : 1 / 10 ^ 7 ≤ e) (hx : |x - e| ≤ 42 / 10 ^ 15 * e) : 1 / 2 ^ 66 ≤ x := by
  rw [abs_le] at hx
  norm_num at *
  linarith [hx.1]

/-- **C67.** With a `powf` accurate to four units in the last place, the program writes 1000 energies and 1001
boundaries.  Each is read back as the double computed, which is the energy of the middle or the edge of its bin of 0.1 LU
from −70 LUFS up, to within 4.2e-14, and within 1e-13 the entry of the crate. -/
theorem C67_accurate (hm : PowWithin m (1 / 2 ^ 50)) :
    (genEnergies m).length = 1000 ∧ (genBoundaries m).length = 1001 ∧
    ((genEnergies m).map printed).map literal = genEnergies m ∧
    ((genBoundaries m).map printed).map literal = genBoundaries m ∧
    (∀ (i : Nat) (x : F64), (genEnergies m)[i]? = some x →
      |x.value - energyOf (-70 + i / 10 + 1 / 20)| ≤ 42 / 10 ^ 15 * energyOf (-70 + i / 10 + 1 / 20) ∧
      ∀ y, (energies (ieeeEnv m bs t))[i]? = some y → |x.value - y.value| ≤ 1 / 10 ^ 13 * y.value) ∧
    (∀ (i : Nat) (x : F64), (genBoundaries m)[i]? = some x →
      |x.value - energyOf (-70 + i / 10)| ≤ 42 / 10 ^ 15 * energyOf (-70 + i / 10) ∧
      ∀ y, (boundaries (ieeeEnv m bs t))[i]? = some y → |x.value - y.value| ≤ 1 / 10 ^ 13 * y.value) := by
  refine ⟨by rw [genEnergies, List.length_map, List.length_range],
    by rw [genBoundaries, List.length_map, List.length_range], ?_, ?_, ?_, ?_⟩
  · rw [List.map_map]
    refine (List.map_congr_left fun x hx => ?_).trans (List.map_id _)
    rw [genEnergies, List.mem_map] at hx
    obtain ⟨i, hi, rfl⟩ := hx
    have h := gen_energy hm (List.mem_range.1 hi)
    exact C67_readback h.1 (near_low (energyOf_low (by
      have : (0 : ℝ) ≤ i := Nat.cast_nonneg i
      linarith)) h.2)
  · rw [List.map_map]
    refine (List.map_congr_left fun x hx => ?_).trans (List.map_id _)
    rw [genBoundaries, List.mem_map] at hx
    obtain ⟨i, hi, rfl⟩ := hx
    have h := gen_boundary hm (Nat.le_of_lt_succ (List.mem_range.1 hi))
    exact C67_readback h.1 (near_low (energyOf_low (by
      have : (0 : ℝ) ≤ i := Nat.cast_nonneg i
      linarith)) h.2)
  · intro i x hx
    have hi : i < 1000 := by
      have := (List.getElem?_eq_some_iff.1 hx).1
      rwa [genEnergies, List.length_map, List.length_range] at this
    rw [genEnergies, List.getElem?_map, List.getElem?_range hi, Option.map_some] at hx
    injection hx with hx
    subst hx
    refine ⟨(gen_energy hm hi).2, fun y hy => ?_⟩
    obtain rfl : y = centre i := by
      rw [← binEnergy_centre (m := m) (bs := bs) (t := t) hi, binEnergy, List.getD_eq_getElem?_getD, hy, Option.getD_some]
    exact CRef.init_energy hm hi
  · intro i x hx
    have hi : i < 1001 := by
      have := (List.getElem?_eq_some_iff.1 hx).1
      rwa [genBoundaries, List.length_map, List.length_range] at this
    rw [genBoundaries, List.getElem?_map, List.getElem?_range hi, Option.map_some] at hx
    injection hx with hx
    subst hx
    refine ⟨(gen_boundary hm (by omega)).2, fun y hy => ?_⟩
    obtain rfl : y = bnd i := by
      rw [← boundary_bnd (m := m) (bs := bs) (t := t) (by omega), boundary, List.getD_eq_getElem?_getD, hy, Option.getD_some]
    exact CRef.init_boundary hm (by omega)

/-- **C67.** The tables so written are ordered: every energy lies strictly between the boundaries of its bin, so the
binary search and the bins of a crate built from them work as with those in the repository. -/
theorem C67_order (hm : PowWithin m (1 / 2 ^ 50)) {i : Nat} {b e b' : F64} (hb : (genBoundaries m)[i]? = some b)
    (he : (genEnergies m)[i]? = some e) (hb' : (genBoundaries m)[i + 1]? = some b') :
    Fl.lt (Fl.zero false) b = true ∧ Fl.lt b e = true ∧ Fl.lt e b' = true := by
  have hi : i < 1000 := by
    have := (List.getElem?_eq_some_iff.1 he).1
    rwa [genEnergies, List.length_map, List.length_range] at this
  rw [genBoundaries, List.getElem?_map, List.getElem?_range (by omega), Option.map_some] at hb hb'
  rw [genEnergies, List.getElem?_map, List.getElem?_range hi, Option.map_some] at he
  injection hb with hb
  injection he with he
  injection hb' with hb'
  subst hb he hb'
  have h1 := gen_boundary hm (i := i) (by omega)
  have h2 := gen_energy hm hi
  have h3 := gen_boundary hm (i := i + 1) (by omega)
  have hi0 : (0 : ℝ) ≤ i := Nat.cast_nonneg i
  have s1 := energyOf_step (-70 + i / 10)
  have s2 := energyOf_step (-70 + i / 10 + 1 / 20)
  rw [show -70 + (i : ℝ) / 10 + 1 / 20 + 1 / 20 = -70 + ((i + 1 : Nat) : ℝ) / 10 by push_cast; ring] at s2
  refine ⟨lt_of_value ⟨false, 0, Nat.zero_le _, rfl, by decide⟩ h1.1 ?_, lt_of_value h1.1 h2.1 (near_order (energyOf_pos _) h1.2 h2.2 s1),
    lt_of_value h2.1 h3.1 (near_order (energyOf_pos _) h2.2 h3.2 s2)⟩
  have := near_low (energyOf_low (by linarith)) h1.2
  have hz : (Fl.zero false : F64).value = 0 := Fl.value_zero _
  rw [hz]
  have : (0 : ℝ) < 1 / 2 ^ 66 := by norm_num
  linarith

/-- **C67.** Run with an accurate `powf`, the program reproduces the digits of the file if and only if it computes the
doubles of the crate. -/
theorem C67_same (hm : PowWithin m (1 / 2 ^ 50)) :
    ((genEnergies m).map printed = energiesN ↔ genEnergies m = energies (ieeeEnv m bs t)) ∧
    ((genBoundaries m).map printed = boundariesN ↔ genBoundaries m = boundaries (ieeeEnv m bs t)) := by
  obtain ⟨-, -, h1, h2, -⟩ := C67_accurate (bs := bs) (t := t) hm
  obtain ⟨t1, t2⟩ := C67_text (m := m) (bs := bs) (t := t)
  refine ⟨⟨fun h => ?_, fun h => by rw [h, t1]⟩, ⟨fun h => ?_, fun h => by rw [h, t2]⟩⟩
  · rw [← h1, h]; rfl
  · rw [← h2, h]; rfl

end

/-! ## Examples -/

/-- The first entry: the double nearest to `10 ^ -6.9259`, and its text. -/
example : printed (literal 118604181294802408330460116465) = 118604181294802408330460116465 := by decide +kernel

/-- The double nearest to `0.1` is printed with its own digits. -/
example : printed (literal (10 ^ 35)) = 100000000000000005551115123125782702 := by decide +kernel

/-- Below `2^-66` numbers get lost: a third of `10^-30` is read back as another double. -/
example : literal (printed (Fl.lit Fmt.b64 1 (3 * 10 ^ 30))) ≠ Fl.lit Fmt.b64 1 (3 * 10 ^ 30) := by decide +kernel

end Verif
