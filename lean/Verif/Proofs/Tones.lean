import Verif.Props.C71
import Verif.Props.C59
import Verif.Spec.Tones
/-!
# The blocks of a programme of steady tones

Amplitudes are given in millionths, so that the bounds on the power of each block are integers.
-/

namespace Verif
open Spec
variable {bs : BSearch} {u : Nat}

/-- The amplitude, in millionths, during tenth `i` of a second. -/
def ampAt : List (ℕ × ℕ) → ℕ → ℕ
  | [], _ => 0
  | (n, a) :: segs, i => if i < n then a else ampAt segs (i - n)

/-- The size of the step at the beginning of tenth `i`. -/
def leap (A : ℕ → ℕ) (i : ℕ) : ℕ :=
  let p := if i = 0 then 0 else A (i - 1)
  (A i - p) + (p - A i)

def sumOver (f : ℕ → ℕ) (k w : ℕ) : ℕ := ((List.range w).map fun i => f (k + i)).sum

def maxOver (f : ℕ → ℕ) (k w : ℕ) : ℕ := ((List.range w).map fun i => f (k + i)).foldr max 0

/-- Bound on the difference of the power of a window of `w` tenths from that of the steady tones. -/
def slack (A : ℕ → ℕ) (V e w k : ℕ) : ℕ :=
  (2168 * maxOver A k w + 2400 * sumOver (leap A) k w + 40 * V + 2000 * e) * (9500 * sumOver (leap A) k w + 4 * V) +
    (2168 * maxOver A k w + 1000 * e) * (480000 * w * e)

def low (A : ℕ → ℕ) (V e w k : ℕ) : ℕ := sumOver (fun i => A i ^ 2) k w * (587138 * 480000) - 1000 * slack A V e w k

def high (A : ℕ → ℕ) (V e w k : ℕ) : ℕ := sumOver (fun i => A i ^ 2) k w * (587139 * 480000) + 1000 * slack A V e w k

theorem sumOver_cast (f : ℕ → ℕ) (k w : ℕ) : (sumOver f k w : ℝ) = ∑ i ∈ Finset.range w, (f (k + i) : ℝ) := by
  rw [sumOver, list_sum_range]
  push_cast
  rfl

theorem le_maxOver (f : ℕ → ℕ) (k : ℕ) {w i : ℕ} (hi : i < w) : f (k + i) ≤ maxOver f k w := by
  have key : ∀ (l : List ℕ) x, x ∈ l → x ≤ l.foldr max 0 := by
    intro l x hx
    induction l with
    | nil => simp at hx
    | cons y l ih =>
      rw [List.foldr_cons]
      rcases List.mem_cons.1 hx with rfl | h
      · exact Nat.le_max_left _ _
      · exact (ih h).trans (Nat.le_max_right _ _)
  exact key _ _ (List.mem_map.2 ⟨i, List.mem_range.2 hi, rfl⟩)

theorem leap_cast (A : ℕ → ℕ) (i : ℕ) : |jump (fun i => (A i : ℝ) / 10 ^ 6) i| = (leap A i : ℝ) / 10 ^ 6 := by
  have key : ∀ a b : ℕ, |(a : ℝ) - b| = ((a - b) + (b - a) : ℕ) := by
    intro a b
    rcases le_total a b with h | h
    · rw [Nat.sub_eq_zero_of_le h, Nat.zero_add, Nat.cast_sub h, abs_sub_comm, abs_of_nonneg]
      have : (a : ℝ) ≤ b := by exact_mod_cast h
      linarith
    · rw [Nat.sub_eq_zero_of_le h, Nat.add_zero, Nat.cast_sub h, abs_of_nonneg]
      have : (b : ℝ) ≤ a := by exact_mod_cast h
      linarith
  unfold jump leap
  dsimp only
  rw [← key]
  split_ifs
  · rw [Nat.cast_zero, sub_zero, sub_zero, abs_div, abs_of_pos (by norm_num : (0 : ℝ) < 10 ^ 6)]
  · rw [← sub_div, abs_div, abs_of_pos (by norm_num : (0 : ℝ) < 10 ^ 6)]

/-- The end of a signal as a list. -/
theorem lastN_range {ys : List ℝ} {p N : ℕ} (hl : p + N ≤ ys.length) :
    lastN 0 N (ys.take (p + N)) = (List.range N).map fun j => ys.getD (p + j) 0 := by
  have hlen : (ys.take (p + N)).length = p + N := by simp; omega
  rw [(C15_exactly 1 N 0 (0 : ℝ) (ys.take (p + N))).2.2.1 (by rw [hlen]; omega), hlen]
  apply List.ext_getElem
  · simp; omega
  · intro i g1 g2
    simp at g1 g2
    simp [List.getD, show p + i < ys.length by omega]

/-- The power of one channel over a window. -/
theorem channel_bounds (bs : BSearch) (u : Nat) {A : ℕ → ℕ} {K w k V e : ℕ} (w0 : 0 < w) (hk : k + w ≤ K)
    (hV : sumOver (leap A) 0 k ≤ V) {g : ℂ} {ε : ℝ} (ε0 : 0 ≤ ε) (he : 13 * ε ≤ (e : ℝ) / 10 ^ 6) {xs : List ℝ}
    (hl : xs.length = K * 4800)
    (hx : ∀ n < xs.length, |xs.getD n 0 - (g * ((A (n / 4800) : ℝ) / 10 ^ 6 : ℝ) * tone1k ^ n).re| ≤ ‖g‖ * ε) :
    let P := meanSquare (lastN 0 (w * 4800) ((kWeighted bs u 48000 xs).take ((k + w) * 4800)))
    ‖g‖ ^ 2 * ((low A V e w k : ℝ) / (480000 * w * 10 ^ 18)) ≤ P ∧
      P ≤ ‖g‖ ^ 2 * ((high A V e w k : ℝ) / (480000 * w * 10 ^ 18)) := by
  intro P
  have hlen : (kWeighted bs u 48000 xs).length = xs.length := by simp [kWeighted, filtered]
  have hkK : k * 4800 + w * 4800 ≤ xs.length := by
    rw [hl, ← Nat.add_mul]
    exact Nat.mul_le_mul_right _ hk
  have hP : P = meanSquare ((List.range (w * 4800)).map fun j => (kWeighted bs u 48000 xs).getD (k * 4800 + j) 0) := by
    show meanSquare (lastN 0 (w * 4800) ((kWeighted bs u 48000 xs).take ((k + w) * 4800))) = _
    rw [Nat.add_mul, lastN_range (by rw [hlen]; exact hkK)]
  have P0 : 0 ≤ P := by
    rw [hP]
    exact div_nonneg (List.sum_nonneg (by simp; intros; positivity)) (Nat.cast_nonneg _)
  have main := C71_window bs u (α := fun i => (A i : ℝ) / 10 ^ 6) w0 hk (g := g) (S := (maxOver A k w : ℝ) / 10 ^ 6) ε0
    (fun i hi => by
      rw [abs_of_nonneg (by positivity)]
      exact div_le_div_of_nonneg_right (by exact_mod_cast le_maxOver A k hi) (by norm_num)) (xs := xs) hl.ge hx
  dsimp only at main
  rw [← hP] at main
  obtain ⟨H1, H2⟩ := gain1k bs u
  have eR : ∑ i ∈ Finset.range w, |jump (fun i => (A i : ℝ) / 10 ^ 6) (k + i)| = (sumOver (leap A) k w : ℝ) / 10 ^ 6 := by
    rw [sumOver_cast, Finset.sum_div]
    exact Finset.sum_congr rfl fun i _ => leap_cast A _
  have eO : ∑ i ∈ Finset.range k, |jump (fun i => (A i : ℝ) / 10 ^ 6) i| ≤ (V : ℝ) / 10 ^ 6 := by
    have : ∑ i ∈ Finset.range k, |jump (fun i => (A i : ℝ) / 10 ^ 6) i| = (sumOver (leap A) 0 k : ℝ) / 10 ^ 6 := by
      rw [sumOver_cast, Finset.sum_div]
      refine Finset.sum_congr rfl fun i _ => ?_
      rw [Nat.zero_add]
      exact leap_cast A _
    rw [this]
    exact div_le_div_of_nonneg_right (by exact_mod_cast hV) (by norm_num)
  have O0 : 0 ≤ ∑ i ∈ Finset.range k, |jump (fun i => (A i : ℝ) / 10 ^ 6) i| := Finset.sum_nonneg fun _ _ => abs_nonneg _
  have eQ : ∑ i ∈ Finset.range w, ((A (k + i) : ℝ) / 10 ^ 6) ^ 2 = (sumOver (fun i => A i ^ 2) k w : ℝ) / 10 ^ 12 := by
    rw [sumOver_cast, Finset.sum_div]
    refine Finset.sum_congr rfl fun i _ => ?_
    push_cast
    ring
  rw [eR, eQ] at main
  generalize ∑ i ∈ Finset.range k, |jump (fun i => (A i : ℝ) / 10 ^ 6) i| = O at *
  generalize ‖transfer (filterCoefficients (exactEnv bs u) ((exactEnv bs u).f64.ofInt 48000)) tone1k‖ ^ 2 = H at *
  have hw : (0 : ℝ) < w := by exact_mod_cast w0
  have g0 : 0 ≤ ‖g‖ ^ 2 := by positivity
  generalize ‖g‖ ^ 2 = G at *
  have cl' : (low A V e w k : ℝ) = (sumOver (fun i => A i ^ 2) k w : ℝ) * (587138 * 480000) - 1000 * (slack A V e w k : ℝ) ∨
      (low A V e w k : ℝ) = 0 := by
    unfold low
    rcases le_total (1000 * slack A V e w k) (sumOver (fun i => A i ^ 2) k w * (587138 * 480000)) with h | h
    · left
      rw [Nat.cast_sub h]
      push_cast
      ring
    · right
      rw [Nat.sub_eq_zero_of_le h, Nat.cast_zero]
  have ch : (high A V e w k : ℝ) = (sumOver (fun i => A i ^ 2) k w : ℝ) * (587139 * 480000) + 1000 * (slack A V e w k : ℝ) := by
    unfold high
    push_cast
    ring
  have cs : (slack A V e w k : ℝ) = (2168 * (maxOver A k w : ℝ) + 2400 * (sumOver (leap A) k w : ℝ) + 40 * V + 2000 * e) *
      (9500 * (sumOver (leap A) k w : ℝ) + 4 * V) + (2168 * (maxOver A k w : ℝ) + 1000 * e) * (480000 * w * e) := by
    unfold slack
    push_cast
    ring
  have sq0 : (0 : ℝ) ≤ (sumOver (fun i => A i ^ 2) k w : ℝ) := Nat.cast_nonneg _
  have s0 : (0 : ℝ) ≤ (maxOver A k w : ℝ) := Nat.cast_nonneg _
  have r0 : (0 : ℝ) ≤ (sumOver (leap A) k w : ℝ) := Nat.cast_nonneg _
  generalize (sumOver (fun i => A i ^ 2) k w : ℝ) = q at *
  generalize (maxOver A k w : ℝ) = s at *
  generalize (sumOver (leap A) k w : ℝ) = r at *
  generalize (slack A V e w k : ℝ) = x at *
  generalize (low A V e w k : ℝ) = lo at *
  generalize (high A V e w k : ℝ) = hi at *
  have v0 : (0 : ℝ) ≤ V := Nat.cast_nonneg _
  have e0 : (0 : ℝ) ≤ e := Nat.cast_nonneg _
  generalize (V : ℝ) = v at *
  generalize (e : ℝ) = e' at *
  have err : (2 * (1084 / 1000 * (s / 10 ^ 6)) + (24 / 10 * (r / 10 ^ 6) + 4 / 100 * O) + 2 * (13 * ε)) *
      ((95 * (r / 10 ^ 6) + 4 / 100 * O) / (w * 4800 : ℕ)) + (2 * (1084 / 1000 * (s / 10 ^ 6)) + 13 * ε) * (13 * ε) ≤
      1000 * x / (480000 * w * 10 ^ 18) := by
    have step : (2 * (1084 / 1000 * (s / 10 ^ 6)) + (24 / 10 * (r / 10 ^ 6) + 4 / 100 * O) + 2 * (13 * ε)) *
      ((95 * (r / 10 ^ 6) + 4 / 100 * O) / (w * 4800 : ℕ)) + (2 * (1084 / 1000 * (s / 10 ^ 6)) + 13 * ε) * (13 * ε) ≤
      (2 * (1084 / 1000 * (s / 10 ^ 6)) + (24 / 10 * (r / 10 ^ 6) + 4 / 100 * (v / 10 ^ 6)) + 2 * (e' / 10 ^ 6)) *
      ((95 * (r / 10 ^ 6) + 4 / 100 * (v / 10 ^ 6)) / (w * 4800 : ℕ)) +
        (2 * (1084 / 1000 * (s / 10 ^ 6)) + e' / 10 ^ 6) * (e' / 10 ^ 6) := by gcongr
    refine step.trans (le_of_eq ?_)
    rw [cs]
    push_cast
    field_simp
    ring
  have m := abs_le.1 (main.trans (mul_le_mul_of_nonneg_left err g0))
  have qn : 0 ≤ q / 10 ^ 12 / w := by positivity
  have m1 : 587138 / 10 ^ 6 * (q / 10 ^ 12 / w) ≤ H / 2 * (q / 10 ^ 12 / w) :=
    mul_le_mul_of_nonneg_right (by linarith) qn
  have m2 : H / 2 * (q / 10 ^ 12 / w) ≤ 587139 / 10 ^ 6 * (q / 10 ^ 12 / w) :=
    mul_le_mul_of_nonneg_right (by linarith) qn
  have n1 := mul_le_mul_of_nonneg_left m1 g0
  have n2 := mul_le_mul_of_nonneg_left m2 g0
  have d1 : (q * (587138 * 480000) - 1000 * x) / (480000 * w * 10 ^ 18) =
      587138 / 10 ^ 6 * (q / 10 ^ 12 / w) - 1000 * x / (480000 * w * 10 ^ 18) := by
    field_simp
  have d2 : hi / (480000 * w * 10 ^ 18) =
      587139 / 10 ^ 6 * (q / 10 ^ 12 / w) + 1000 * x / (480000 * w * 10 ^ 18) := by
    rw [ch]
    field_simp
  constructor
  · rcases cl' with h | h
    · rw [h, d1, mul_sub]
      linarith [m.1]
    · rw [h, zero_div, mul_zero]
      exact P0
  · rw [d2, mul_add]
    linarith [m.2]

/-! ## A programme -/

/-- The amplitudes of the programme, to a millionth. -/
def Rounded (segs : List (ℕ × ℝ)) (amps : List (ℕ × ℕ)) : Prop :=
  List.Forall₂ (fun s a => s.1 = a.1 ∧ |(a.2 : ℝ) / 10 ^ 6 - (10 : ℝ) ^ (s.2 / 20)| ≤ 1 / 10 ^ 6) segs amps

theorem Rounded.tenths {segs : List (ℕ × ℝ)} {amps : List (ℕ × ℕ)} (h : Rounded segs amps) :
    Spec.tenths segs = Spec.tenths amps := by
  unfold Rounded at h
  induction h with
  | nil => rfl
  | cons h _ ih => simp only [Spec.tenths, List.map_cons, List.sum_cons] at ih ⊢; rw [ih, h.1]

theorem Rounded.near {segs : List (ℕ × ℝ)} {amps : List (ℕ × ℕ)} (h : Rounded segs amps) {i : ℕ}
    (hi : i < Spec.tenths segs) :
    |(ampAt amps i : ℝ) / 10 ^ 6 - (10 : ℝ) ^ (levelAt segs i / 20)| ≤ 1 / 10 ^ 6 := by
  unfold Rounded at h
  induction h generalizing i with
  | nil => simp [Spec.tenths] at hi
  | cons h _ ih =>
    rename_i s a l l' _
    obtain ⟨n, x⟩ := s
    obtain ⟨n', y⟩ := a
    obtain ⟨rfl, h⟩ := h
    simp only [Spec.tenths, List.map_cons, List.sum_cons] at hi
    simp only [ampAt, levelAt]
    split_ifs with hn
    · exact h
    · exact ih (by unfold Spec.tenths; omega)

/-- The samples of a channel, as numbers. -/
noncomputable def channelOf (evs : List (Event F64)) (c : ℕ) : List ℝ :=
  evs.map fun ev => (ev.frame.map Fl.value).getD c 0

theorem idealOuts_all {rate : ℕ} {evs : List (Event F64)} (h : ∀ ev ∈ evs, ev.measured = true) (c : ℕ) :
    idealOuts bs u rate evs c = kWeighted bs u rate (channelOf evs c) := by
  unfold idealOuts kWeighted channelOf
  have e : realEvents evs = (evs.map fun ev => ev.frame.map Fl.value).map fun f => ⟨true, f⟩ := by
    unfold realEvents
    rw [List.map_map]
    refine List.map_congr_left fun ev hev => ?_
    rw [h ev hev]
    rfl
  rw [e, outs_all, List.map_map]
  rfl

/-- The complex amplitude of a sine of gain `γ` and phase `φ`. -/
noncomputable def phasor (γ φ : ℝ) : ℂ := ((10 : ℝ) ^ (γ / 20) : ℝ) * Complex.exp ((φ - Real.pi / 2 : ℝ) * Complex.I)

theorem phasor_norm (γ φ : ℝ) : ‖phasor γ φ‖ = (10 : ℝ) ^ (γ / 20) := by
  unfold phasor
  rw [norm_mul, Complex.norm_exp_ofReal_mul_I, mul_one, Complex.norm_real, Real.norm_eq_abs, abs_of_pos (by positivity)]

theorem phasor_sq (γ φ : ℝ) : ‖phasor γ φ‖ ^ 2 = (10 : ℝ) ^ (γ / 10) := by
  rw [phasor_norm, ← Real.rpow_natCast, ← Real.rpow_mul (by norm_num)]
  congr 1
  push_cast
  ring

theorem phasor_re (γ φ a : ℝ) (n : ℕ) : (phasor γ φ * (a : ℝ) * tone1k ^ n).re =
    (10 : ℝ) ^ (γ / 20) * a * Real.sin (2 * Real.pi * 1000 * (n / 48000) + φ) := by
  have e : phasor γ φ * (a : ℝ) * tone1k ^ n = (((10 : ℝ) ^ (γ / 20) * a : ℝ) : ℂ) *
      Complex.exp ((2 * Real.pi * 1000 * (n / 48000) + φ - Real.pi / 2 : ℝ) * Complex.I) := by
    unfold phasor tone1k
    rw [← Complex.exp_nat_mul, show (((2 * Real.pi * 1000 * (n / 48000) + φ - Real.pi / 2 : ℝ) : ℂ) * Complex.I) =
      ((φ - Real.pi / 2 : ℝ) : ℂ) * Complex.I + (n : ℂ) * (((2 * Real.pi * 1000 / 48000 : ℝ) : ℂ) * Complex.I) by
        push_cast; ring, Complex.exp_add]
    push_cast
    ring
  rw [e, Complex.re_ofReal_mul, Complex.exp_ofReal_mul_I_re, Real.cos_sub_pi_div_two]

section
variable {tol : ℝ} {segs : List (ℕ × ℝ)} {amps : List (ℕ × ℕ)} {channels : ℕ} {gain φ : ℕ → ℝ} {evs : List (Event F64)}

theorem channel_near (h : Plays tol segs channels gain φ evs) (ha : Rounded segs amps) {c : ℕ} (hc : c < channels) :
    ∀ n < (channelOf evs c).length, |(channelOf evs c).getD n 0 -
      (phasor (gain c) (φ c) * ((ampAt amps (n / 4800) : ℝ) / 10 ^ 6 : ℝ) * tone1k ^ n).re| ≤
      ‖phasor (gain c) (φ c)‖ * (tol + 1 / 10 ^ 6) := by
  intro n hn
  have hn' : n < evs.length := by simpa [channelOf] using hn
  have hf := (h.measured _ (List.getElem_mem hn')).2
  have e : (channelOf evs c).getD n 0 = (evs[n].frame[c]'(by omega)).value := by
    rw [List.getD, List.getElem?_eq_getElem hn, Option.getD_some]
    simp [channelOf, hf, hc]
  obtain ⟨-, hs⟩ := h.sample n hn' c (by omega)
  rw [← e] at hs
  rw [phasor_re, phasor_norm]
  have hi : n / 4800 < Spec.tenths segs := (Nat.div_lt_iff_lt_mul (by norm_num)).2 (by rw [← h.length]; exact hn')
  have hr := ha.near hi
  rw [add_div, Real.rpow_add (by norm_num)] at hs
  have g0 : 0 < (10 : ℝ) ^ (gain c / 20) := by positivity
  have s1 := Real.abs_sin_le_one (2 * Real.pi * 1000 * (n / 48000) + φ c)
  generalize (10 : ℝ) ^ (gain c / 20) = G at *
  generalize Real.sin (2 * Real.pi * 1000 * (n / 48000) + φ c) = S at *
  generalize (ampAt amps (n / 4800) : ℝ) / 10 ^ 6 = a at *
  generalize (10 : ℝ) ^ (levelAt segs (n / 4800) / 20) = b at *
  generalize (channelOf evs c).getD n 0 = x at *
  have h1 : |(a - b) * (G * S)| ≤ 1 / 10 ^ 6 * G := by
    rw [abs_mul, abs_mul, abs_of_pos g0]
    refine mul_le_mul hr ?_ (by positivity) (by norm_num)
    exact (mul_le_mul_of_nonneg_left s1 g0.le).trans (by rw [mul_one])
  have e2 : x - G * a * S = (x - b * G * S) - (a - b) * (G * S) := by ring
  rw [e2]
  refine (abs_sub _ _).trans ?_
  linarith

theorem weighted_between {ι : Type} (l : List ι) {w q f : ι → ℝ} {lo hi : ℝ} (hw : ∀ x ∈ l, 0 ≤ w x)
    (h : ∀ x ∈ l, q x * lo ≤ f x ∧ f x ≤ q x * hi) :
    (l.map fun x => w x * q x).sum * lo ≤ (l.map fun x => w x * f x).sum ∧
      (l.map fun x => w x * f x).sum ≤ (l.map fun x => w x * q x).sum * hi := by
  induction l with
  | nil => simp
  | cons x l ih =>
    simp only [List.map_cons, List.sum_cons, add_mul]
    obtain ⟨i1, i2⟩ := ih (fun y hy => hw y (by simp [hy])) fun y hy => h y (by simp [hy])
    obtain ⟨o1, o2⟩ := h x (by simp)
    have w1 := hw x (by simp)
    constructor
    · refine add_le_add ?_ i1
      rw [mul_assoc]
      exact mul_le_mul_of_nonneg_left o1 w1
    · refine add_le_add ?_ i2
      rw [mul_assoc]
      exact mul_le_mul_of_nonneg_left o2 w1

/-- The power of a sine of full scale in every channel. -/
noncomputable def fullPower (cm : List Channel) (gain : ℕ → ℝ) : ℝ :=
  (cm.zipIdx.map fun x => realWeight x.1 * (10 : ℝ) ^ (gain x.2 / 10)).sum

/-- The power of a window of the programme. -/
theorem window_bounds (bs : BSearch) (u : Nat) (h : Plays tol segs channels gain φ evs) (ha : Rounded segs amps)
    (t0 : 0 ≤ tol) {cm : List Channel} (hcm : cm.length = channels) {w k V e : ℕ} (w0 : 0 < w)
    (hk : k + w ≤ Spec.tenths segs) (hV : sumOver (leap (ampAt amps)) 0 k ≤ V)
    (he : 13 * (tol + 1 / 10 ^ 6) ≤ (e : ℝ) / 10 ^ 6) :
    let P := idealPower cm (w * 4800) ((k + w) * 4800) (idealOuts bs u 48000 evs)
    fullPower cm gain * ((low (ampAt amps) V e w k : ℝ) / (480000 * w * 10 ^ 18)) ≤ P ∧
      P ≤ fullPower cm gain * ((high (ampAt amps) V e w k : ℝ) / (480000 * w * 10 ^ 18)) := by
  intro P
  have one : ∀ x ∈ cm.zipIdx, (10 : ℝ) ^ (gain x.2 / 10) * ((low (ampAt amps) V e w k : ℝ) / (480000 * w * 10 ^ 18)) ≤
      meanSquare (lastN 0 (w * 4800) ((idealOuts bs u 48000 evs x.2).take ((k + w) * 4800))) ∧
      meanSquare (lastN 0 (w * 4800) ((idealOuts bs u 48000 evs x.2).take ((k + w) * 4800))) ≤
      (10 : ℝ) ^ (gain x.2 / 10) * ((high (ampAt amps) V e w k : ℝ) / (480000 * w * 10 ^ 18)) := by
    intro x hx
    have hc : x.2 < channels := by
      have := List.snd_lt_of_mem_zipIdx hx
      omega
    rw [idealOuts_all fun ev hev => (h.measured ev hev).1, ← phasor_sq (gain x.2) (φ x.2)]
    exact channel_bounds bs u w0 hk hV (by positivity) he
      (by simpa [channelOf] using h.length) (channel_near h ha hc)
  generalize (low (ampAt amps) V e w k : ℝ) / (480000 * w * 10 ^ 18) = lo at *
  generalize (high (ampAt amps) V e w k : ℝ) / (480000 * w * 10 ^ 18) = hi at *
  exact weighted_between cm.zipIdx (w := fun x => realWeight x.1) (q := fun x => (10 : ℝ) ^ (gain x.2 / 10))
    (f := fun x => meanSquare (lastN 0 (w * 4800) ((idealOuts bs u 48000 evs x.2).take ((k + w) * 4800))))
    (fun x _ => realWeight_nonneg x.1) one

theorem levelAt_le {B : ℝ} (hB : 0 ≤ B) (h : ∀ s ∈ segs, s.2 ≤ B) (i : ℕ) : levelAt segs i ≤ B := by
  induction segs generalizing i with
  | nil => exact hB
  | cons s l ih =>
    obtain ⟨n, x⟩ := s
    simp only [levelAt]
    split_ifs
    · exact h (n, x) (by simp)
    · exact ih (fun s hs => h s (by simp [hs])) _

theorem plays_within (h : Plays tol segs channels gain φ evs) (hs : ∀ s ∈ segs, s.2 ≤ 0) {X : ℝ}
    (hX : ∀ c < channels, (1 + tol) * (10 : ℝ) ^ (gain c / 20) ≤ X) : SamplesWithin X evs := by
  intro ev hev x hx
  obtain ⟨n, hn, rfl⟩ := List.getElem_of_mem hev
  obtain ⟨c, hc, rfl⟩ := List.getElem_of_mem hx
  obtain ⟨h1, h2⟩ := h.sample n hn c hc
  refine ⟨h1, ?_⟩
  have hcc := (h.measured _ hev).2
  have h3 := hX c (by omega)
  have h4 : |(10 : ℝ) ^ ((levelAt segs (n / 4800) + gain c) / 20) *
      Real.sin (2 * Real.pi * 1000 * (n / 48000) + φ c)| ≤ (10 : ℝ) ^ (gain c / 20) := by
    rw [abs_mul, abs_of_pos (by positivity)]
    refine (mul_le_mul (Real.rpow_le_rpow_of_exponent_le (y := (levelAt segs (n / 4800) + gain c) / 20)
      (z := gain c / 20) (by norm_num) ?_) (Real.abs_sin_le_one _) (abs_nonneg _) (by positivity)).trans (by rw [mul_one])
    have := levelAt_le le_rfl hs (n / 4800)
    linarith
  have h5 := abs_le.1 h2
  have h6 := abs_le.1 h4
  exact abs_le.2 ⟨by linarith [h5.1, h6.1], by linarith [h5.2, h6.2]⟩

theorem plays_count (h : Plays tol segs channels gain φ evs) : count evs = Spec.tenths segs * 4800 := by
  rw [count, List.filter_eq_self.2 fun ev hev => (h.measured ev hev).1, h.length]

end

end Verif
