import Mathlib.Analysis.Real.Sqrt
import Mathlib.Analysis.Complex.Norm
import Mathlib.Algebra.BigOperators.Intervals
import Mathlib.Tactic.Linarith
import Mathlib.Tactic.FieldSimp
import Mathlib.Tactic.NormNum
/-!
# The transient of the filter at 1 kHz, in numbers

The transient after the onset of a tone obeys the recursion of the filter without input. Here it is followed in whole
numbers (multiples of `10 ^ -20`, with an offset of `10 ^ 24`), and the magnitudes are added up.
-/

namespace Verif

/-- Evaluate `n` before going on. -/
def force {α : Type} (n : ℕ) (k : ℕ → α) : α := Nat.rec (k 0) (fun m _ => k (Nat.succ m)) n

theorem force_eq {α : Type} (n : ℕ) (k : ℕ → α) : force n k = k n := by cases n <;> rfl

/-- The next value of the recursion is the quotient of the difference of `settleUp` and `settleDown`. The last four
values are `x0` (the oldest) to `x3`. -/
def settleUp (x1 x3 : ℕ) : ℕ := 3680706748016389972000000 * x3 + 3131546351446730049855171 * x1 + 1036985880870995351000000000000000000000000

def settleDown (x0 x2 : ℕ) : ℕ := 5087045247971130536391689 * x2 + 725208888477870356458833 * x0

def settleNext (x0 x1 x2 x3 : ℕ) : ℕ := (settleUp x1 x3 - settleDown x0 x2) / 10 ^ 24

/-- The distance from the offset. -/
def gap (x : ℕ) : ℕ := (x - 10 ^ 24) + (10 ^ 24 - x)

/-- An estimate of the magnitude. -/
def guess (x y : ℕ) : ℕ := (123 * Nat.max x y + 51 * Nat.min x y) / 128 + 1

/-- A bound for the magnitude. -/
def hypot (x y : ℕ) : ℕ := ((x * x + y * y) / guess x y + guess x y) / 2 + 1

/-- Follow the real and the imaginary part for `n` steps: the values reached, the sum of the magnitudes, and the sum of
their squares. -/
def settle (n : ℕ) : ℕ → ℕ → ℕ → ℕ → ℕ → ℕ → ℕ → ℕ → ℕ → ℕ → List ℕ :=
  Nat.rec (fun r0 r1 r2 r3 i0 i1 i2 i3 t q => [r0, r1, r2, r3, i0, i1, i2, i3, t, q])
    (fun _ ih r0 r1 r2 r3 i0 i1 i2 i3 t q =>
      bif Nat.ble (settleDown r0 r2) (settleUp r1 r3) && Nat.ble (settleDown i0 i2) (settleUp i1 i3) then
        force (gap r0) fun x => force (gap i0) fun y => force (t + hypot x y) fun t =>
        force (q + (x * x + y * y)) fun q => force (settleNext r0 r1 r2 r3) fun r4 =>
        force (settleNext i0 i1 i2 i3) fun i4 => ih r1 r2 r3 r4 i1 i2 i3 i4 t q
      else []) n

set_option maxRecDepth 100000 in
theorem settle_part1 : settle 960
    1000051248055655255255500 1000044327983097367471823 1000037402928826825570895 1000030763874206477984285
    999964156546145444660200 999971152405425373560192 999977185163438485788621 999982262409405646544547 0 0 =
    [1000000003613154729654482, 1000000003599425448042694, 1000000003585743217631680, 1000000003572107910567084,
      1000000088236115401109434, 1000000087952854530836214, 1000000087670224965724866, 1000000087388227446286291,
      1127077991965173837054, 14405880596068666644922649025344433158333] := by
  decide +kernel

set_option maxRecDepth 100000 in
theorem settle_part2 : settle 3840
    1000000003613154729654482 1000000003599425448042694 1000000003585743217631680 1000000003572107910567084
    1000000088236115401109434 1000000087952854530836214 1000000087670224965724866 1000000087388227446286291 0 0 =
    [1000000000000000085140141, 1000000000000000084726659, 1000000000000000084315161, 1000000000000000083905638,
      1000000000000002980672046, 1000000000000002966362485, 1000000000000002952121423, 1000000000000002937948533,
      24017177421568518844, 1111954233794816652063921608404724238] := by
  decide +kernel

set_option maxRecDepth 100000 in
theorem settle_part3 : settle 1440
    1000000000000000085140141 1000000000000000084726659 1000000000000000084315161 1000000000000000083905638
    1000000000000002980672046 1000000000000002966362485 1000000000000002952121423 1000000000000002937948533 0 0 =
    [999999999999999999539085, 999999999999999999538212, 999999999999999999537336, 999999999999999999536457,
      1000000000000000002200077, 1000000000000000002186890, 1000000000000000002173760, 1000000000000000002160687,
      618590321110, 926880640282706360261] := by
  decide +kernel

/-- The whole sequence, from its first four values. -/
def settleSeq : ℕ → ℕ → ℕ → ℕ → ℕ → ℕ
  | x0, _, _, _, 0 => x0
  | x0, x1, x2, x3, n + 1 => settleSeq x1 x2 x3 (settleNext x0 x1 x2 x3) n

theorem settleSeq_succ (x0 x1 x2 x3 n : ℕ) :
    settleSeq x0 x1 x2 x3 (n + 1) = settleSeq x1 x2 x3 (settleNext x0 x1 x2 x3) n := rfl

theorem settleSeq_next (x0 x1 x2 x3 n : ℕ) : settleSeq x0 x1 x2 x3 (n + 4) =
    settleNext (settleSeq x0 x1 x2 x3 n) (settleSeq x0 x1 x2 x3 (n + 1)) (settleSeq x0 x1 x2 x3 (n + 2))
      (settleSeq x0 x1 x2 x3 (n + 3)) := by
  induction n generalizing x0 x1 x2 x3 with
  | zero => rfl
  | succ n ih => exact ih x1 x2 x3 _

theorem settleSeq_add (x0 x1 x2 x3 m n : ℕ) : settleSeq x0 x1 x2 x3 (m + n) =
    settleSeq (settleSeq x0 x1 x2 x3 m) (settleSeq x0 x1 x2 x3 (m + 1)) (settleSeq x0 x1 x2 x3 (m + 2))
      (settleSeq x0 x1 x2 x3 (m + 3)) n := by
  induction m generalizing x0 x1 x2 x3 with
  | zero => rw [Nat.zero_add]; rfl
  | succ m ih => rw [Nat.succ_add]; exact ih x1 x2 x3 _

/-- The magnitude at step `k`, bounded. -/
def settleMag (r i : ℕ → ℕ) (k : ℕ) : ℕ := hypot (gap (r k)) (gap (i k))

/-- Its square. -/
def settleSq (r i : ℕ → ℕ) (k : ℕ) : ℕ := gap (r k) * gap (r k) + gap (i k) * gap (i k)

/-- No difference is cut off at zero. -/
def Settles (x : ℕ → ℕ) (k : ℕ) : Prop := settleDown (x k) (x (k + 2)) ≤ settleUp (x (k + 1)) (x (k + 3))

theorem settle_spec (n : ℕ) : ∀ (r0 r1 r2 r3 i0 i1 i2 i3 t q a0 a1 a2 a3 b0 b1 b2 b3 t' q' : ℕ),
    settle n r0 r1 r2 r3 i0 i1 i2 i3 t q = [a0, a1, a2, a3, b0, b1, b2, b3, t', q'] →
    let r := settleSeq r0 r1 r2 r3
    let i := settleSeq i0 i1 i2 i3
    (r n = a0 ∧ r (n + 1) = a1 ∧ r (n + 2) = a2 ∧ r (n + 3) = a3) ∧
    (i n = b0 ∧ i (n + 1) = b1 ∧ i (n + 2) = b2 ∧ i (n + 3) = b3) ∧
    t' = t + ∑ k ∈ Finset.range n, settleMag r i k ∧ q' = q + ∑ k ∈ Finset.range n, settleSq r i k ∧
    ∀ k < n, Settles r k ∧ Settles i k := by
  induction n with
  | zero =>
    intro r0 r1 r2 r3 i0 i1 i2 i3 t q a0 a1 a2 a3 b0 b1 b2 b3 t' q' h
    have h' : [r0, r1, r2, r3, i0, i1, i2, i3, t, q] = [a0, a1, a2, a3, b0, b1, b2, b3, t', q'] := h
    simp only [List.cons.injEq, and_true] at h'
    obtain ⟨h0, h1, h2, h3, h4, h5, h6, h7, h8, h9⟩ := h'
    refine ⟨⟨h0, h1, h2, h3⟩, ⟨h4, h5, h6, h7⟩, by simp [h8], by simp [h9], fun k hk => absurd hk (by omega)⟩
  | succ n ih =>
    intro r0 r1 r2 r3 i0 i1 i2 i3 t q a0 a1 a2 a3 b0 b1 b2 b3 t' q' h
    have e : settle (n + 1) r0 r1 r2 r3 i0 i1 i2 i3 t q =
        bif Nat.ble (settleDown r0 r2) (settleUp r1 r3) && Nat.ble (settleDown i0 i2) (settleUp i1 i3) then
          settle n r1 r2 r3 (settleNext r0 r1 r2 r3) i1 i2 i3 (settleNext i0 i1 i2 i3) (t + hypot (gap r0) (gap i0))
            (q + (gap r0 * gap r0 + gap i0 * gap i0))
        else [] := by
      have e' : settle (n + 1) r0 r1 r2 r3 i0 i1 i2 i3 t q =
          bif Nat.ble (settleDown r0 r2) (settleUp r1 r3) && Nat.ble (settleDown i0 i2) (settleUp i1 i3) then
            force (gap r0) fun x => force (gap i0) fun y => force (t + hypot x y) fun t =>
            force (q + (x * x + y * y)) fun q => force (settleNext r0 r1 r2 r3) fun r4 =>
            force (settleNext i0 i1 i2 i3) fun i4 => settle n r1 r2 r3 r4 i1 i2 i3 i4 t q
          else [] := rfl
      simpa only [force_eq] using e'
    rw [e] at h
    cases hc : Nat.ble (settleDown r0 r2) (settleUp r1 r3) && Nat.ble (settleDown i0 i2) (settleUp i1 i3) with
    | false => rw [hc] at h; simp at h
    | true =>
      rw [hc, cond_true] at h
      obtain ⟨g1, g2, g3, g4, g5⟩ := ih _ _ _ _ _ _ _ _ _ _ _ _ _ _ _ _ _ _ _ _ h
      rw [Bool.and_eq_true, Nat.ble_eq, Nat.ble_eq] at hc
      refine ⟨g1, g2, ?_, ?_, fun k hk => ?_⟩
      · rw [g3, Finset.sum_range_succ', add_assoc, add_comm (hypot _ _)]
        rfl
      · rw [g4, Finset.sum_range_succ', add_assoc, add_comm (gap r0 * gap r0 + _)]
        rfl
      · cases k with
        | zero => exact hc
        | succ k => exact g5 k (by omega)

theorem settleSeq_shift {x0 x1 x2 x3 n a0 a1 a2 a3 : ℕ}
    (h : settleSeq x0 x1 x2 x3 n = a0 ∧ settleSeq x0 x1 x2 x3 (n + 1) = a1 ∧ settleSeq x0 x1 x2 x3 (n + 2) = a2 ∧
      settleSeq x0 x1 x2 x3 (n + 3) = a3) (k : ℕ) :
    settleSeq x0 x1 x2 x3 (n + k) = settleSeq a0 a1 a2 a3 k := by
  rw [settleSeq_add, h.1, h.2.1, h.2.2.1, h.2.2.2]

/-- What two stretches give together. -/
theorem settle_join {n m : ℕ} {r0 r1 r2 r3 i0 i1 i2 i3 a0 a1 a2 a3 b0 b1 b2 b3 t q c0 c1 c2 c3 d0 d1 d2 d3 : ℕ}
    (h : settleSeq r0 r1 r2 r3 n = a0 ∧ settleSeq r0 r1 r2 r3 (n + 1) = a1 ∧ settleSeq r0 r1 r2 r3 (n + 2) = a2 ∧
      settleSeq r0 r1 r2 r3 (n + 3) = a3)
    (h' : settleSeq i0 i1 i2 i3 n = b0 ∧ settleSeq i0 i1 i2 i3 (n + 1) = b1 ∧ settleSeq i0 i1 i2 i3 (n + 2) = b2 ∧
      settleSeq i0 i1 i2 i3 (n + 3) = b3)
    (e : settle m a0 a1 a2 a3 b0 b1 b2 b3 0 0 = [c0, c1, c2, c3, d0, d1, d2, d3, t, q]) :
    let r := settleSeq r0 r1 r2 r3
    let i := settleSeq i0 i1 i2 i3
    (r (n + m) = c0 ∧ r (n + m + 1) = c1 ∧ r (n + m + 2) = c2 ∧ r (n + m + 3) = c3) ∧
    (i (n + m) = d0 ∧ i (n + m + 1) = d1 ∧ i (n + m + 2) = d2 ∧ i (n + m + 3) = d3) ∧
    ∑ k ∈ Finset.range m, settleMag r i (n + k) = t ∧ ∑ k ∈ Finset.range m, settleSq r i (n + k) = q ∧
    ∀ k < m, Settles r (n + k) ∧ Settles i (n + k) := by
  intro r i
  have R := settleSeq_shift h
  have I := settleSeq_shift h'
  obtain ⟨g1, g2, g3, g4, g5⟩ := settle_spec _ _ _ _ _ _ _ _ _ _ _ _ _ _ _ _ _ _ _ _ _ e
  rw [Nat.zero_add] at g3 g4
  refine ⟨?_, ?_, ?_, ?_, fun k hk => ?_⟩
  · simp only [r, add_assoc, R]; exact g1
  · simp only [i, add_assoc, I]; exact g2
  · rw [g3]; refine Finset.sum_congr rfl fun k _ => ?_
    simp only [settleMag, r, i, R, I]
  · rw [g4]; refine Finset.sum_congr rfl fun k _ => ?_
    simp only [settleSq, r, i, R, I]
  · have := g5 k hk
    unfold Settles at this ⊢
    simp only [r, i, add_assoc, R, I]
    exact this

/-- What three stretches give together. -/
theorem settle_three {n m l : ℕ} {r0 r1 r2 r3 i0 i1 i2 i3 a0 a1 a2 a3 b0 b1 b2 b3 t1 q1 c0 c1 c2 c3 d0 d1 d2 d3 t2 q2
      e0 e1 e2 e3 f0 f1 f2 f3 t3 q3 : ℕ}
    (h1 : settle n r0 r1 r2 r3 i0 i1 i2 i3 0 0 = [a0, a1, a2, a3, b0, b1, b2, b3, t1, q1])
    (h2 : settle m a0 a1 a2 a3 b0 b1 b2 b3 0 0 = [c0, c1, c2, c3, d0, d1, d2, d3, t2, q2])
    (h3 : settle l c0 c1 c2 c3 d0 d1 d2 d3 0 0 = [e0, e1, e2, e3, f0, f1, f2, f3, t3, q3])
    {r i : ℕ → ℕ} (hr : r = settleSeq r0 r1 r2 r3) (hi : i = settleSeq i0 i1 i2 i3) :
    ∑ k ∈ Finset.range n, settleMag r i k = t1 ∧ ∑ k ∈ Finset.range m, settleMag r i (n + k) = t2 ∧
    ∑ k ∈ Finset.range l, settleMag r i (n + m + k) = t3 ∧
    ∑ k ∈ Finset.range (n + m + l), settleSq r i k = q1 + q2 + q3 ∧
    (∀ k < n + m + l, Settles r k ∧ Settles i k) ∧
    (r (n + m + l) = e0 ∧ r (n + m + l + 1) = e1 ∧ r (n + m + l + 2) = e2 ∧ r (n + m + l + 3) = e3) ∧
    i (n + m + l) = f0 ∧ i (n + m + l + 1) = f1 ∧ i (n + m + l + 2) = f2 ∧ i (n + m + l + 3) = f3 := by
  subst hr hi
  obtain ⟨x1, y1, u1, v1, s1⟩ := settle_spec _ _ _ _ _ _ _ _ _ _ _ _ _ _ _ _ _ _ _ _ _ h1
  rw [Nat.zero_add] at u1 v1
  obtain ⟨x2, y2, u2, v2, s2⟩ := settle_join x1 y1 h2
  obtain ⟨x3, y3, u3, v3, s3⟩ := settle_join x2 y2 h3
  refine ⟨u1.symm, u2, u3, ?_, fun k hk => ?_, x3, y3⟩
  · rw [Finset.sum_range_add, Finset.sum_range_add, v2, v3, ← v1]
  · by_cases k1 : k < n
    · exact s1 k k1
    · by_cases k2 : k < n + m
      · obtain ⟨j, rfl⟩ := Nat.exists_eq_add_of_le (Nat.not_lt.1 k1)
        exact s2 j (by omega)
      · obtain ⟨j, rfl⟩ := Nat.exists_eq_add_of_le (Nat.not_lt.1 k2)
        exact s3 j (by omega)

/-- The real part of the transient. -/
def settleRe : ℕ → ℕ := settleSeq 1000051248055655255255500 1000044327983097367471823 1000037402928826825570895 1000030763874206477984285

/-- The imaginary part. -/
def settleIm : ℕ → ℕ := settleSeq 999964156546145444660200 999971152405425373560192 999977185163438485788621 999982262409405646544547

/-- The sums. -/
theorem settled :
    ∑ k ∈ Finset.range 960, settleMag settleRe settleIm k = 1127077991965173837054 ∧
    ∑ k ∈ Finset.range 3840, settleMag settleRe settleIm (960 + k) = 24017177421568518844 ∧
    ∑ k ∈ Finset.range 1440, settleMag settleRe settleIm (4800 + k) = 618590321110 ∧
    ∑ k ∈ Finset.range 6240, settleSq settleRe settleIm k = 14406992550302461462501593587235544242832 ∧
    (∀ k < 6240, Settles settleRe k ∧ Settles settleIm k) ∧
    (settleRe 6240 = 999999999999999999539085 ∧ settleRe 6241 = 999999999999999999538212 ∧ settleRe 6242 = 999999999999999999537336 ∧
      settleRe 6243 = 999999999999999999536457) ∧
    settleIm 6240 = 1000000000000000002200077 ∧ settleIm 6241 = 1000000000000000002186890 ∧ settleIm 6242 = 1000000000000000002173760 ∧
      settleIm 6243 = 1000000000000000002160687 := by
  obtain ⟨R, hR⟩ : ∃ R, R = settleRe := ⟨_, rfl⟩
  obtain ⟨I, hI⟩ : ∃ I, I = settleIm := ⟨_, rfl⟩
  have := settle_three settle_part1 settle_part2 settle_part3 (r := R) (i := I) (by rw [hR, settleRe]) (by rw [hI, settleIm])
  rw [← hR, ← hI]
  norm_num only at this
  exact this

/-! ## As real numbers -/

theorem gap_real (x : ℕ) : (gap x : ℝ) = |(x : ℝ) - 10 ^ 24| := by
  unfold gap
  rcases Nat.le_total x (10 ^ 24) with h | h
  · have h' : (x : ℝ) ≤ 10 ^ 24 := by exact_mod_cast h
    rw [Nat.sub_eq_zero_of_le h, abs_of_nonpos (by linarith), Nat.zero_add, Nat.cast_sub h]
    push_cast
    ring
  · have h' : (10 ^ 24 : ℝ) ≤ x := by exact_mod_cast h
    rw [Nat.sub_eq_zero_of_le h, abs_of_nonneg (by linarith), Nat.add_zero, Nat.cast_sub h]
    push_cast
    ring

theorem hypot_ge (x y : ℕ) : (x : ℝ) ^ 2 + (y : ℝ) ^ 2 ≤ (hypot x y : ℝ) ^ 2 := by
  have hs : 1 ≤ guess x y := by unfold guess; omega
  generalize hg : guess x y = s at hs
  have e : hypot x y = ((x * x + y * y) / s + s) / 2 + 1 := by unfold hypot; rw [hg]
  have h1 : x * x + y * y < s * ((x * x + y * y) / s + 1) := by
    have := Nat.lt_mul_div_succ (x * x + y * y) (by omega : 0 < s)
    exact this
  have h2 : (x * x + y * y) / s + s + 1 ≤ 2 * hypot x y := by rw [e]; omega
  generalize (x * x + y * y) / s = d at h1 h2
  have h1' : (x : ℝ) ^ 2 + (y : ℝ) ^ 2 ≤ s * (d + 1) := by
    have : ((x * x + y * y : ℕ) : ℝ) ≤ ((s * (d + 1) : ℕ) : ℝ) := by exact_mod_cast h1.le
    push_cast at this
    nlinarith
  have h2' : (d : ℝ) + 1 + s ≤ 2 * hypot x y := by
    have : ((d + s + 1 : ℕ) : ℝ) ≤ ((2 * hypot x y : ℕ) : ℝ) := by exact_mod_cast h2
    push_cast at this
    linarith
  have h3 : 0 ≤ (d : ℝ) + 1 + s := by positivity
  have h4 : ((d : ℝ) + 1 + s) ^ 2 ≤ (2 * hypot x y) ^ 2 := pow_le_pow_left₀ h3 h2' 2
  nlinarith [sq_nonneg ((d : ℝ) + 1 - s)]

/-- The value at step `k`. -/
noncomputable def settleVal (k : ℕ) : ℂ :=
  ⟨((settleRe k : ℝ) - 10 ^ 24) / 10 ^ 20, ((settleIm k : ℝ) - 10 ^ 24) / 10 ^ 20⟩

theorem settleVal_sq (k : ℕ) : ‖settleVal k‖ ^ 2 = settleSq settleRe settleIm k / 10 ^ 40 := by
  rw [← Complex.normSq_eq_norm_sq, Complex.normSq_apply]
  unfold settleSq settleVal
  push_cast
  rw [gap_real, gap_real, abs_mul_abs_self, abs_mul_abs_self]
  ring

theorem settleVal_norm (k : ℕ) : ‖settleVal k‖ ≤ settleMag settleRe settleIm k / 10 ^ 20 := by
  refine abs_le_of_sq_le_sq' ?_ (by positivity) |>.2
  rw [settleVal_sq]
  have h := hypot_ge (gap (settleRe k)) (gap (settleIm k))
  unfold settleSq settleMag
  push_cast
  rw [div_pow, show ((10 : ℝ) ^ 20) ^ 2 = 10 ^ 40 by norm_num]
  apply div_le_div_of_nonneg_right _ (by positivity)
  nlinarith

theorem settleNext_real {x0 x1 x2 x3 : ℕ} (h : settleDown x0 x2 ≤ settleUp x1 x3) :
    |((settleNext x0 x1 x2 x3 : ℝ) - 10 ^ 24) / 10 ^ 20 - 3680706748016389972000000 / 10 ^ 24 * (((x3 : ℝ) - 10 ^ 24) / 10 ^ 20) +
      5087045247971130536391689 / 10 ^ 24 * (((x2 : ℝ) - 10 ^ 24) / 10 ^ 20) -
      3131546351446730049855171 / 10 ^ 24 * (((x1 : ℝ) - 10 ^ 24) / 10 ^ 20) +
      725208888477870356458833 / 10 ^ 24 * (((x0 : ℝ) - 10 ^ 24) / 10 ^ 20)| ≤ 1 / 10 ^ 20 := by
  have h1 := Nat.div_mul_le_self (settleUp x1 x3 - settleDown x0 x2) (10 ^ 24)
  have h2 := Nat.lt_mul_div_succ (settleUp x1 x3 - settleDown x0 x2) (show 0 < 10 ^ 24 by norm_num)
  change settleNext x0 x1 x2 x3 * 10 ^ 24 ≤ _ at h1
  change _ < 10 ^ 24 * (settleNext x0 x1 x2 x3 + 1) at h2
  generalize settleNext x0 x1 x2 x3 = x4 at *
  have h1' : ((x4 * 10 ^ 24 : ℕ) : ℝ) ≤ ((settleUp x1 x3 - settleDown x0 x2 : ℕ) : ℝ) := by exact_mod_cast h1
  have h2' : ((settleUp x1 x3 - settleDown x0 x2 : ℕ) : ℝ) ≤ ((10 ^ 24 * (x4 + 1) : ℕ) : ℝ) := by exact_mod_cast h2.le
  rw [Nat.cast_sub h] at h1' h2'
  unfold settleUp settleDown at h1' h2'
  push_cast at h1' h2'
  rw [abs_le]
  constructor <;> linarith

theorem settleVal_rec {k : ℕ} (hk : k < 6240) :
    ‖settleVal (k + 4) - (3680706748016389972000000 / 10 ^ 24 : ℝ) * settleVal (k + 3) + (5087045247971130536391689 / 10 ^ 24 : ℝ) * settleVal (k + 2) -
      (3131546351446730049855171 / 10 ^ 24 : ℝ) * settleVal (k + 1) + (725208888477870356458833 / 10 ^ 24 : ℝ) * settleVal k‖ ≤ 2 / 10 ^ 20 := by
  obtain ⟨-, -, -, -, h, -⟩ := settled
  have hr := settleNext_real (h k hk).1
  have hi := settleNext_real (h k hk).2
  rw [show settleNext (settleRe k) (settleRe (k + 1)) (settleRe (k + 2)) (settleRe (k + 3)) = settleRe (k + 4) from
    (settleSeq_next _ _ _ _ k).symm] at hr
  rw [show settleNext (settleIm k) (settleIm (k + 1)) (settleIm (k + 2)) (settleIm (k + 3)) = settleIm (k + 4) from
    (settleSeq_next _ _ _ _ k).symm] at hi
  refine (Complex.norm_le_abs_re_add_abs_im _).trans ?_
  simp only [Complex.sub_re, Complex.add_re, Complex.sub_im, Complex.add_im, Complex.re_ofReal_mul,
    Complex.im_ofReal_mul]
  unfold settleVal
  refine (add_le_add hr hi).trans (by norm_num)

end Verif
