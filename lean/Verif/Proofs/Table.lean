import Verif.Proofs.Hist
import Verif.Proofs.Query
import Verif.Proofs.Percentile
import Verif.Proofs.FloatOps
/-! # The histogram tables as doubles and the bin search -/

set_option linter.unusedSimpArgs false

namespace Verif
variable {D S : Type}

/-! ## The search, for any arithmetic -/

/-- `HISTOGRAM_BOUNDARIES[i]`. -/
def boundary (E : Env D S) (i : Nat) : D := (boundaries E).getD i E.f64.zero

theorem findLoop_spec (E : Env D S) (x : D) (fuel min max : Nat) (h1 : min + 2 ≤ max) (h2 : max ≤ 1000)
    (h3 : max - min ≤ fuel) (hmin : min = 0 ∨ E.f64.le (boundary E min) x = true)
    (hmax : max = 1000 ∨ E.f64.le (boundary E max) x = false) :
    ∃ i, findLoop E x fuel min max = .done i ∧ i < 1000 ∧ (i = 0 ∨ E.f64.le (boundary E i) x = true) ∧
      (i + 1 = 1000 ∨ E.f64.le (boundary E (i + 1)) x = false) := by
  induction fuel generalizing min max with
  | zero => omega
  | succ fuel ih =>
    have hm : (min + max) / 2 < (boundaries E).length := by rw [boundaries_length]; omega
    have hb : (boundaries E)[(min + max) / 2] = boundary E ((min + max) / 2) := by
      simp [boundary, List.getD, hm]
    simp only [findLoop, Run.bind_eq, Run.index_lt hm, Run.done_bind, hb]
    by_cases hle : E.f64.le (boundary E ((min + max) / 2)) x = true
    · rw [if_pos hle]
      by_cases h1' : max - (min + max) / 2 = 1
      · rw [if_pos h1']
        refine ⟨_, rfl, by omega, .inr hle, ?_⟩
        rw [show (min + max) / 2 + 1 = max by omega]
        exact hmax
      · rw [if_neg h1']
        exact ih ((min + max) / 2) max (by omega) h2 (by omega) (.inr hle) hmax
    · rw [if_neg hle]
      rw [Bool.not_eq_true] at hle
      by_cases h1' : (min + max) / 2 - min = 1
      · rw [if_pos h1']
        refine ⟨_, rfl, by omega, hmin, ?_⟩
        rw [show min + 1 = (min + max) / 2 by omega]
        exact .inr hle
      · rw [if_neg h1']
        exact ih min ((min + max) / 2) (by omega) (by omega) (by omega) hmin (.inr hle)

/-- The bin found has its lower boundary at or below the energy (unless it is the first) and its upper
boundary not at or below it (unless it is the last). -/
theorem findP_spec (E : Env D S) (x : D) :
    (findP E x = 0 ∨ E.f64.le (boundary E (findP E x)) x = true) ∧
      (findP E x + 1 = 1000 ∨ E.f64.le (boundary E (findP E x + 1)) x = false) := by
  obtain ⟨i, h, hi, h1, h2⟩ := findLoop_spec E x 1000 0 1000 (by omega) (by omega) (by omega) (.inl rfl) (.inl rfl)
  have h' : findHistogramIndex E x = .done i := h
  rw [(find_eq E x).1] at h'
  cases h'
  exact ⟨h1, h2⟩

/-! ## Table entries as bit patterns -/

/-- Two lists interleaved. -/
def interleave : List Nat → List Nat → List Nat
  | a :: l, b :: m => a :: b :: interleave l m
  | l, [] => l
  | [], m => m

/-- Every entry is positive and at least one percent above the one before. -/
def spaced : List Nat → Bool
  | a :: b :: l => Nat.ble 1 a && Nat.ble (a * 101) (b * 100) && spaced (b :: l)
  | [a] => Nat.ble 1 a
  | [] => true

theorem table_spaced : spaced (interleave boundariesN energiesN) = true := by decide +kernel

theorem spaced_tail {a : Nat} {l : List Nat} (h : spaced (a :: l) = true) : spaced l = true := by
  cases l with
  | nil => rfl
  | cons b l => simp only [spaced, Bool.and_eq_true] at h; exact h.2

theorem spaced_interleave (l m : List Nat) (h : spaced (interleave l m) = true) (i : Nat)
    (hl : i < l.length) (hm : i < m.length) :
    1 ≤ l[i] ∧ 1 ≤ m[i] ∧ l[i] * 101 ≤ m[i] * 100 ∧ (∀ (h' : i + 1 < l.length), m[i] * 101 ≤ l[i + 1] * 100) := by
  induction l generalizing m i with
  | nil => simp at hl
  | cons a l ih =>
    match m with
    | [] => simp at hm
    | b :: m =>
      have h' := h
      simp only [interleave, spaced, Bool.and_eq_true, Nat.ble_eq] at h'
      obtain ⟨⟨h1, h2⟩, h3⟩ := h'
      cases i with
      | zero =>
        refine ⟨h1, ?_, h2, ?_⟩
        · show 1 ≤ b
          omega
        · intro hh
          match l, m with
          | c :: l, m =>
            have : spaced (b :: interleave (c :: l) m) = true := h3
            match m with
            | [] => simp only [interleave, spaced, Bool.and_eq_true, Nat.ble_eq] at this; exact this.1.2
            | d :: m => simp only [interleave, spaced, Bool.and_eq_true, Nat.ble_eq] at this; exact this.1.2
      | succ i =>
        obtain ⟨k1, k2, k3, k4⟩ := ih m (spaced_tail h3) i (by simpa using hl) (by simpa using hm)
        exact ⟨k1, k2, k3, fun hh => k4 (by simpa using hh)⟩

/-- Numbers one percent apart round to different doubles. -/
theorem rnd_lt_of_gap {a b c : Nat} (hb : 0 < b) (hn : b * 2 ^ 52 ≤ a) (h : a * 101 ≤ c * 100)
    (hi : Fmt.b64.rnd a b < Fmt.b64.infK) : Fmt.b64.rnd a b < Fmt.b64.rnd c b := by
  rw [Fmt.rnd_gt_iff _ Fmt.b64_mb hb hi]
  have h1 := rnd_b64_bound (a := a) hb
  have h2 := Fmt.gap_le Fmt.b64 (Fmt.b64.rnd a b)
  have h3 := Fmt.mag_lt_succ Fmt.b64 (Fmt.b64.rnd a b)
  generalize Fmt.b64.mag (Fmt.b64.rnd a b) = x at *
  generalize Fmt.b64.mag (Fmt.b64.rnd a b + 1) = y at *
  obtain ⟨g, rfl⟩ : ∃ g, y = x + g := ⟨y - x, by omega⟩
  have key : (x + (x + g)) * b < 2 * c := by
    rw [Nat.add_sub_cancel_left] at h2
    change g * 2 ^ 52 ≤ max (2 ^ 52) x at h2
    have h4 : g * b * 2 ^ 52 ≤ 2 ^ 52 * b + x * b := by
      have : g * 2 ^ 52 * b ≤ (2 ^ 52 + x) * b := 
        Nat.mul_le_mul_right _ (Nat.le_trans h2 (Nat.max_le.2 ⟨Nat.le_add_right .., Nat.le_add_left ..⟩))
      rw [Nat.add_mul] at this
      rwa [Nat.mul_right_comm] at this
    have h5 : (x + (x + g)) * b = 2 * (x * b) + g * b := by ring
    have h6 : x * b * (2 * 2 ^ 52 - 1) ≤ (2 * a + b) * 2 ^ 52 := by rw [Nat.mul_right_comm]; exact h1
    rw [h5]
    generalize x * b = X at *
    generalize g * b = G at *
    omega
  split
  · exact key
  · omega

/-- Bit pattern of `HISTOGRAM_BOUNDARIES[i]`. -/
def bkey (i : Nat) : Nat := Fmt.b64.rnd (boundariesN.getD i 0 * 2 ^ Fmt.b64.u) (10 ^ 36)
/-- Bit pattern of `HISTOGRAM_ENERGIES[i]`. -/
def ekey (i : Nat) : Nat := Fmt.b64.rnd (energiesN.getD i 0 * 2 ^ Fmt.b64.u) (10 ^ 36)

theorem top_small : boundariesN.getD 1000 0 ≤ 10 ^ 40 := by decide +kernel

theorem getD_lt {l : List Nat} {i : Nat} (h : i < l.length) : l.getD i 0 = l[i] := by
  simp [List.getD, h]

theorem table_entry (i : Nat) (hi : i < 1000) :
    1 ≤ boundariesN.getD i 0 ∧ 1 ≤ energiesN.getD i 0 ∧
      boundariesN.getD i 0 * 101 ≤ energiesN.getD i 0 * 100 ∧
      energiesN.getD i 0 * 101 ≤ boundariesN.getD (i + 1) 0 * 100 := by
  have h1 : i < boundariesN.length := by rw [boundariesN_length]; omega
  have h2 : i < energiesN.length := by rw [energiesN_length]; omega
  have h3 : i + 1 < boundariesN.length := by rw [boundariesN_length]; omega
  obtain ⟨k1, k2, k3, k4⟩ := spaced_interleave _ _ table_spaced i h1 h2
  have k4 := k4 h3
  rw [getD_lt h1, getD_lt h2, getD_lt h3]
  exact ⟨k1, k2, k3, k4⟩

theorem bound_mono {i j : Nat} (hij : i ≤ j) (hj : j ≤ 1000) : boundariesN.getD i 0 ≤ boundariesN.getD j 0 := by
  induction j with
  | zero => rw [show i = 0 by omega]
  | succ j ih =>
    by_cases h : i = j + 1
    · rw [h]
    · have h1 := ih (by omega) (by omega)
      obtain ⟨-, -, h2, h3⟩ := table_entry j (by omega)
      omega

theorem ten_lt_U64 : 10 ^ 36 * 2 ^ 52 ≤ U64 := by
  have : (2 : Nat) ^ 200 ≤ U64 := by
    rw [← U64_eq]
    exact Nat.pow_le_pow_right (by decide) (by decide)
  exact Nat.le_trans (by norm_num) this

theorem rnd_small {a : Nat} (h : a ≤ 10 ^ 40) : Fmt.b64.rnd (a * 2 ^ Fmt.b64.u) (10 ^ 36) < Fmt.b64.infK := by
  apply lt_of_le_of_ne (Fmt.rnd_le_infK ..)
  apply fin_of_mag_lt
  have h1 := rnd_b64_bound (a := a * 2 ^ Fmt.b64.u) (b := 10 ^ 36) (by norm_num)
  have h2 := mag_inf_b64
  rw [U64_eq] at *
  have h3 := U64_big
  have h4 : a * U64 ≤ 10 ^ 40 * U64 := Nat.mul_le_mul_right _ h
  generalize Fmt.b64.mag (Fmt.b64.rnd (a * U64) (10 ^ 36)) = x at *
  generalize Fmt.b64.mag Fmt.b64.infK = y at *
  generalize a * U64 = z at *
  generalize U64 = u at *
  omega

theorem bkey_fin {i : Nat} (hi : i ≤ 1000) : bkey i < Fmt.b64.infK :=
  rnd_small (Nat.le_trans (bound_mono hi (Nat.le_refl _)) top_small)

theorem ekey_fin {i : Nat} (hi : i < 1000) : ekey i < Fmt.b64.infK := by
  apply rnd_small
  have h1 := table_entry i hi
  have h2 := bound_mono (show i + 1 ≤ 1000 by omega) (Nat.le_refl _)
  have h3 := top_small
  omega

theorem entry_normal {n : Nat} (h : 1 ≤ n) : 10 ^ 36 * 2 ^ 52 ≤ n * 2 ^ Fmt.b64.u := by
  rw [U64_eq]
  exact Nat.le_trans ten_lt_U64 (Nat.le_mul_of_pos_left _ h)

/-- Each bin centre lies strictly between the boundaries of its bin. -/
theorem bkey_lt_ekey {i : Nat} (hi : i < 1000) : bkey i < ekey i := by
  obtain ⟨h1, -, h3, -⟩ := table_entry i hi
  refine rnd_lt_of_gap (by norm_num) (entry_normal h1) ?_ (bkey_fin (by omega))
  rw [Nat.mul_right_comm, Nat.mul_right_comm _ _ 100]
  exact Nat.mul_le_mul_right _ h3

theorem ekey_lt_bkey {i : Nat} (hi : i < 1000) : ekey i < bkey (i + 1) := by
  obtain ⟨-, h2, -, h4⟩ := table_entry i hi
  refine rnd_lt_of_gap (by norm_num) (entry_normal h2) ?_ (ekey_fin hi)
  rw [Nat.mul_right_comm, Nat.mul_right_comm _ _ 100]
  exact Nat.mul_le_mul_right _ h4

theorem bkey_lt {i j : Nat} (hij : i < j) (hj : j ≤ 1000) : bkey i < bkey j := by
  induction j with
  | zero => omega
  | succ j ih =>
    have h1 := bkey_lt_ekey (i := j) (by omega)
    have h2 := ekey_lt_bkey (i := j) (by omega)
    by_cases h : i = j
    · subst h; omega
    · have := ih (by omega) (by omega)
      omega

theorem ekey_lt {i j : Nat} (hij : i < j) (hj : j < 1000) : ekey i < ekey j := by
  have h1 := ekey_lt_bkey (i := i) (by omega)
  have h2 := bkey_lt_ekey hj
  by_cases h : i + 1 = j
  · subst h; omega
  · have := bkey_lt (show i + 1 < j by omega) (by omega)
    omega

theorem bkey_pos {i : Nat} (hi : i ≤ 1000) : 0 < bkey i := by
  apply Nat.lt_of_lt_of_le Nat.zero_lt_one
  apply Fmt.le_rnd _ Fmt.b64_mb (by norm_num) (Fl.infK_pos _)
  have h1 : 1 ≤ boundariesN.getD i 0 := Nat.le_trans (table_entry 0 (by omega)).1 (bound_mono (Nat.zero_le _) hi)
  have h2 := entry_normal h1
  have h3 : Fmt.b64.mag 1 = 1 := Fmt.mag_small _ (by decide)
  rw [h3]
  omega

attribute [irreducible] bkey ekey

end Verif
