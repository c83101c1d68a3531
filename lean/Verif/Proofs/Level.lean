import Verif.Spec.Peaks
import Verif.Proofs.Peaks
import Verif.Proofs.Feed
/-! # Levels of samples -/

namespace Verif
open Fl Spec

variable (m : Libm F64) (bs : BSearch) (t : Target)

/-- A level is a NaN or a non-negative number. -/
def Pos (x : F64) : Prop := x = .nan ∨ x = pk _ (mkey x)

theorem pos_lit (n d : Nat) : Pos (Fl.lit _ (n : Int) d) := by
  rw [lit_pos]; right; exact (pk_eq _).symm

theorem pos_abs (x : F64) : Pos (Fl.abs x) := by
  by_cases h : x = .nan
  · left; rw [h]; rfl
  · right; rw [abs_eq_pk h, mkey_pk]; exact (pk_min _).symm

theorem divKey_one (k : Nat) (hk : k ≤ Fmt.b64.infK) :
    divKey t (mkey (Fl.lit Fmt.b64 1 1)) k = fkey t Fmt.b64 k := by
  have h := lit_amp 1 (by omega) (by have := amp_mb; omega)
  unfold divKey
  congr 1
  split
  · have h1 : Fmt.b64.mag (mkey (Fl.lit Fmt.b64 1 1)) = 2 ^ Fmt.b64.u := by
      have := h.1; rw [Nat.one_mul] at this; exact this
    rw [h1, Fmt.rnd_mag _ Fmt.ok64.mb hk (Nat.two_pow_pos _)]
  · omega

theorem fkey_big {k : Nat} (h : 2 ^ Fmt.b64.mb ≤ k) : fkey t Fmt.b64 k = k := by
  unfold fkey; rw [if_neg (by omega)]

/-- A widened `f32` is zero or normal. -/
theorem fkey_wkey (q : Nat) : fkey t Fmt.b64 (wkey q) = wkey q := by
  by_cases h0 : q = 0
  · rw [h0, wkey_zero, fkey_zero]
  · apply fkey_big
    unfold wkey
    split
    · apply Fmt.le_rnd _ Fmt.ok64.mb (Nat.two_pow_pos _)
      · have : Fmt.b64.infK = 2047 * 2 ^ Fmt.b64.mb := rfl
        rw [this]; omega
      · rw [Fmt.mag_small _ (by omega)]
        obtain ⟨d, hu⟩ : ∃ d, Fmt.b64.u = Fmt.b64.mb + Fmt.b32.u + d := ⟨873, rfl⟩
        have h1 : 1 ≤ Fmt.b32.mag q := mag_pos_iff.2 (by omega)
        rw [hu, Nat.pow_add, Nat.pow_add]
        have h2 : 1 ≤ 2 ^ d := Nat.two_pow_pos _
        calc 2 ^ Fmt.b64.mb * 2 ^ Fmt.b32.u = 1 * (2 ^ Fmt.b64.mb * 2 ^ Fmt.b32.u * 1) := by omega
          _ ≤ Fmt.b32.mag q * (2 ^ Fmt.b64.mb * 2 ^ Fmt.b32.u * 2 ^ d) :=
            Nat.mul_le_mul h1 (Nat.mul_le_mul_left _ h2)
    · have : Fmt.b64.infK = 2047 * 2 ^ Fmt.b64.mb := rfl
      rw [this]; omega

theorem mkey_cast (x : F32) : mkey (Fl.cast Fmt.b64 x) = wkey (mkey x) := by
  cases x with
  | nan => rw [show mkey (.nan : F32) = 0 from rfl, wkey_zero]; rfl
  | num s k hk => rw [cast_num]; rfl

theorem sampleKey_f32 (x : F32) : sampleKey t (f32Ops (ieeeEnv m bs t)) x = mkey (levelF x) := by
  unfold sampleKey levelF
  have e : (f32Ops (ieeeEnv m bs t)).maxAmp = Fl.lit Fmt.b64 1 1 := by simp [f32Ops]
  have e2 : (f32Ops (ieeeEnv m bs t)).raw x = Fl.cast Fmt.b64 x := by simp [f32Ops, ieee_widen]
  rw [e, e2, divKey_one t _ (mkey_le _), mkey_abs, mkey_cast, fkey_wkey t _]

theorem sampleKey_f64 (x : F64) : sampleKey t (f64Ops (ieeeEnv m bs t)) x = mkey (levelD t x) := by
  unfold sampleKey levelD
  have e : (f64Ops (ieeeEnv m bs t)).maxAmp = Fl.lit Fmt.b64 1 1 := by simp [f64Ops]
  have e2 : (f64Ops (ieeeEnv m bs t)).raw x = x := rfl
  rw [e, e2, divKey_one t _ (mkey_le _), mkey_abs]
  exact (mkey_flush t x).symm

theorem sampleKey_int (n d : Nat) (hd0 : 0 < d) (hd : d ≤ 2147483648) (hn : n ≤ d) (i : Int) (hi : i.natAbs = n) :
    divKey t (mkey (Fl.lit Fmt.b64 (d : Int) 1)) (mkey (Fl.ofInt Fmt.b64 i)) = mkey (Fl.lit Fmt.b64 (n : Int) d) := by
  have hmb := amp_mb
  have h1 := lit_amp d hd0 (by omega)
  have h2 := mag_rnd_int Fmt.ok64 (show n ≤ 2 * 2 ^ Fmt.b64.mb by omega)
  have e1 : mkey (Fl.ofInt Fmt.b64 i) = Fmt.b64.rnd (n * 2 ^ Fmt.b64.u) 1 := by rw [← hi]; rfl
  have e2 : mkey (Fl.lit Fmt.b64 (n : Int) d) = Fmt.b64.rnd (n * 2 ^ Fmt.b64.u) d := by rw [lit_pos]; rfl
  unfold divKey
  rw [e1, e2, if_pos h2.2, h1.1, h2.1]
  have e3 : Fmt.b64.rnd (n * 2 ^ Fmt.b64.u * 2 ^ Fmt.b64.u) (d * 2 ^ Fmt.b64.u) =
      Fmt.b64.rnd (n * 2 ^ Fmt.b64.u) d := by
    apply Fmt.rnd_congr _ Fmt.ok64.mb (Nat.mul_pos hd0 (Nat.two_pow_pos _)) hd0
    generalize 2 ^ Fmt.b64.u = x
    ac_rfl
  rw [e3]
  by_cases h0 : n = 0
  · rw [h0, Nat.zero_mul, Fmt.rnd_zero _ Fmt.ok64.mb hd0, fkey_zero]
  · apply fkey_big
    apply Fmt.le_rnd _ Fmt.ok64.mb hd0
    · have : Fmt.b64.infK = 2047 * 2 ^ Fmt.b64.mb := rfl
      rw [this]; omega
    · rw [Fmt.mag_small _ (by omega)]
      obtain ⟨r, hu⟩ : ∃ r, Fmt.b64.u = Fmt.b64.mb + 31 + r := ⟨991, rfl⟩
      rw [hu, Nat.pow_add, Nat.pow_add]
      have h2 : 1 ≤ 2 ^ r := Nat.two_pow_pos _
      calc 2 ^ Fmt.b64.mb * d ≤ 2 ^ Fmt.b64.mb * 2 ^ 31 := Nat.mul_le_mul_left _ (by omega)
        _ = 1 * (2 ^ Fmt.b64.mb * 2 ^ 31 * 1) := by rw [Nat.one_mul, Nat.mul_one]
        _ ≤ n * (2 ^ Fmt.b64.mb * 2 ^ 31 * 2 ^ r) := Nat.mul_le_mul (by omega) (Nat.mul_le_mul_left _ h2)

theorem natAbs16 (x : Int16) : x.toInt.natAbs ≤ 32768 := by
  have h1 := x.le_toInt; have h2 := x.toInt_lt; omega

theorem natAbs32 (x : Int32) : x.toInt.natAbs ≤ 2147483648 := by
  have h1 := x.le_toInt; have h2 := x.toInt_lt; omega

theorem sampleKey_i16 (x : Int16) : sampleKey t (i16Ops (ieeeEnv m bs t)) x = mkey (level16 x) := by
  have e : (i16Ops (ieeeEnv m bs t)).maxAmp = Fl.lit Fmt.b64 ((32768 : Nat) : Int) 1 := by simp [i16Ops]
  have e2 : (i16Ops (ieeeEnv m bs t)).raw x = Fl.ofInt Fmt.b64 x.toInt := by simp [i16Ops]
  unfold sampleKey level16
  rw [e, e2]
  exact sampleKey_int t _ 32768 (by omega) (by omega) (natAbs16 x) _ rfl

theorem sampleKey_i32 (x : Int32) : sampleKey t (i32Ops (ieeeEnv m bs t)) x = mkey (level32 x) := by
  have e : (i32Ops (ieeeEnv m bs t)).maxAmp = Fl.lit Fmt.b64 ((2147483648 : Nat) : Int) 1 := by simp [i32Ops]
  have e2 : (i32Ops (ieeeEnv m bs t)).raw x = Fl.ofInt Fmt.b64 x.toInt := by simp [i32Ops]
  unfold sampleKey level32
  rw [e, e2]
  exact sampleKey_int t _ 2147483648 (by omega) (by omega) (natAbs32 x) _ rfl

theorem column_map {α β : Type} (g : α → β) (c : Nat) (fs : List (List α)) :
    column c (fs.map (·.map g)) = (column c fs).map g := by
  unfold column
  rw [List.filterMap_map, List.map_filterMap]
  congr 1
  funext f
  simp

theorem inputLevels_key {n : Nat} {x : Input F64 F32} (h : x.Ok n) (c : Nat) :
    maxKey (sampleKey t (x.decode (ieeeEnv m bs t) n).ops) (column c (x.decode (ieeeEnv m bs t) n).frames) =
      maxKey mkey (inputLevels t n c x) := by
  have key : ∀ {T : Type} (ops : SampleOps F64 F32 T) (fs : List (List T)) (g : T → F64),
      (∀ x, sampleKey t ops x = mkey (g x)) →
      maxKey (sampleKey t ops) (column c fs) = maxKey mkey (column c (fs.map (·.map g))) := by
    intro T ops fs g hg
    rw [column_map, maxKey_map]
    exact maxKey_congr fun x _ => hg x
  cases x
  · exact (key _ _ _ (sampleKey_i16 m bs t)).trans (congrArg (fun z => maxKey mkey (column c z)) (inter_values h _).symm)
  · exact (key _ _ _ (sampleKey_i32 m bs t)).trans (congrArg (fun z => maxKey mkey (column c z)) (inter_values h _).symm)
  · exact (key _ _ _ (sampleKey_f32 m bs t)).trans (congrArg (fun z => maxKey mkey (column c z)) (inter_values h _).symm)
  · exact (key _ _ _ (sampleKey_f64 m bs t)).trans (congrArg (fun z => maxKey mkey (column c z)) (inter_values h _).symm)
  · exact (key _ _ _ (sampleKey_i16 m bs t)).trans (congrArg (fun z => maxKey mkey (column c z)) (planar_values _ _).symm)
  · exact (key _ _ _ (sampleKey_i32 m bs t)).trans (congrArg (fun z => maxKey mkey (column c z)) (planar_values _ _).symm)
  · exact (key _ _ _ (sampleKey_f32 m bs t)).trans (congrArg (fun z => maxKey mkey (column c z)) (planar_values _ _).symm)
  · exact (key _ _ _ (sampleKey_f64 m bs t)).trans (congrArg (fun z => maxKey mkey (column c z)) (planar_values _ _).symm)

theorem inputLevels_frames {n : Nat} {x : Input F64 F32} (h : x.Ok n) (E : Env F64 F32) (c : Nat) :
    (inputLevels t n c x).length = (column c (x.decode E n).frames).length := by
  have key : ∀ {T : Type} (fs : List (List T)) (g : T → F64),
      (column c (fs.map (·.map g))).length = (column c fs).length := by
    intro T fs g
    rw [column_map, List.length_map]
  cases x
  · rw [show inputLevels t n c (.i16 _) = column c (groups n _) from rfl, inter_values h]; exact key _ _
  · rw [show inputLevels t n c (.i32 _) = column c (groups n _) from rfl, inter_values h]; exact key _ _
  · rw [show inputLevels t n c (.f32 _) = column c (groups n _) from rfl, inter_values h]; exact key _ _
  · rw [show inputLevels t n c (.f64 _) = column c (groups n _) from rfl, inter_values h]; exact key _ _
  · rw [show inputLevels t n c (.pi16 _) = column c (columns _) from rfl, planar_values]; exact key _ _
  · rw [show inputLevels t n c (.pi32 _) = column c (columns _) from rfl, planar_values]; exact key _ _
  · rw [show inputLevels t n c (.pf32 _) = column c (columns _) from rfl, planar_values]; exact key _ _
  · rw [show inputLevels t n c (.pf64 _) = column c (columns _) from rfl, planar_values]; exact key _ _

theorem inputLevels_pos (n c : Nat) (x : Input F64 F32) : ∀ v ∈ inputLevels t n c x, Pos v := by
  have hg : ∀ {T : Type} (l : List T) (g : T → F64), (∀ x, Pos (g x)) →
      ∀ v ∈ (groups n (l.map g)).filterMap (·[c]?), Pos v := by
    intro T l g h v hv
    obtain ⟨f, hf, hv⟩ := List.mem_filterMap.1 hv
    simp only [groups, List.mem_map] at hf
    obtain ⟨k, -, rfl⟩ := hf
    have h1 := List.mem_of_mem_drop (List.mem_of_mem_take (List.mem_of_getElem? hv))
    obtain ⟨x, -, rfl⟩ := List.mem_map.1 h1
    exact h x
  have hp : ∀ {T : Type} (l : List (List T)) (g : T → F64), (∀ x, Pos (g x)) →
      ∀ v ∈ (columns (l.map (·.map g))).filterMap (·[c]?), Pos v := by
    intro T l g h v hv
    rw [planar_values] at hv
    have h1 : v ∈ column c ((planarFrames l).map (·.map g)) := hv
    rw [column_map] at h1
    obtain ⟨x, -, rfl⟩ := List.mem_map.1 h1
    exact h x
  have h16 : ∀ x, Pos (level16 x) := fun x => pos_lit _ _
  have h32 : ∀ x, Pos (level32 x) := fun x => pos_lit _ _
  have hF : ∀ x, Pos (levelF x) := fun x => pos_abs _
  have hD : ∀ x, Pos (levelD t x) := fun x => pos_abs _
  cases x
  · exact hg _ _ h16
  · exact hg _ _ h32
  · exact hg _ _ hF
  · exact hg _ _ hD
  · exact hp _ _ h16
  · exact hp _ _ h32
  · exact hp _ _ hF
  · exact hp _ _ hD

theorem levels_pos (n c : Nat) (log : List (Entry F64 F32)) : ∀ v ∈ levels t n c log, Pos v := by
  intro v hv
  obtain ⟨⟨op, r⟩, -, hv⟩ := List.mem_flatMap.1 hv
  split at hv
  · exact inputLevels_pos t n c _ v hv
  · cases hv

theorem isPeak_maxKey {l : List F64} (h : ∀ v ∈ l, Pos v) : IsPeak l (pk _ (maxKey mkey l)) := by
  have hle : maxKey mkey l ≤ Fmt.b64.infK := maxKey_le _ fun x _ => mkey_le x
  refine ⟨isNan_pk _, fun x hx hn => ?_, ?_⟩
  · rcases h x hx with h1 | h1
    · rw [h1] at hn; cases hn
    · rw [h1]; exact le_pk (le_maxKey _ hx)
  · rcases maxKey_attained mkey l with h1 | ⟨x, hx, h1⟩
    · right; rw [h1, zero_eq_pk]
    · by_cases h0 : maxKey mkey l = 0
      · right; rw [h0, zero_eq_pk]
      · left
        rcases h x hx with h2 | h2
        · rw [h2] at h1; exact absurd h1.symm h0
        · rw [← h1, ← h2]; exact hx

/-- The peak is determined by the levels. -/
theorem Spec.IsPeak.unique {l : List F64} (h : ∀ v ∈ l, Pos v) {p q : F64} (hp : IsPeak l p) (hq : IsPeak l q) :
    p = q := by
  have pos : ∀ {p}, IsPeak l p → p = pk _ (mkey p) := by
    intro p hp
    rcases hp.attained with h1 | h1
    · rcases h p h1 with h2 | h2
      · have := hp.notNan; rw [h2] at this; cases this
      · exact h2
    · rw [h1, zero_eq_pk, mkey_pk, Nat.zero_min]
  have le : ∀ {p q}, IsPeak l p → IsPeak l q → mkey p ≤ mkey q := by
    intro p q hp hq
    rcases hp.attained with h1 | h1
    · have := hq.bound p h1 hp.notNan
      rw [pos hp, pos hq] at this
      exact le_of_le_pk (mkey_le _) this
    · rw [h1]; exact Nat.zero_le _
  rw [pos hp, pos hq, Nat.le_antisymm (le hp hq) (le hq hp)]

end Verif
