import Verif.Proofs.CRefTaps
import Verif.Props.C62
import Verif.Props.C24
/-! # The delay lines and the peaks of the C reference's true peak detector -/

namespace Verif
open Fl Spec
variable {m : Libm F64} {bs : BSearch} {t : Target}

/-! ## The subfilters -/

/-- Subfilter `k` after the first `n` iterations of the coefficient loop. -/
def subfilter (E : Env F64 F32) (factor n k : Nat) : List (Nat × F64) :=
  (((List.range n).filter (· % factor = k)).filter (keptTap E factor)).map fun j => (j / factor, CRef.interpCoeff E 49 factor j)

theorem taps_room : ∀ factor, factor = 2 ∨ factor = 4 → ∀ k < 49,
    ((List.range k).filter (· % factor = k % factor)).length < 48 / factor + 1 := by
  rintro factor (rfl | rfl) <;> decide

theorem subfilter_succ (E : Env F64 F32) (factor n k : Nat) : subfilter E factor (n + 1) k =
    if n % factor = k ∧ keptTap E factor n = true then
      subfilter E factor n k ++ [(n / factor, CRef.interpCoeff E 49 factor n)] else subfilter E factor n k := by
  unfold subfilter
  rw [List.range_succ, List.filter_append, List.filter_append, List.map_append]
  by_cases h1 : n % factor = k
  · by_cases h2 : keptTap E factor n = true
    · simp [h1, h2]
    · simp [h1, h2]
  · simp [h1]

theorem filter_eq (E : Env F64 F32) {factor : Nat} (hf : factor = 2 ∨ factor = 4) :
    CRef.loop 0 49 (List.replicate factor []) (CRef.interpTap E 49 factor (48 / factor + 1)) =
      .done ((List.range factor).map (subfilter E factor 49)) := by
  have h0 : 0 < factor := by rcases hf with rfl | rfl <;> decide
  obtain ⟨s, h1, h2⟩ := CRef.loop_inv (n := 49) (s := (List.replicate factor [] : List (List (Nat × F64))))
    (f := CRef.interpTap E 49 factor (48 / factor + 1))
    (fun k s => s = (List.range factor).map (subfilter E factor k))
    (by
      rw [show subfilter E factor 0 = fun _ => [] from rfl, List.map_const', List.length_range]) (by
    rintro k s hk rfl
    have hlt : k % factor < ((List.range factor).map (subfilter E factor k)).length := by
      rw [List.length_map, List.length_range]
      exact Nat.mod_lt _ h0
    refine ⟨(List.range factor).map (subfilter E factor (k + 1)), ?_, rfl⟩
    unfold CRef.interpTap
    simp only [show E.f64.lt (E.f64.lit 1 1000000) (E.f64.abs (CRef.interpCoeff E 49 factor k)) = keptTap E factor k from rfl]
    by_cases hc : keptTap E factor k = true
    · rw [if_pos hc]
      simp only [Run.bind_eq]
      rw [Run.index_lt hlt, Run.done_bind, List.getElem_map, List.getElem_range, Run.assert_true, Run.done_bind,
        setUnchecked, if_pos hlt]
      · congr 1
        apply List.ext_getElem?
        intro i
        by_cases hi : i < factor
        · rw [List.getElem?_map, List.getElem?_range hi, Option.map_some, subfilter_succ]
          by_cases e : k % factor = i
          · subst e
            rw [List.getElem?_set_self hlt, if_pos ⟨rfl, hc⟩]
          · rw [List.getElem?_set_ne e, List.getElem?_map, List.getElem?_range hi, Option.map_some,
              if_neg fun h => e h.1]
        · rw [List.getElem?_eq_none (by simpa using hi), List.getElem?_eq_none (by simpa using hi)]
      · unfold subfilter
        rw [List.length_map]
        exact (List.length_filter_le _ _).trans_lt (taps_room factor hf k hk)
    · have : (List.range factor).map (subfilter E factor (k + 1)) = (List.range factor).map (subfilter E factor k) :=
        List.map_congr_left fun i _ => by rw [subfilter_succ, if_neg fun h => hc h.2]
      rw [if_neg hc, this])
  rw [h1, h2]

/-- The interpolator the C reference creates. -/
def cStart (E : Env F64 F32) (factor n : Nat) : CRef.Interp F64 F32 :=
  ⟨factor, 49, n, 48 / factor + 1, (List.range factor).map (subfilter E factor 49),
    List.replicate n (List.replicate (48 / factor + 1) E.f32p.zero), 0⟩

theorem create_eq (E : Env F64 F32) {factor : Nat} (hf : factor = 2 ∨ factor = 4) (n : Nat) :
    CRef.Interp.create E 49 factor n = .done (cStart E factor n) := by
  have hd : (49 + factor - 1) / factor = 48 / factor + 1 := by rcases hf with rfl | rfl <;> rfl
  unfold CRef.Interp.create
  simp only [Run.bind_eq]
  rw [hd, filter_eq E hf, Run.done_bind]
  rfl

/-! ## The delay lines -/

/-- A delay line of `d` samples, the next of which goes to position `zi`, holds the samples `past`, the newest first. -/
structure Row (z : F32) (d zi : Nat) (row past : List F32) : Prop where
  len : row.length = d
  pos : zi < d
  get : ∀ i < d, row.getD (if zi ≤ i then zi + d - 1 - i else zi - 1 - i) z = past.getD i z

theorem Row.init {z : F32} {d : Nat} (hd : 0 < d) : Row z d 0 (List.replicate d z) [] where
  len := by simp
  pos := hd
  get i hi := by
    rw [List.getD_eq_getElem?_getD, List.getElem?_replicate, if_pos (by split <;> omega)]
    rfl

/-- After writing the newest sample. -/
theorem Row.set {z : F32} {d zi : Nat} {row past : List F32} (h : Row z d zi row past) (v : F32) :
    (∀ i < d, (row.set zi v).getD (if zi < i then zi + d - i else zi - i) z = (v :: past).getD i z) ∧
      Row z d (if zi + 1 = d then 0 else zi + 1) (row.set zi v) (v :: past) := by
  have h1 := h.pos
  have h2 := h.len
  have key : ∀ i < d, (row.set zi v).getD (if zi < i then zi + d - i else zi - i) z = (v :: past).getD i z := by
    intro i hi
    cases i with
    | zero =>
      rw [if_neg (by omega), Nat.sub_zero, List.getD_eq_getElem?_getD, List.getElem?_set_self (by omega)]
      rfl
    | succ i =>
      rw [List.getD_cons_succ, ← h.get i (by omega), List.getD_eq_getElem?_getD, List.getD_eq_getElem?_getD,
        List.getElem?_set_ne (by split <;> omega)]
      congr 2
      split <;> split <;> omega
  refine ⟨key, ⟨by simpa using h2, by split <;> omega, fun i hi => ?_⟩⟩
  rw [← key i hi]
  congr 1
  split <;> split <;> split <;> omega

/-- An output sample of the C reference, of the samples `past`, the newest first. -/
def cOut (E : Env F64 F32) (factor : Nat) (past : List F32) (k : Nat) : F32 :=
  E.narrowP (((tapsOf factor k).filter (keptTap E factor)).foldl (fun acc j => E.f64p.add acc (E.f64p.mul
    (E.widen (past.getD (j / factor) E.f32p.zero)) (CRef.interpCoeff E 49 factor j))) E.f64p.zero)

theorem dot_out {E : Env F64 F32} {factor zi : Nat} {row past : List F32}
    (h : ∀ i < 48 / factor + 1, row.getD (if zi < i then zi + (48 / factor + 1) - i else zi - i) E.f32p.zero =
      past.getD i E.f32p.zero) (k : Nat) :
    CRef.dotP E row zi (48 / factor + 1) (subfilter E factor 49 k) = cOut E factor past k := by
  unfold CRef.dotP cOut subfilter
  rw [List.foldl_map]
  congr 1
  have : ∀ l : List Nat, (∀ j ∈ l, j < 49) → ∀ a, l.foldl (fun acc j => E.f64p.add acc (E.f64p.mul (E.widen (row.getD
      (if zi < j / factor then zi + (48 / factor + 1) - j / factor else zi - j / factor) E.f32p.zero))
        (CRef.interpCoeff E 49 factor j))) a =
      l.foldl (fun acc j => E.f64p.add acc (E.f64p.mul (E.widen (past.getD (j / factor) E.f32p.zero))
        (CRef.interpCoeff E 49 factor j))) a := by
    intro l
    induction l with
    | nil => intro _ _; rfl
    | cons j l ih =>
      intro hl a
      rw [List.foldl_cons, List.foldl_cons, ih (fun i hi => hl i (List.mem_cons_of_mem _ hi)),
        h _ (Nat.lt_succ_of_le (Nat.div_le_div_right (by have := hl j List.mem_cons_self; omega)))]
  exact this _ (fun j hj => List.mem_range.1 (List.mem_filter.1 (List.mem_filter.1 hj).1).1) _

/-- An interpolator that has been fed the samples `past c` in channel `c`. -/
structure CFed (E : Env F64 F32) (factor n : Nat) (ip : CRef.Interp F64 F32) (past : Nat → List F32) : Prop where
  inv : ip.Inv n
  delay : ip.delay = 48 / factor + 1
  filter : ip.filter = (List.range factor).map (subfilter E factor 49)
  rows : ∀ c r, ip.z[c]? = some r → Row E.f32p.zero ip.delay ip.zi r (past c)

theorem cStart_fed (E : Env F64 F32) {factor : Nat} (hf : factor = 2 ∨ factor = 4) (n : Nat) :
    CFed E factor n (cStart E factor n) fun _ => [] where
  inv := by
    obtain ⟨ip, h1, h2, -⟩ := CRef.Interp.create_inv E hf n
    rw [create_eq E hf] at h1
    cases h1
    exact h2
  delay := rfl
  filter := rfl
  rows c r h := by
    have h' : (List.replicate n (List.replicate (48 / factor + 1) E.f32p.zero))[c]? = some r := h
    rw [List.getElem?_replicate] at h'
    split at h'
    · cases h'
      exact Row.init (Nat.succ_pos _)
    · cases h'

theorem CFed.frame {E : Env F64 F32} {factor n : Nat} {ip : CRef.Interp F64 F32}
    {past : Nat → List F32} (h : CFed E factor n ip past) {inp : List F32} (hi : inp.length = n) :
    CFed E factor n (ip.frameP E inp).1 (fun c => inp.getD c E.f32p.zero :: past c) ∧
      ∀ c < n, (ip.frameP E inp).2[c]? =
        some ((List.range factor).map (cOut E factor (inp.getD c E.f32p.zero :: past c))) := by
  have hz : ∀ c r, ((List.zip ip.z inp).map fun x => x.1.set ip.zi x.2)[c]? = some r →
      ∃ r0 : List F32, ip.z[c]? = some r0 ∧ r = r0.set ip.zi (inp.getD c E.f32p.zero) := by
    intro c r hr
    rw [List.getElem?_map, Option.map_eq_some_iff] at hr
    obtain ⟨⟨a, b⟩, h1, rfl⟩ := hr
    obtain ⟨h2, h3⟩ := List.getElem?_zip_eq_some.1 h1
    exact ⟨a, h2, by rw [List.getD_eq_getElem?_getD, h3]; rfl⟩
  refine ⟨⟨(CRef.Interp.frameP_inv E h.inv hi).1, h.delay, h.filter, fun c r hr => ?_⟩, fun c hc => ?_⟩
  · obtain ⟨r0, h1, rfl⟩ := hz c r hr
    exact ((h.rows c r0 h1).set _).2
  · have hl : c < ((List.zip ip.z inp).map fun x => x.1.set ip.zi x.2).length := by
      simp [h.inv.z, hi, hc]
    obtain ⟨r0, h1, h2⟩ := hz c _ (List.getElem?_eq_getElem hl)
    simp only [CRef.Interp.frameP]
    rw [List.getElem?_map, List.getElem?_eq_getElem hl, Option.map_some, h2, h.filter, List.map_map]
    congr 1
    refine List.map_congr_left fun k _ => ?_
    have h3 := ((h.rows c r0 h1).set (inp.getD c E.f32p.zero)).1
    rw [h.delay] at h3 ⊢
    exact dot_out h3 k

end Verif
