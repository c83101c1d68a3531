import Verif.Proofs.CRefPeak
import Verif.Proofs.CRefConv
/-! # The running true peaks of the crate and of the C reference, next to exact arithmetic -/

namespace Verif
open Fl Spec
variable {m : Libm F64} {bs : BSearch} {t : Target} {T : Type}

/-! ## Exact arithmetic -/

/-- An interpolated sample, of the samples `past`, the newest first. -/
noncomputable def Spec.between0 (factor : Nat) (past : List ℝ) (k : Nat) : ℝ :=
  ∑ i ∈ Finset.range (48 / factor), kernel factor (i * factor + k) * past.getD i 0

/-- The running peak. -/
noncomputable def Spec.peak0 (factor : Nat) : List ℝ → ℝ → List ℝ → ℝ
  | _, P, [] => P
  | past, P, x :: xs => peak0 factor (x :: past)
      ((List.range factor).foldl (fun P k => max P |between0 factor (x :: past) k|) P) xs

theorem getD_conv {A : ℝ} (A0 : 0 ≤ A) {l : List F32} {past : List ℝ} (h : List.Forall₂ (Conv A) l past) :
    ∀ i, App (l.getD i (Fl.zero false)) (past.getD i 0) (convErr A) ∧ |past.getD i 0| ≤ A := by
  have z : App (Fl.zero false : F32) 0 (convErr A) := by
    refine ⟨zero32_finite, ?_⟩
    rw [value_zero, sub_zero, abs_zero]
    exact (by positivity : (0 : ℝ) ≤ 1 / 2 ^ 124).trans (convErr_nonneg A0)
  induction h with
  | nil => intro i; exact ⟨by simpa using z, by simpa using A0⟩
  | cons h1 _ ih =>
    intro i
    cases i with
    | zero => exact h1
    | succ i => simpa using ih i

theorem between0_abs {A : ℝ} {l : List F32} {past : List ℝ} (A0 : 0 ≤ A) (h : List.Forall₂ (Conv A) l past) {factor k : Nat}
    (hf : factor = 2 ∨ factor = 4) (hk : k < factor) : |between0 factor past k| ≤ 12 / 5 * A := by
  unfold between0
  refine (Finset.abs_sum_le_sum_abs _ _).trans ?_
  have : ∀ i ∈ Finset.range (48 / factor), |kernel factor (i * factor + k) * past.getD i 0| ≤
      |kernel factor (i * factor + k)| * A := by
    intro i _
    rw [abs_mul]
    exact mul_le_mul_of_nonneg_left (getD_conv A0 h i).2 (abs_nonneg _)
  refine (Finset.sum_le_sum this).trans ?_
  rw [← Finset.sum_mul]
  exact mul_le_mul_of_nonneg_right (kernel_l1 hf hk) A0

/-! ## One output sample -/

theorem level_app {y : F32} {Y A e e' : ℝ} (A0 : 0 ≤ A) (hA : A ≤ 2 ^ 100) (h : App y Y e) (hY : |Y| ≤ 12 / 5 * A)
    (he : e ≤ A + 1 / 2 ^ 112) (he' : e + A * (1 / 2 ^ 48) + 1 / 2 ^ 120 ≤ e') : App (levelF y) |Y| e' := by
  have t2 := eta64
  refine (levelF_app h hY ?_).mono (_root_.le_trans ?_ he')
  · norm_num at *
    linarith
  · rw [eps64]
    generalize eta Fmt.b64 = z at *
    norm_num at *
    linarith

theorem tap_reverse (E : Env F64 F32) (l : List F32) (i : Nat) :
    tap E (l.reverse.map ([·])) i 0 = l.getD i E.f32p.zero := by
  unfold tap
  rw [← List.map_reverse, List.reverse_reverse, List.getElem?_map, List.getD_eq_getElem?_getD]
  cases l[i]? <;> rfl

theorem zero_q : (ieeeEnv m bs t).f32p.zero = Fl.zero false := by
  rcases t with ⟨_ | _, _, _⟩ <;> rfl

theorem rust_out (hm : TrigWithin m (1 / 2 ^ 30)) {factor k : Nat} (hf : factor = 2 ∨ factor = 4) (hk : k < factor) {A : ℝ}
    (A0 : 0 ≤ A) (hA : A ≤ 2 ^ 100) {l : List F32} {past : List ℝ} (h : List.Forall₂ (Conv A) l past) :
    App (phase (ieeeEnv m bs t) (48 / factor) factor (l.reverse.map ([·])) k 0) (between0 factor past k)
      (A * (26 / 10 ^ 7) + 1 / 2 ^ 114) := by
  have := rust_sample (m := m) (bs := bs) (t := t) hm hf hk A0 hA (x := fun i => l.getD i (Fl.zero false))
    (X := fun i => past.getD i 0) (fun i _ => getD_conv A0 h i)
  unfold phase
  simp only [tap_reverse, zero_q] at this ⊢
  exact this

theorem c_out (hm : TrigWithin m (1 / 2 ^ 30)) {factor k : Nat} (hf : factor = 2 ∨ factor = 4) (hk : k < factor) {A : ℝ}
    (A0 : 0 ≤ A) (hA : A ≤ 2 ^ 100) {l : List F32} {past : List ℝ} (h : List.Forall₂ (Conv A) l past) :
    App (cOut (ieeeEnv m bs t) factor l k) (between0 factor past k) (A * (67 / 10 ^ 8) + 1 / 2 ^ 113) := by
  have := c_sample (m := m) (bs := bs) (t := t) hm hf hk A0 hA (x := fun i => l.getD i (Fl.zero false))
    (X := fun i => past.getD i 0) (fun i _ => getD_conv A0 h i)
  unfold cOut
  rw [zero_q]
  exact this

/-! ## Running peaks -/

theorem pk_value_mono {a b : Nat} (h : a ≤ b) : (pk Fmt.b64 a).value ≤ (pk Fmt.b64 b).value := value_fle (le_pk h)

theorem peak_app {K : Nat} {P V e : ℝ} {v : F64} (h : App (pk Fmt.b64 K) P e) (hp : Pos v) (hv : App v V e) :
    App (pk Fmt.b64 (max K (mkey v))) (max P V) e := by
  have e0 : v = pk _ (mkey v) := by
    rcases hp with hp | hp
    · obtain ⟨s, k, hk, h1, -⟩ := hv.1
      rw [hp] at h1
      cases h1
    · exact hp
  rw [e0] at hv
  have key : (pk Fmt.b64 (max K (mkey v))).Finite ∧
      (pk Fmt.b64 (max K (mkey v))).value = max (pk Fmt.b64 K).value (pk Fmt.b64 (mkey v)).value := by
    rcases Nat.le_total K (mkey v) with h1 | h1
    · rw [Nat.max_eq_right h1, max_eq_right (pk_value_mono h1)]
      exact ⟨hv.1, rfl⟩
    · rw [Nat.max_eq_left h1, max_eq_left (pk_value_mono h1)]
      exact ⟨h.1, rfl⟩
  refine ⟨key.1, ?_⟩
  rw [key.2]
  exact (abs_max_sub_max_le_max _ _ _ _).trans (max_le h.2 hv.2)

theorem peaks_app {v : Nat → F64} {V : Nat → ℝ} {e : ℝ} (ks : List Nat) :
    ∀ {K : Nat} {P : ℝ}, App (pk Fmt.b64 K) P e → (∀ k ∈ ks, Pos (v k) ∧ App (v k) (V k) e) →
      App (pk Fmt.b64 (max K (maxKey mkey (ks.map v)))) (ks.foldl (fun P k => max P (V k)) P) e := by
  induction ks with
  | nil => intro K P h _; simpa [maxKey_nil] using h
  | cons k ks ih =>
    intro K P h hv
    rw [List.forall_mem_cons] at hv
    rw [List.map_cons, maxKey_cons, ← Nat.max_assoc, List.foldl_cons]
    exact ih (peak_app h hv.1.1 hv.1.2) hv.2

theorem rust_peak (hm : TrigWithin m (1 / 2 ^ 30)) {factor : Nat} (hf : factor = 2 ∨ factor = 4) {A : ℝ}
    (A0 : 0 ≤ A) (hA : A ≤ 2 ^ 100) {xs : List F32} {ys : List ℝ} (h : List.Forall₂ (Conv A) xs ys) :
    ∀ {l : List F32} {past : List ℝ} {K : Nat} {P : ℝ}, List.Forall₂ (Conv A) l past →
      App (pk Fmt.b64 K) P (A * (261 / 10 ^ 8) + 1 / 2 ^ 112) →
      App (pk Fmt.b64 (max K (maxKey mkey (between (ieeeEnv m bs t) (48 / factor) factor l.reverse
        (xs.map fun v => (true, v)))))) (peak0 factor past P ys) (A * (261 / 10 ^ 8) + 1 / 2 ^ 112) := by
  induction h with
  | nil => intro l past K P _ hK; simpa [between, maxKey_nil, peak0] using hK
  | @cons x y xs ys hx _ ih =>
    intro l past K P hl hK
    have hl' := List.Forall₂.cons hx hl
    rw [List.map_cons, between, if_pos rfl, maxKey_append, ← Nat.max_assoc, peak0]
    have key := peaks_app (v := fun p => levelF (phase (ieeeEnv m bs t) (48 / factor) factor
      ((l.reverse ++ [x]).map ([·])) p 0)) (V := fun k => |between0 factor (y :: past) k|) (List.range factor) hK (by
      intro k hk
      have hk := List.mem_range.1 hk
      refine ⟨pos_abs _, ?_⟩
      have := rust_out (m := m) (bs := bs) (t := t) hm hf hk A0 hA hl'
      rw [List.reverse_cons] at this
      refine level_app A0 hA this (between0_abs A0 hl' hf hk) ?_ ?_
      · norm_num
        linarith
      · norm_num
        linarith)
    have := ih hl' key
    rwa [List.reverse_cons] at this

theorem keep_pk (K : Nat) (y : F32) : CRef.keepMax (ieeeEnv m bs t).f64p (pk Fmt.b64 K) ((ieeeEnv m bs t).widen y) =
    pk Fmt.b64 (max K (mkey (levelF y))) := by
  have h0 : Fl.lt (pk Fmt.b64 K) (Fl.zero false) = false := by
    rw [zero_eq_pk]
    unfold pk
    rw [lt_pos]
    simp
  rw [(CRef.keepMax_p (m := m) (bs := bs) (t := t) _ _ h0).1]
  rw [show (ieeeEnv m bs t).f64p.lt = Fl.lt by simp, show (ieeeEnv m bs t).f64p.abs = Fl.abs by simp, maxBy_abs]
  unfold levelF
  rw [mkey_abs, ieee_widen]

theorem keep_fold (ks : List Nat) (o : Nat → F32) : ∀ K : Nat,
    (ks.map o).foldl (fun pk y => CRef.keepMax (ieeeEnv m bs t).f64p pk ((ieeeEnv m bs t).widen y)) (pk Fmt.b64 K) =
      pk Fmt.b64 (max K (maxKey mkey (ks.map fun k => levelF (o k)))) := by
  induction ks with
  | nil => intro K; simp [maxKey_nil]
  | cons k ks ih =>
    intro K
    rw [List.map_cons, List.foldl_cons, keep_pk, ih, List.map_cons, maxKey_cons, Nat.max_assoc]

/-- The sample as the C reference stores it. -/
def cStored (E : Env F64 F32) (cs : CRef.CSample F64 T) (s : T) : F32 := E.narrowP (E.f64p.div (cs.toDouble s) cs.scale)

theorem c_peaks (hm : TrigWithin m (1 / 2 ^ 30)) {factor n : Nat} (hf : factor = 2 ∨ factor = 4) {A : ℝ}
    (A0 : 0 ≤ A) (hA : A ≤ 2 ^ 100) (cs : CRef.CSample F64 T) (amp : T → ℝ) (fs : List (List T)) :
    RectF n fs → (∀ f ∈ fs, ∀ s ∈ f, Conv A (cStored (ieeeEnv m bs t) cs s) (amp s)) →
    ∀ {st : CRef.Interp F64 F32 × List F64} {cp : Nat → List F32}, CFed (ieeeEnv m bs t) factor n st.1 cp →
      st.2.length = n →
    ∃ cp', CFed (ieeeEnv m bs t) factor n (fs.foldl (CRef.peakStep (ieeeEnv m bs t) cs) st).1 cp' ∧
      (fs.foldl (CRef.peakStep (ieeeEnv m bs t) cs) st).2.length = n ∧
      ∀ c < n, ∀ {past : List ℝ} {K : Nat} {P : ℝ}, List.Forall₂ (Conv A) (cp c) past → st.2[c]? = some (pk _ K) →
        App (pk Fmt.b64 K) P (A * (68 / 10 ^ 8) + 1 / 2 ^ 112) →
        List.Forall₂ (Conv A) (cp' c) (((column c fs).map amp).reverse ++ past) ∧
        ∃ K', (fs.foldl (CRef.peakStep (ieeeEnv m bs t) cs) st).2[c]? = some (pk _ K') ∧
          App (pk Fmt.b64 K') (peak0 factor past P ((column c fs).map amp)) (A * (68 / 10 ^ 8) + 1 / 2 ^ 112) := by
  induction fs with
  | nil =>
    intro _ _ st cp h hl
    exact ⟨cp, h, hl, fun c _ past K P h1 h2 h3 => ⟨h1, K, h2, h3⟩⟩
  | cons f fs ih =>
    intro hr hv st cp h hl
    have hfl : f.length = n := hr f List.mem_cons_self
    have hv1 := hv f List.mem_cons_self
    obtain ⟨g1, g2⟩ := h.frame (inp := f.map (cStored (ieeeEnv m bs t) cs)) (by simpa using hfl)
    obtain ⟨i1, i2⟩ := CRef.peakStep_inv (ieeeEnv m bs t) cs h.inv hl hfl
    obtain ⟨cp', h1, h2, h3⟩ := ih (fun g hg => hr g (List.mem_cons_of_mem _ hg))
      (fun g hg => hv g (List.mem_cons_of_mem _ hg)) (st := CRef.peakStep (ieeeEnv m bs t) cs st f) g1 i2
    refine ⟨cp', h1, h2, fun c hc past K P p1 p2 p3 => ?_⟩
    have hcf : c < f.length := by omega
    have hcol : column c (f :: fs) = f[c] :: column c fs := by
      unfold column
      rw [List.filterMap_cons, List.getElem?_eq_getElem hcf]
    have hget : (f.map (cStored (ieeeEnv m bs t) cs)).getD c (ieeeEnv m bs t).f32p.zero =
        cStored (ieeeEnv m bs t) cs f[c] := by
      rw [List.getD_eq_getElem?_getD, List.getElem?_map, List.getElem?_eq_getElem hcf]
      rfl
    have hx : Conv A (cStored (ieeeEnv m bs t) cs f[c]) (amp f[c]) := hv1 _ (List.getElem_mem hcf)
    have hl' := List.Forall₂.cons hx p1
    have hpk : (CRef.peakStep (ieeeEnv m bs t) cs st f).2[c]? = some (pk Fmt.b64 (max K (maxKey mkey
        ((List.range factor).map fun k => levelF (cOut (ieeeEnv m bs t) factor
          (cStored (ieeeEnv m bs t) cs f[c] :: cp c) k))))) := by
      have := g2 c hc
      rw [hget] at this
      unfold CRef.peakStep
      dsimp only
      rw [List.getElem?_zipWith, p2, show (f.map fun s => (ieeeEnv m bs t).narrowP ((ieeeEnv m bs t).f64p.div
        (cs.toDouble s) cs.scale)) = f.map (cStored (ieeeEnv m bs t) cs) from rfl, this]
      dsimp only
      rw [keep_fold]
    have key := peaks_app (v := fun k => levelF (cOut (ieeeEnv m bs t) factor
          (cStored (ieeeEnv m bs t) cs f[c] :: cp c) k)) (V := fun k => |between0 factor (amp f[c] :: past) k|)
      (List.range factor) p3 (by
      intro k hk
      have hk := List.mem_range.1 hk
      refine ⟨pos_abs _, ?_⟩
      have := c_out (m := m) (bs := bs) (t := t) hm hf hk A0 hA hl'
      refine level_app A0 hA this (between0_abs A0 hl' hf hk) ?_ ?_
      · norm_num
        linarith
      · norm_num
        linarith)
    obtain ⟨q1, q2⟩ := h3 c hc (past := amp f[c] :: past) (by rw [hget]; exact hl') hpk key
    rw [hcol, List.map_cons, List.reverse_cons, List.append_assoc]
    exact ⟨q1, q2⟩

end Verif
