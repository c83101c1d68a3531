import Verif.Proofs.Couple
import Verif.Proofs.Events
/-!
# Peaks of two analyzers fed related signals
-/

set_option linter.unusedSimpArgs false

namespace Verif
open Fl Spec
variable {m : Libm F64} {bs : BSearch} {t : Target}

/-! ## One call seen by one channel -/

/-- What one `add_frames` call does to the peaks; on every target. -/
theorem peak_add {e e' : Ebu F64 F32} (hi : e.Inv (ieeeEnv m bs t)) (hg : e.Good) {n : Nat} (hp : e.PosAt n)
    {x : Input F64 F32} {r : Except Error Unit}
    (hs : Verif.step (ieeeEnv m bs t) e (.addFrames x) = .done (e', r)) :
    ((WellFormed e.channels x → vals m bs t e.channels x = []) ∧ e' = e) ∨
    (WellFormed e.channels x ∧ vals m bs t e.channels x ≠ [] ∧ RectF e.channels (vals m bs t e.channels x) ∧
      ∀ c, c < e.channels →
        (e'.monoOf c = (e.monoOf c).map fun ip => ip.fed m bs t ((column c (vals m bs t e.channels x)).map Val.f32)) ∧
        ∀ {a q A Q : Nat}, EPeak t e c a q A Q → ∀ d k,
          d = (if e.mode.contains Mode.SAMPLE_PEAK then
            maxKey (fun v : Val => mkey v.level) (column c (vals m bs t e.channels x)) else 0) →
          k = (match e.monoOf c with
            | some ip => ip.peakKey m bs t ((column c (vals m bs t e.channels x)).map Val.f32)
            | none => 0) → EPeak t e' c d k (max A d) (max Q k)) := by
  have hs' : e.addInput (ieeeEnv m bs t) x = .done (e', r) := hs
  by_cases hx : x.Ok e.channels
  · have hwf := (wellFormed_iff hi.ch1 x).1 hx
    obtain ⟨g, hv, hvals⟩ := vals_decode m bs t hx
    by_cases hf : x.Fits (ieeeEnv m bs t) e.channels
    · refine Or.inr ⟨hwf, ?_, vals_rect hx hf.2.1, ?_⟩
      · rw [hvals]
        intro hh
        exact hf.2.2 (List.map_eq_nil_iff.1 hh)
      · obtain ⟨h1, h2, h3, h4⟩ := Ebu.addInput_eq hi hg hp hx hf.2.1
        rw [h1] at hs'
        cases hs'
        have hn : 0 < frameCount e.channels x := by
          rw [← frames_length (ieeeEnv m bs t) hx]
          exact List.length_pos_iff.2 hf.2.2
        have hrect := hf.rect
        have htp : (e.addP (ieeeEnv m bs t) (x.decode (ieeeEnv m bs t) e.channels).ops
            (x.decode (ieeeEnv m bs t) e.channels).frames).filter.tp = e.filter.tp.map (Scanner.feed (ieeeEnv m bs t)
            (x.decode (ieeeEnv m bs t) e.channels).ops (x.decode (ieeeEnv m bs t) e.channels).frames) := by
          rcases step_peaks hi hs with ⟨-, -, u⟩ | ⟨y, hy, hx', h5, -⟩ | ⟨hy, -⟩ | ⟨_, _, hy, -⟩
          · exact absurd hf (u x rfl).1
          · cases hy
            obtain ⟨fed, rest, g1, g2, g3, -⟩ := h5.peak m bs t (decode_amp m bs t _ _) hi hrect
            rw [g2 rfl, List.append_nil] at g1
            rw [g3, ← g1]
          · cases hy
          · cases hy
        intro c hc
        constructor
        · rw [monoOf_feed hv hi hrect htp hc, hvals]
        · intro a q A Q hpk d k hd hk
          obtain ⟨-, -, -, -, -, d', k', g1, g2, g3⟩ := fed_step hi hs hn hc hpk
          have hd' : d = d' := by
            have : maxKey (fun v : Val => mkey v.level) (column c (vals m bs t e.channels x)) =
                maxKey mkey (inputLevels t e.channels c x) := by
              rw [hvals, column_map, maxKey_map, ← inputLevels_key m bs t hx]
              exact maxKey_congr fun y _ => hv.level y
            rw [hd, g2, this]
          have hk' : k = k' := by
            rw [hk, g3, tKey_val hv, hvals]
            unfold overKey
            cases e.monoOf c with
            | none => rfl
            | some ip =>
              simp only
              rw [stream_mk, Interp.evKey_true]
          rw [hd', hk']
          exact g1
    · have hnil : vals m bs t e.channels x = [] ∧ e' = e := by
        rcases step_peaks hi hs with ⟨-, -, u⟩ | ⟨y, hy, hx', -⟩ | ⟨hy, -⟩ | ⟨_, _, hy, -⟩
        · obtain ⟨-, u1, u2⟩ := u x rfl
          refine ⟨?_, u1⟩
          have hr : r = .ok () := by
            cases r with
            | ok u => rfl
            | error y =>
              by_cases hw : x.width e.channels = e.channels
              · rw [(Ebu.addInput_eq hi hg hp hx hw).1] at hs'; cases hs'
              · exact absurd (Ebu.addInput_wrong hi hx hw hs).2 nofun
          rw [hvals, (u2 hr).2]; rfl
        · cases hy; exact absurd hx' hf
        · cases hy
        · cases hy
      exact Or.inl ⟨fun _ => hnil.1, hnil.2⟩
  · have hwf := fun h => hx ((wellFormed_iff hi.ch1 x).2 h)
    rw [(Ebu.addInput_err hx).1] at hs'
    cases hs'
    exact Or.inl ⟨fun h => absurd h hwf, rfl⟩

/-- What one `seed_frames` call does to the peaks; on every target. -/
theorem peak_seed {e e' : Ebu F64 F32} (hi : e.Inv (ieeeEnv m bs t)) {x : Input F64 F32} {r : Except Error Unit}
    (hs : Verif.step (ieeeEnv m bs t) e (.seedFrames x) = .done (e', r)) :
    (¬ WellFormed e.channels x ∧ e' = e) ∨
    (WellFormed e.channels x ∧ RectF e.channels (vals m bs t e.channels x) ∧
      ∀ c, c < e.channels →
        (e'.monoOf c = (e.monoOf c).map fun ip => ip.fed m bs t ((column c (vals m bs t e.channels x)).map Val.f32)) ∧
        ∀ {a q A Q : Nat}, EPeak t e c a q A Q → EPeak t e' c a q A Q) := by
  have hs' : e.seedInput (ieeeEnv m bs t) x = .done (e', r) := hs
  by_cases hx : x.Ok e.channels
  · have hwf := (wellFormed_iff hi.ch1 x).1 hx
    obtain ⟨g, hv, hvals⟩ := vals_decode m bs t hx
    by_cases hw : x.width e.channels = e.channels
    · rw [Ebu.seedInput_eq hi hx hw] at hs'
      cases hs'
      have hrect := Input.decode_rect (ieeeEnv m bs t) hx
      rw [hw] at hrect
      refine Or.inr ⟨hwf, vals_rect hx hw, fun c hc => ⟨?_, ?_⟩⟩
      · rw [monoOf_feed hv hi hrect rfl hc, hvals]
      · intro a q A Q hpk
        exact ⟨⟨hpk.last.sample, hpk.last.true, hpk.last.key⟩, hpk.sample, hpk.true, hpk.key⟩
    · rw [Ebu.seedInput_wrong hi hx hw] at hs'; cases hs'
  · have hwf := fun h => hx ((wellFormed_iff hi.ch1 x).2 h)
    rw [(Ebu.addInput_err hx).2] at hs'
    cases hs'
    exact Or.inl ⟨hwf, rfl⟩

/-! ## Interpolators with related contents -/

/-- What a relation between sample values has to satisfy for the peaks. -/
structure PeakCoupling (m : Libm F64) (bs : BSearch) (t : Target) (V : Val → Val → Prop) (R : F32 → F32 → Prop) :
    Prop where
  level : ∀ v v', V v v' → mkey v.level = mkey v'.level
  value : ∀ v v', V v v' → R v.f32 v'.f32
  zero : R (ieeeEnv m bs t).f32p.zero (ieeeEnv m bs t).f32p.zero
  scale : ∀ o o' x x' k, R o o' → R x x' →
    R ((ieeeEnv m bs t).scaleAdd o x k) ((ieeeEnv m bs t).scaleAdd o' x' k)
  key : ∀ x x', R x x' → mkey x = mkey x'

/-- Interpolators of the same shape with related contents. -/
structure InterpRel (R : F32 → F32 → Prop) (ip ip' : Interp F32) : Prop where
  factor : ip'.factor = ip.factor
  width : ip'.width = ip.width
  filter : ip'.filter = ip.filter
  n : ip'.buffer.n = ip.buffer.n
  position : ip'.buffer.position = ip.buffer.position
  buf : List.Forall₂ (List.Forall₂ R) ip.buffer.buf ip'.buffer.buf

theorem forall2_set {α : Type} {R : α → α → Prop} {l l' : List α} (h : List.Forall₂ R l l') (i : Nat) {x y : α}
    (hx : R x y) : List.Forall₂ R (l.set i x) (l'.set i y) := by
  induction h generalizing i with
  | nil => exact .nil
  | cons h1 h2 ih =>
    cases i with
    | zero => exact .cons hx h2
    | succ i => exact .cons h1 (ih i)

theorem forall2_zipWith {α β : Type} {R : α → α → Prop} {f g : α → β → α} {l l' : List α} (h : List.Forall₂ R l l')
    (hf : ∀ x y b, R x y → R (f x b) (g y b)) (k : List β) :
    List.Forall₂ R (List.zipWith f l k) (List.zipWith g l' k) := by
  induction h generalizing k with
  | nil => simp
  | cons h1 h2 ih =>
    cases k with
    | nil => simp
    | cons b k => exact .cons (hf _ _ _ h1) (ih k)

theorem forall2_replicate {α : Type} {R : α → α → Prop} {x y : α} (h : R x y) (n : Nat) :
    List.Forall₂ R (List.replicate n x) (List.replicate n y) := by
  induction n with
  | zero => exact .nil
  | succ n ih => exact .cons h ih

variable {V : Val → Val → Prop} {R : F32 → F32 → Prop}

theorem PeakCoupling.frame (hc : PeakCoupling m bs t V R) {a a' o o' : List F32} (h : List.Forall₂ R a a')
    (h' : List.Forall₂ R o o') (k : F32) :
    List.Forall₂ R (frameScaleAdd (ieeeEnv m bs t) a o k) (frameScaleAdd (ieeeEnv m bs t) a' o' k) := by
  unfold frameScaleAdd
  induction h generalizing o o' with
  | nil => simp
  | cons h1 h2 ih =>
    cases h' with
    | nil => simp
    | cons g1 g2 => exact .cons (hc.scale _ _ _ _ _ h1 g1) (ih g2)

theorem PeakCoupling.fir (hc : PeakCoupling m bs t V R) (factor width : Nat) (filter : List (List F32))
    {v v' : List (List F32)} (h : List.Forall₂ (List.Forall₂ R) v v') :
    List.Forall₂ (List.Forall₂ R) (firAccum (ieeeEnv m bs t) factor width filter v)
      (firAccum (ieeeEnv m bs t) factor width filter v') := by
  unfold firAccum
  have h0 : List.Forall₂ (List.Forall₂ R) (List.replicate factor (zeroFrame (ieeeEnv m bs t) width))
      (List.replicate factor (zeroFrame (ieeeEnv m bs t) width)) :=
    forall2_replicate (forall2_replicate hc.zero _) _
  revert h0
  generalize List.replicate factor (zeroFrame (ieeeEnv m bs t) width) = o
  have key : ∀ (filter : List (List F32)) {v v' : List (List F32)}, List.Forall₂ (List.Forall₂ R) v v' →
      ∀ o o', List.Forall₂ (List.Forall₂ R) o o' →
      List.Forall₂ (List.Forall₂ R)
        ((List.zip filter v).foldl
          (fun out x => List.zipWith (fun o coeff => frameScaleAdd (ieeeEnv m bs t) o x.2 coeff) out x.1) o)
        ((List.zip filter v').foldl
          (fun out x => List.zipWith (fun o coeff => frameScaleAdd (ieeeEnv m bs t) o x.2 coeff) out x.1) o') := by
    intro filter
    induction filter with
    | nil => intro v v' _ o o' ho; simpa using ho
    | cons f fs ih =>
      intro v v' hv o o' ho
      cases hv with
      | nil => simpa using ho
      | cons h1 h2 =>
        simp only [List.zip_cons_cons, List.foldl_cons]
        exact ih h2 _ _ (forall2_zipWith ho (fun x y b hxy => hc.frame hxy h1 b) f)
  exact fun h0 => key filter h o o h0

theorem InterpRel.step (hc : PeakCoupling m bs t V R) {ip ip' : Interp F32} (h : InterpRel R ip ip') {x y : F32}
    (hx : R x y) : InterpRel R (ip.adv (ieeeEnv m bs t) [x]) (ip'.adv (ieeeEnv m bs t) [y]) ∧
    outKey (ip.stepP (ieeeEnv m bs t) [x]).2 = outKey (ip'.stepP (ieeeEnv m bs t) [y]).2 := by
  have hb : List.Forall₂ (List.Forall₂ R) (ip.buffer.pushP [x]).buf (ip'.buffer.pushP [y]).buf := by
    unfold RollingBuffer.pushP
    simp only [h.n, h.position]
    exact forall2_set (forall2_set h.buf _ (.cons hx .nil)) _ (.cons hx .nil)
  have hpos : (ip'.buffer.pushP [y]).position = (ip.buffer.pushP [x]).position := by
    unfold RollingBuffer.pushP
    simp only [h.n, h.position]
  refine ⟨⟨h.factor, h.width, h.filter, h.n, hpos, hb⟩, ?_⟩
  have hout : List.Forall₂ (List.Forall₂ R) (ip.stepP (ieeeEnv m bs t) [x]).2 (ip'.stepP (ieeeEnv m bs t) [y]).2 := by
    unfold Interp.stepP
    simp only [h.factor, h.width, h.filter]
    apply hc.fir
    unfold RollingBuffer.viewP
    rw [hpos]
    have hn : (ip'.buffer.pushP [y]).n = (ip.buffer.pushP [x]).n := h.n
    rw [hn]
    exact List.forall₂_take _ (List.forall₂_drop _ hb)
  unfold outKey maxKey
  have hin : ∀ {o o' : List F32}, List.Forall₂ R o o' → ∀ a,
      o.foldl (fun m x => max m (mkey x)) a = o'.foldl (fun m x => max m (mkey x)) a := by
    intro o o' ho
    induction ho with
    | nil => intro a; rfl
    | cons h1 _ ih => intro a; simp only [List.foldl_cons, hc.key _ _ h1, ih]
  have hout2 : ∀ {o o' : List (List F32)}, List.Forall₂ (List.Forall₂ R) o o' → ∀ a,
      o.foldl (fun m o => max m (o.foldl (fun m x => max m (mkey x)) 0)) a =
      o'.foldl (fun m o => max m (o.foldl (fun m x => max m (mkey x)) 0)) a := by
    intro o o' ho
    induction ho with
    | nil => intro a; rfl
    | cons h1 _ ih => intro a; simp only [List.foldl_cons, hin h1, ih]
  exact hout2 hout 0

theorem InterpRel.feed (hc : PeakCoupling m bs t V R) {xs ys : List F32} (hx : List.Forall₂ R xs ys) :
    ∀ {ip ip' : Interp F32}, InterpRel R ip ip' → InterpRel R (ip.fed m bs t xs) (ip'.fed m bs t ys) ∧
      ip.peakKey m bs t xs = ip'.peakKey m bs t ys := by
  induction hx with
  | nil => intro ip ip' h; exact ⟨h, rfl⟩
  | cons h1 h2 ih =>
    intro ip ip' h
    obtain ⟨s1, s2⟩ := h.step hc h1
    obtain ⟨f1, f2⟩ := ih s1
    refine ⟨f1, ?_⟩
    simp only [Interp.peakKey, s2, f2]

/-! ## Two analyzers -/

/-- The frames of two inputs, channel by channel. -/
def PairedVals (P : Nat → Nat → Prop) (V : Val → Val → Prop) : List (List Val) → List (List Val) → Prop :=
  List.Forall₂ fun (f f' : List Val) => ∀ c c', P c c' → ∀ v v', f[c]? = some v → f'[c']? = some v' → V v v'

/-- Calls of the same kind with related samples. -/
inductive Paired (m : Libm F64) (bs : BSearch) (t : Target) (n n' : Nat) (P : Nat → Nat → Prop)
    (V : Val → Val → Prop) : Op F64 F32 → Op F64 F32 → Prop
  | add {x x' : Input F64 F32} (hw : WellFormed n x ↔ WellFormed n' x')
      (hr : WellFormed n x → PairedVals P V (vals m bs t n x) (vals m bs t n' x')) :
      Paired m bs t n n' P V (.addFrames x) (.addFrames x')
  | seed {x x' : Input F64 F32} (hw : WellFormed n x ↔ WellFormed n' x')
      (hr : WellFormed n x → PairedVals P V (vals m bs t n x) (vals m bs t n' x')) :
      Paired m bs t n n' P V (.seedFrames x) (.seedFrames x')

theorem columns_map {α β : Type} (f : α → β) (l : List (List α)) :
    columns (l.map (·.map f)) = (columns l).map (·.map f) := by
  unfold columns
  have hl : ((l.map (·.map f)).headD []).length = (l.headD []).length := by cases l <;> simp
  rw [hl, List.map_map]
  apply List.map_congr_left
  intro k _
  simp only [Function.comp_apply, List.filterMap_map, List.map_filterMap, List.getElem?_map]

theorem vals_f64 (n : Nat) (x : Input F64 F32) :
    inputFrames (ieeeEnv m bs t) n x = (vals m bs t n x).map (·.map Val.f64) := by
  cases x
  case i16 | i32 | f32 | f64 =>
    simp only [inputFrames, vals, mapFrames, ← groups_map, List.map_map]; rfl
  all_goals
    simp only [inputFrames, vals, mapFrames, ← columns_map, List.map_map]
    congr 1
    apply List.map_congr_left
    intro d _
    simp only [Function.comp_apply, List.map_map]
    rfl

theorem PairedVals.related {P : Nat → Nat → Prop} {Q : F64 → F64 → Prop} (hq : ∀ v v', V v v' → Q v.f64 v'.f64)
    {fs fs' : List (List Val)} (h : PairedVals P V fs fs') :
    Related P Q (fs.map (·.map Val.f64)) (fs'.map (·.map Val.f64)) := by
  unfold Related
  rw [List.forall₂_map_left_iff, List.forall₂_map_right_iff]
  refine h.imp ?_
  intro f f' hf c c' hcc x x' h1 h2
  rw [List.getElem?_map] at h1 h2
  obtain ⟨v, hv, rfl⟩ := Option.map_eq_some_iff.1 h1
  obtain ⟨v', hv', rfl⟩ := Option.map_eq_some_iff.1 h2
  exact hq _ _ (hf c c' hcc v v' hv hv')

theorem Paired.matching {n n' : Nat} {P : Nat → Nat → Prop} {Q : F64 → F64 → Prop}
    (hq : ∀ v v', V v v' → Q v.f64 v'.f64) {op op' : Op F64 F32} (h : Paired m bs t n n' P V op op') :
    Matching (ieeeEnv m bs t) n n' P Q op op' := by
  cases h with
  | add hw hr =>
    exact .add hw fun h => by rw [vals_f64, vals_f64]; exact (hr h).related hq
  | seed hw hr =>
    exact .seed hw fun h => by rw [vals_f64, vals_f64]; exact (hr h).related hq

theorem PairedVals.columns {P : Nat → Nat → Prop} {n n' : Nat} {fs fs' : List (List Val)} (h : PairedVals P V fs fs')
    (hf : RectF n fs) (hf' : RectF n' fs') {c c' : Nat} (hcc : P c c') (hc : c < n) (hc' : c' < n') :
    List.Forall₂ V (column c fs) (column c' fs') := by
  unfold PairedVals at h
  induction h with
  | nil => exact .nil
  | @cons f f' fs fs' h1 h2 ih =>
    have l1 : c < f.length := by rw [hf f (by simp)]; exact hc
    have l2 : c' < f'.length := by rw [hf' f' (by simp)]; exact hc'
    have e1 : column c (f :: fs) = f[c] :: column c fs := by
      simp [Verif.column, List.getElem?_eq_getElem l1]
    have e2 : column c' (f' :: fs') = f'[c'] :: column c' fs' := by
      simp [Verif.column, List.getElem?_eq_getElem l2]
    rw [e1, e2]
    exact .cons (h1 c c' hcc _ _ (List.getElem?_eq_getElem l1) (List.getElem?_eq_getElem l2))
      (ih (fun g hg => hf g (by simp [hg])) (fun g hg => hf' g (by simp [hg])))

/-- The peaks of paired channels agree. -/
structure PeaksCoupled (t : Target) (P : Nat → Nat → Prop) (R : F32 → F32 → Prop) (e e' : Ebu F64 F32) : Prop where
  peak : ∀ c c', P c c' → c < e.channels ∧ c' < e'.channels ∧
    ∃ a q A Q, EPeak t e c a q A Q ∧ EPeak t e' c' a q A Q
  mono : ∀ c c', P c c' → Option.Rel (InterpRel R) (e.monoOf c) (e'.monoOf c')

theorem maxKey_forall2 (hc : PeakCoupling m bs t V R) {l l' : List Val} (h : List.Forall₂ V l l') :
    maxKey (fun v : Val => mkey v.level) l = maxKey (fun v : Val => mkey v.level) l' := by
  unfold maxKey
  generalize 0 = a
  induction h generalizing a with
  | nil => rfl
  | cons h1 _ ih => simp only [List.foldl_cons, hc.level _ _ h1, ih]

theorem PeaksCoupled.step {P : Nat → Nat → Prop} {e e' e1 e1' : Ebu F64 F32} (hc : PeakCoupling m bs t V R)
    (h : PeaksCoupled t P R e e') (hmode : e'.mode = e.mode) (hi : e.Inv (ieeeEnv m bs t))
    (hi' : e'.Inv (ieeeEnv m bs t)) (hg : e.Good)
    (hg' : e'.Good) {n n' : Nat} (hp : e.PosAt n) (hp' : e'.PosAt n') {op op' : Op F64 F32}
    (hm : Paired m bs t e.channels e'.channels P V op op') {r r' : Except Error Unit}
    (hs : Verif.step (ieeeEnv m bs t) e op = .done (e1, r))
    (hs' : Verif.step (ieeeEnv m bs t) e' op' = .done (e1', r')) :
    PeaksCoupled t P R e1 e1' := by
  have hch : e1.channels = e.channels := (feed_sameCfg hi (hm.matching (Q := fun _ _ => True) fun _ _ _ => trivial).feed.1 hs).channels
  have hch' : e1'.channels = e'.channels := (feed_sameCfg hi' (hm.matching (Q := fun _ _ => True) fun _ _ _ => trivial).feed.2 hs').channels
  cases hm with
  | @add x x' hw hr =>
    rcases peak_add hi hg hp hs with ⟨z1, rfl⟩ | ⟨w1, z1, f1, k1⟩
    · rcases peak_add hi' hg' hp' hs' with ⟨z2, rfl⟩ | ⟨w2, z2, f2, k2⟩
      · exact h
      · have w1 := hw.2 w2
        have := hr w1
        rw [z1 w1] at this
        cases hh : vals m bs t e'.channels x' with
        | nil => exact absurd hh z2
        | cons a l => rw [hh] at this; cases this
    · rcases peak_add hi' hg' hp' hs' with ⟨z2, rfl⟩ | ⟨w2, z2, f2, k2⟩
      · have := hr w1
        rw [z2 (hw.1 w1)] at this
        cases hh : vals m bs t e.channels x with
        | nil => exact absurd hh z1
        | cons a l => rw [hh] at this; cases this
      · refine ⟨?_, ?_⟩
        · intro c c' hcc
          obtain ⟨c1, c2, a, q, A, Q, p1, p2⟩ := h.peak c c' hcc
          have hcol := (hr w1).columns f1 f2 hcc c1 c2
          have hcol32 : List.Forall₂ R ((column c (vals m bs t e.channels x)).map Val.f32)
              ((column c' (vals m bs t e'.channels x')).map Val.f32) := by
            rw [List.forall₂_map_left_iff, List.forall₂_map_right_iff]
            exact hcol.imp fun v v' => hc.value v v'
          refine ⟨by rw [hch]; exact c1, by rw [hch']; exact c2, _, _, _, _, (k1 c c1).2 p1 _ _ rfl rfl,
            (k2 c' c2).2 p2 _ _ ?_ ?_⟩
          · rw [hmode, maxKey_forall2 hc hcol]
          · have := h.mono c c' hcc
            revert this
            generalize e.monoOf c = o
            generalize e'.monoOf c' = o'
            intro this
            cases this with
            | some hip => exact ((hip.feed hc hcol32).2)
            | none => rfl
        · intro c c' hcc
          obtain ⟨c1, c2, -⟩ := h.peak c c' hcc
          have hcol := (hr w1).columns f1 f2 hcc c1 c2
          have hcol32 : List.Forall₂ R ((column c (vals m bs t e.channels x)).map Val.f32)
              ((column c' (vals m bs t e'.channels x')).map Val.f32) := by
            rw [List.forall₂_map_left_iff, List.forall₂_map_right_iff]
            exact hcol.imp fun v v' => hc.value v v'
          rw [(k1 c c1).1, (k2 c' c2).1]
          have := h.mono c c' hcc
          revert this
          generalize e.monoOf c = o
          generalize e'.monoOf c' = o'
          intro this
          cases this with
          | some hip => exact .some (hip.feed hc hcol32).1
          | none => exact .none
  | @seed x x' hw hr =>
    rcases peak_seed hi hs with ⟨z1, rfl⟩ | ⟨w1, f1, k1⟩
    · rcases peak_seed hi' hs' with ⟨z2, rfl⟩ | ⟨w2, f2, k2⟩
      · exact h
      · exact absurd (hw.2 w2) z1
    · rcases peak_seed hi' hs' with ⟨z2, rfl⟩ | ⟨w2, f2, k2⟩
      · exact absurd (hw.1 w1) z2
      · refine ⟨?_, ?_⟩
        · intro c c' hcc
          obtain ⟨c1, c2, a, q, A, Q, p1, p2⟩ := h.peak c c' hcc
          exact ⟨by rw [hch]; exact c1, by rw [hch']; exact c2, _, _, _, _, (k1 c c1).2 p1, (k2 c' c2).2 p2⟩
        · intro c c' hcc
          obtain ⟨c1, c2, -⟩ := h.peak c c' hcc
          have hcol := (hr w1).columns f1 f2 hcc c1 c2
          have hcol32 : List.Forall₂ R ((column c (vals m bs t e.channels x)).map Val.f32)
              ((column c' (vals m bs t e'.channels x')).map Val.f32) := by
            rw [List.forall₂_map_left_iff, List.forall₂_map_right_iff]
            exact hcol.imp fun v v' => hc.value v v'
          rw [(k1 c c1).1, (k2 c' c2).1]
          have := h.mono c c' hcc
          revert this
          generalize e.monoOf c = o
          generalize e'.monoOf c' = o'
          intro this
          cases this with
          | some hip => exact .some (hip.feed hc hcol32).1
          | none => exact .none

theorem PeaksCoupled.run {P : Nat → Nat → Prop} (hc : PeakCoupling m bs t V R) {ops ops' : List (Op F64 F32)} :
    ∀ {e e' e1 e1' : Ebu F64 F32}, PeaksCoupled t P R e e' → e'.mode = e.mode →
    Reachable (ieeeEnv m bs t) e → Reachable (ieeeEnv m bs t) e' →
    Adequate e.mode e.rate e.window → Adequate e'.mode e'.rate e'.window →
    List.Forall₂ (Paired m bs t e.channels e'.channels P V) ops ops' →
    runOps (ieeeEnv m bs t) e ops = .done e1 → runOps (ieeeEnv m bs t) e' ops' = .done e1' →
    PeaksCoupled t P R e1 e1' := by
  induction ops generalizing ops' with
  | nil =>
    intro e e' e1 e1' h _ _ _ _ _ hm h1 h2
    cases hm
    cases h1
    cases h2
    exact h
  | cons op ops ih =>
    intro e e' e1 e1' h hmode r r' ha ha' hm h1 h2
    cases hm with
    | @cons _ op' _ ops' hm hms =>
      simp only [runOps, Run.bind_eq] at h1 h2
      obtain ⟨⟨x, s⟩, g1, h1⟩ := Run.bind_done h1
      obtain ⟨⟨x', s'⟩, g2, h2⟩ := Run.bind_done h2
      have hi := r.inv
      have hi' := r'.inv
      have hg := hi.good_iff.2 ha
      have hg' := hi'.good_iff.2 ha'
      obtain ⟨n, hp⟩ := r.inv2.pos hg
      obtain ⟨n', hp'⟩ := r'.inv2.pos hg'
      have hx := h.step hc hmode hi hi' hg hg' hp hp' hm g1 g2
      have hfeed := (hm.matching (Q := fun _ _ => True) fun _ _ _ => trivial).feed
      have c1 := feed_sameCfg hi hfeed.1 g1
      have c2 := feed_sameCfg hi' hfeed.2 g2
      exact ih (e := x) (e' := x') hx (by rw [c1.mode, c2.mode, hmode]) (r.step g1) (r'.step g2)
        (by rw [c1.mode, c1.rate, c1.window]; exact ha) (by rw [c2.mode, c2.rate, c2.window]; exact ha')
        (by rw [c1.channels, c2.channels]; exact hms) h1 h2

/-- The four peak queries. -/
inductive Spec.PeakQuery : (UInt32 → Query) → Prop
  | sample : PeakQuery .samplePeak
  | prevSample : PeakQuery .prevSamplePeak
  | true : PeakQuery .truePeak
  | prevTrue : PeakQuery .prevTruePeak

theorem PeaksCoupled.answers {P : Nat → Nat → Prop} {e e' : Ebu F64 F32} (h : PeaksCoupled t P R e e')
    (hmode : e'.mode = e.mode) {c c' : UInt32} (hcc : P c.toNat c'.toNat) {q : UInt32 → Query} (hq : PeakQuery q) :
    ask (ieeeEnv m bs t) e (q c) = ask (ieeeEnv m bs t) e' (q c') := by
  obtain ⟨c1, c2, a, k, A, K, p1, p2⟩ := h.peak _ _ hcc
  have i1 : ∀ {l : List F64} {n : Nat} {v : F64}, l[n]? = some v → Run.index l n = .done v := Run.index_some
  cases hq with
  | sample =>
    simp only [ask, Ebu.getSamplePeak, hmode, if_neg (Nat.not_le.2 c1), if_neg (Nat.not_le.2 c2), i1 p1.sample,
      i1 p2.sample]
  | prevSample =>
    simp only [ask, Ebu.getPrevSamplePeak, hmode, if_neg (Nat.not_le.2 c1), if_neg (Nat.not_le.2 c2),
      i1 p1.last.sample, i1 p2.last.sample]
  | «true» =>
    simp only [ask, Ebu.getTruePeak, hmode, if_neg (Nat.not_le.2 c1), if_neg (Nat.not_le.2 c2), i1 p1.sample,
      i1 p2.sample, i1 p1.true, i1 p2.true]
  | prevTrue =>
    simp only [ask, Ebu.getPrevTruePeak, hmode, if_neg (Nat.not_le.2 c1), if_neg (Nat.not_le.2 c2),
      i1 p1.last.sample, i1 p2.last.sample, i1 p1.last.true, i1 p2.last.true]

end Verif
