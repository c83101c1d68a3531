import Verif.Spec.Libm
import Verif.Proofs.Convert
import Verif.Props.C11
/-!
# C17: integer and `f32` input are equivalent to `f64` input

One call with integer samples leaves the analyzer in exactly the same state (including the peaks of the call) as
one call with the same samples as doubles; for `f32` samples this holds unless a sample is subnormal and
subnormals are flushed to zero.
-/

set_option linter.unusedSimpArgs false

namespace Verif
open Fl Spec

variable {m : Libm F64} {bs : BSearch} {t : Target}

/-! ## Calls with equal values -/

theorem FPeak.lists {f f' : Filter F64 F32} {n : Nat} (h : f.Inv n) (h' : f'.Inv n)
    (hp : ∀ c, c < n → ∃ a q, FPeak t f c a q ∧ FPeak t f' c a q) :
    f.samplePeak = f'.samplePeak ∧ f.truePeak = f'.truePeak := by
  constructor
  · apply List.ext_getElem?
    intro c
    by_cases hc : c < n
    · obtain ⟨a, q, h1, h2⟩ := hp c hc
      rw [h1.sample, h2.sample]
    · rw [List.getElem?_eq_none (by rw [h.samplePeak]; omega), List.getElem?_eq_none (by rw [h'.samplePeak]; omega)]
  · apply List.ext_getElem?
    intro c
    by_cases hc : c < n
    · obtain ⟨a, q, h1, h2⟩ := hp c hc
      rw [h1.true, h2.true]
    · rw [List.getElem?_eq_none (by rw [h.truePeak]; omega), List.getElem?_eq_none (by rw [h'.truePeak]; omega)]

/-- The effect of `add_frames` is determined by what the samples amount to, on every target. -/
theorem add_same {e : Ebu F64 F32} (hr : Reachable (ieeeEnv m bs t) e) (ha : Adequate e.mode e.rate e.window)
    {x y : Input F64 F32} (hx : x.Ok e.channels) (hy : y.Ok e.channels) (wx : x.width e.channels = e.channels)
    (wy : y.width e.channels = e.channels) (hv : vals m bs t e.channels x = vals m bs t e.channels y) :
    step (ieeeEnv m bs t) e (.addFrames x) = step (ieeeEnv m bs t) e (.addFrames y) := by
  have hi := hr.inv
  have hg := hi.good_iff.2 ha
  obtain ⟨n, hp⟩ := hr.inv2.pos hg
  obtain ⟨x1, x2, x3, -⟩ := Ebu.addInput_eq hi hg hp hx wx
  obtain ⟨y1, y2, y3, -⟩ := Ebu.addInput_eq hi hg hp hy wy
  obtain ⟨gx, vx, kx⟩ := vals_decode m bs t hx
  obtain ⟨gy, vy, ky⟩ := vals_decode m bs t hy
  have rx := Input.decode_rect (ieeeEnv m bs t) hx
  have ry := Input.decode_rect (ieeeEnv m bs t) hy
  rw [wx] at rx
  rw [wy] at ry
  have hlen : (x.decode (ieeeEnv m bs t) e.channels).frames.length =
      (y.decode (ieeeEnv m bs t) e.channels).frames.length := by
    have := congrArg List.length hv
    rw [kx, ky, List.length_map, List.length_map] at this
    exact this
  have sx : step (ieeeEnv m bs t) e (.addFrames x) = _ := x1
  have sy : step (ieeeEnv m bs t) e (.addFrames y) = _ := y1
  rw [sx, sy]
  congr 2
  by_cases hn : 0 < (x.decode (ieeeEnv m bs t) e.channels).frames.length
  · -- everything but the peaks
    have hst := (Ebu.strip_addP_loop (x.decode (ieeeEnv m bs t) e.channels).ops hi hg hp rx).trans
      (vx.addLoopC (ieeeEnv m bs t) _ _ _).symm
    have hst' := (Ebu.strip_addP_loop (y.decode (ieeeEnv m bs t) e.channels).ops hi hg hp ry).trans
      (vy.addLoopC (ieeeEnv m bs t) _ _ _).symm
    rw [← kx, hlen, hv, ky, ← hst'] at hst
    -- the peaks
    have pk : ∀ c, c < e.channels → ∃ d k A Q,
        EPeak t (e.addP (ieeeEnv m bs t) (x.decode (ieeeEnv m bs t) e.channels).ops
          (x.decode (ieeeEnv m bs t) e.channels).frames) c d k A Q ∧
        EPeak t (e.addP (ieeeEnv m bs t) (y.decode (ieeeEnv m bs t) e.channels).ops
          (y.decode (ieeeEnv m bs t) e.channels).frames) c d k A Q := by
      intro c hc
      obtain ⟨a, q, A, Q, h0, -⟩ := hr.pk m bs t c hc
      obtain ⟨-, -, -, -, -, d, k, g1, g2, g3⟩ := fed_step hi sx
        (by rw [← frames_length (ieeeEnv m bs t) hx]; exact hn) hc h0
      obtain ⟨-, -, -, -, -, d', k', g1', g2', g3'⟩ := fed_step hi sy
        (by rw [← frames_length (ieeeEnv m bs t) hy, ← hlen]; exact hn) hc h0
      have hd : ∀ {z : Input F64 F32} (hz : z.Ok e.channels), maxKey mkey (inputLevels t e.channels c z) =
          levKey c ((vals m bs t e.channels z).map fun f => (true, f)) := by
        intro z hz
        obtain ⟨g, v, k⟩ := vals_decode m bs t hz
        rw [levKey_true, k, column_map, maxKey_map, ← inputLevels_key m bs t hz]
        exact (maxKey_congr fun y _ => v.level y).symm
      have e1 : d' = d := by rw [g2, g2', hd hx, hd hy, hv]
      have e2 : k' = k := by rw [g3, g3', tKey_val vx, tKey_val vy, ← kx, ← ky, hv]
      subst e1 e2
      exact ⟨d', k', _, _, g1, g1'⟩
    have hf := FPeak.lists (t := t) (by rw [← x3.channels]; exact x2.filter) (by rw [← y3.channels]; exact y2.filter)
      (n := e.channels) (by
        intro c hc
        obtain ⟨d, k, A, Q, h1, h2⟩ := pk c hc
        exact ⟨d, k, h1.last, h2.last⟩)
    have hs : (e.addP (ieeeEnv m bs t) (x.decode (ieeeEnv m bs t) e.channels).ops
          (x.decode (ieeeEnv m bs t) e.channels).frames).samplePeak =
        (e.addP (ieeeEnv m bs t) (y.decode (ieeeEnv m bs t) e.channels).ops
          (y.decode (ieeeEnv m bs t) e.channels).frames).samplePeak := by
      apply List.ext_getElem?
      intro c
      by_cases hc : c < e.channels
      · obtain ⟨d, k, A, Q, h1, h2⟩ := pk c hc
        rw [h1.sample, h2.sample]
      · rw [List.getElem?_eq_none (by rw [x2.samplePeak, x3.channels]; omega),
          List.getElem?_eq_none (by rw [y2.samplePeak, y3.channels]; omega)]
    have htp : (e.addP (ieeeEnv m bs t) (x.decode (ieeeEnv m bs t) e.channels).ops
          (x.decode (ieeeEnv m bs t) e.channels).frames).truePeak =
        (e.addP (ieeeEnv m bs t) (y.decode (ieeeEnv m bs t) e.channels).ops
          (y.decode (ieeeEnv m bs t) e.channels).frames).truePeak := by
      apply List.ext_getElem?
      intro c
      by_cases hc : c < e.channels
      · obtain ⟨d, k, A, Q, h1, h2⟩ := pk c hc
        rw [h1.true, h2.true]
      · rw [List.getElem?_eq_none (by rw [x2.truePeak, x3.channels]; omega),
          List.getElem?_eq_none (by rw [y2.truePeak, y3.channels]; omega)]
    generalize e.addP (ieeeEnv m bs t) (x.decode (ieeeEnv m bs t) e.channels).ops
          (x.decode (ieeeEnv m bs t) e.channels).frames = u at *
    generalize e.addP (ieeeEnv m bs t) (y.decode (ieeeEnv m bs t) e.channels).ops
          (y.decode (ieeeEnv m bs t) e.channels).frames = v at *
    have hu : u = { u.strip with
      filter := { u.strip.filter with samplePeak := u.filter.samplePeak, truePeak := u.filter.truePeak }
      samplePeak := u.samplePeak
      truePeak := u.truePeak } := rfl
    rw [hst, hf.1, hf.2, hs, htp] at hu
    exact hu
  · have h0 : (x.decode (ieeeEnv m bs t) e.channels).frames.length = 0 := by omega
    unfold Ebu.addP
    rw [if_pos h0, if_pos (by omega)]

/-- The same for `seed_frames`. -/
theorem seed_same {e : Ebu F64 F32} (hi : e.Inv (ieeeEnv m bs t))
    {x y : Input F64 F32} (hx : x.Ok e.channels) (hy : y.Ok e.channels) (wx : x.width e.channels = e.channels)
    (wy : y.width e.channels = e.channels) (hv : vals m bs t e.channels x = vals m bs t e.channels y) :
    step (ieeeEnv m bs t) e (.seedFrames x) = step (ieeeEnv m bs t) e (.seedFrames y) := by
  have x1 := Ebu.seedInput_eq hi hx wx
  have y1 := Ebu.seedInput_eq hi hy wy
  obtain ⟨gx, vx, kx⟩ := vals_decode m bs t hx
  obtain ⟨gy, vy, ky⟩ := vals_decode m bs t hy
  have sx : step (ieeeEnv m bs t) e (.seedFrames x) = _ := x1
  have sy : step (ieeeEnv m bs t) e (.seedFrames y) = _ := y1
  rw [sx, sy]
  congr 2
  unfold Ebu.seedP
  rw [← vx.coreP, ← vy.coreP, ← kx, ← ky, hv]

/-! ## The conversions -/

/-- A 16-bit sample as a double between -1 and 1: `x / 32768`. -/
def Spec.double16 (x : Int16) : F64 := Fl.div (Fl.ofInt _ x.toInt) (Fl.lit _ 32768 1)
/-- A 32-bit sample as a double between -1 and 1: `x / 2^31`. -/
def Spec.double32 (x : Int32) : F64 := Fl.div (Fl.ofInt _ x.toInt) (Fl.lit _ 2147483648 1)
/-- An `f32` as a double. -/
def Spec.doubleF (x : F32) : F64 := Fl.cast _ x

/-- The input with all samples as doubles. -/
def Spec.asDoubles : Input F64 F32 → Input F64 F32
  | .i16 l => .f64 (l.map double16)
  | .i32 l => .f64 (l.map double32)
  | .f32 l => .f64 (l.map doubleF)
  | .f64 l => .f64 l
  | .pi16 l => .pf64 (l.map (·.map double16))
  | .pi32 l => .pf64 (l.map (·.map double32))
  | .pf32 l => .pf64 (l.map (·.map doubleF))
  | .pf64 l => .pf64 l

/-- A single that flush-to-zero would clear. -/
def Spec.Subnormal : F32 → Prop
  | .nan => False
  | .num _ k _ => 0 < k ∧ k < 2 ^ 23

/-- No sample is a subnormal single. -/
def Spec.NoSubnormal : Input F64 F32 → Prop
  | .f32 l => ∀ x ∈ l, ¬ Subnormal x
  | .pf32 l => ∀ c ∈ l, ∀ x ∈ c, ¬ Subnormal x
  | _ => True

theorem ftz_ofInt (φ : Fmt) : (Fl.arithFtz φ).ofInt = Fl.ofInt φ := rfl
theorem ftz_lit (φ : Fmt) : (Fl.arithFtz φ).lit = Fl.lit φ := rfl

theorem val_double16 (x : Int16) : valD m bs t (double16 x) = val16 m bs t x := by
  have h := natAbs16 x
  unfold valD val16 double16
  congr 1
  · have := flush_int_div t (d := 32768) h (by omega) (by omega)
    rw [Nat.cast_ofNat] at this
    simp only [f64Ops, i16Ops]
    cases hs : t.sse2 <;> simp only [hs, ieeeEnv, if_true, if_false, Bool.false_eq_true] at this ⊢
    · simp only [arith_div, arith_ofInt, arith_lit]
    · rw [ftz_ofInt, ftz_lit]; exact this.symm
  · have := cast_int_div (i := x.toInt) (j := 15) (by omega) (by omega)
    rw [show ((2 ^ 15 : Nat) : Int) = 32768 by norm_num] at this
    simp only [f64Ops, i16Ops]
    cases hs : t.sse2 <;> simp only [hs, ieeeEnv, if_true, if_false, Bool.false_eq_true]
    · exact this
    · exact congrArg Fl.ftz this
  · exact level_int_div t (d := 32768) h (by omega) (by omega)

theorem val_double32 (x : Int32) : valD m bs t (double32 x) = val32 m bs t x := by
  have h := natAbs32 x
  unfold valD val32 double32
  congr 1
  · have := flush_int_div t (d := 2147483648) h (by omega) (by omega)
    rw [Nat.cast_ofNat] at this
    simp only [f64Ops, i32Ops]
    cases hs : t.sse2 <;> simp only [hs, ieeeEnv, if_true, if_false, Bool.false_eq_true] at this ⊢
    · simp only [arith_div, arith_ofInt, arith_lit]
    · rw [ftz_ofInt, ftz_lit]; exact this.symm
  · have := cast_int_div (i := x.toInt) (j := 31) (by omega) (by omega)
    rw [show ((2 ^ 31 : Nat) : Int) = 2147483648 by norm_num] at this
    simp only [f64Ops, i32Ops]
    cases hs : t.sse2 <;> simp only [hs, ieeeEnv, if_true, if_false, Bool.false_eq_true]
    · exact this
    · exact congrArg Fl.ftz this
  · exact level_int_div t (d := 2147483648) h (by omega) (by omega)

theorem val_doubleF {x : F32} (h : t.sse2 = true → ¬ Subnormal x) : valD m bs t (doubleF x) = valF m bs t x := by
  unfold valD valF doubleF
  congr 1
  · simp only [f64Ops, f32Ops]
    cases hs : t.sse2 <;> simp only [hs, ieeeEnv, if_true, if_false, Bool.false_eq_true]
    · exact cast_cast x
    · rw [cast_cast]
      cases x with
      | nan => rfl
      | num s k hk =>
        apply Fl.ftz_eq
        have := h hs
        unfold Subnormal at this
        show k = 0 ∨ 2 ^ 23 ≤ k
        omega
  · exact level_widen t x

theorem asDoubles_vals (n : Nat) {x : Input F64 F32} (h : t.sse2 = true → NoSubnormal x) :
    vals m bs t n (asDoubles x) = vals m bs t n x := by
  have inter : ∀ {T : Type} (l : List T) (f : T → F64) (g : T → Val), (∀ x ∈ l, valD m bs t (f x) = g x) →
      (l.map f).map (valD m bs t) = l.map g := by
    intro T l f g hf
    rw [List.map_map]
    exact List.map_congr_left hf
  have plan : ∀ {T : Type} (l : List (List T)) (f : T → F64) (g : T → Val),
      (∀ c ∈ l, ∀ x ∈ c, valD m bs t (f x) = g x) →
      (l.map (·.map f)).map (·.map (valD m bs t)) = l.map (·.map g) := by
    intro T l f g hf
    rw [List.map_map]
    exact List.map_congr_left fun c hc => inter c f g (hf c hc)
  cases x with
  | i16 l => exact congrArg (groups n) (inter l _ _ fun x _ => val_double16 x)
  | i32 l => exact congrArg (groups n) (inter l _ _ fun x _ => val_double32 x)
  | f32 l => exact congrArg (groups n) (inter l _ _ fun x hx => val_doubleF fun hs => h hs x hx)
  | f64 l => rfl
  | pi16 l => exact congrArg columns (plan l _ _ fun _ _ x _ => val_double16 x)
  | pi32 l => exact congrArg columns (plan l _ _ fun _ _ x _ => val_double32 x)
  | pf32 l => exact congrArg columns (plan l _ _ fun c hc x hx => val_doubleF fun hs => h hs c hc x hx)
  | pf64 l => rfl

/-- A planar call with a wrong number of channels. -/
theorem addInput_wrong_eq {E : Env F64 F32} {e : Ebu F64 F32} (h : e.Inv E) {x : Input F64 F32}
    (hx : x.Ok e.channels) (hw : x.width e.channels ≠ e.channels) :
    step E e (.addFrames x) = if frameCount e.channels x = 0 then .done (e, .ok ()) else .panic := by
  have plan : ∀ {T : Type} (ops : SampleOps F64 F32 T) (l : List (List T)), planarOk l →
      l.length ≠ e.channels →
      e.addPlanar E ops l = if (l.headD []).length = 0 then .done (e, .ok ()) else .panic := by
    intro T ops l hl hc
    simp only [Ebu.addPlanar, (planar_new_eq _).1 hl]
    rw [Ebu.addFrames_wrong ops h (planarOk_wf hl) (by exact hc)]
    rfl
  cases x
  · exact absurd rfl hw
  · exact absurd rfl hw
  · exact absurd rfl hw
  · exact absurd rfl hw
  · exact plan _ _ hx hw
  · exact plan _ _ hx hw
  · exact plan _ _ hx hw
  · exact plan _ _ hx hw

theorem asDoubles_ok (n : Nat) (x : Input F64 F32) :
    ((asDoubles x).Ok n ↔ x.Ok n) ∧ (asDoubles x).width n = x.width n := by
  have plan : ∀ {T : Type} (l : List (List T)) (f : T → F64), planarOk (l.map (·.map f)) ↔ planarOk l := by
    intro T l f
    cases l <;> simp [planarOk]
  cases x <;> simp only [asDoubles, Input.Ok, Input.width, interOk, List.length_map, plan, and_self]

theorem asDoubles_count (n : Nat) (x : Input F64 F32) : frameCount n (asDoubles x) = frameCount n x := by
  have plan : ∀ {T : Type} (l : List (List T)) (f : T → F64),
      ((l.map (·.map f)).headD []).length = (l.headD []).length := by
    intro T l f; cases l <;> simp
  cases x <;> simp only [asDoubles, frameCount, List.length_map, plan]

/-- **C17.** Feeding samples of any type has exactly the effect of feeding the corresponding doubles: same
state, including the peaks of the call, and same result, also for malformed input and a wrong number of
planar channels. For `f32` samples on targets with flush-to-zero none may be subnormal. -/
theorem C17_add {e : Ebu F64 F32} (hr : Reachable (ieeeEnv m bs t) e) (ha : Adequate e.mode e.rate e.window)
    {x : Input F64 F32} (hx : t.sse2 = true → NoSubnormal x) :
    step (ieeeEnv m bs t) e (.addFrames x) = step (ieeeEnv m bs t) e (.addFrames (asDoubles x)) := by
  have hi := hr.inv
  obtain ⟨k1, k2⟩ := asDoubles_ok e.channels x
  by_cases h : x.Ok e.channels
  · by_cases hw : x.width e.channels = e.channels
    · exact add_same hr ha h (k1.2 h) hw (k2.trans hw) (asDoubles_vals _ hx).symm
    · rw [addInput_wrong_eq hi h hw, addInput_wrong_eq hi (k1.2 h) (by rwa [k2]), asDoubles_count]
  · exact (Ebu.addInput_err h).1.trans (Ebu.addInput_err (fun hh => h (k1.1 hh))).1.symm

/-- **C17** for seeding. -/
theorem C17_seed {e : Ebu F64 F32} (hr : Reachable (ieeeEnv m bs t) e)
    {x : Input F64 F32} (hx : t.sse2 = true → NoSubnormal x) :
    step (ieeeEnv m bs t) e (.seedFrames x) = step (ieeeEnv m bs t) e (.seedFrames (asDoubles x)) := by
  have hi := hr.inv
  obtain ⟨k1, k2⟩ := asDoubles_ok e.channels x
  by_cases h : x.Ok e.channels
  · by_cases hw : x.width e.channels = e.channels
    · exact seed_same hi h (k1.2 h) hw (k2.trans hw) (asDoubles_vals _ hx).symm
    · exact (Ebu.seedInput_wrong hi h hw).trans (Ebu.seedInput_wrong hi (k1.2 h) (by rwa [k2])).symm
  · exact (Ebu.addInput_err h).2.trans (Ebu.addInput_err (fun hh => h (k1.1 hh))).2.symm

/-! ## Concrete cases -/

/-- Any environment with 64-bit `usize`: a fresh analyzer. -/
theorem fresh_any {E : Env F64 F32} (hE : 2 ^ 64 - 1 ≤ E.usizeMax) {channels rate : Nat} {mode : Mode}
    (h : 1 ≤ channels ∧ channels ≤ 64 ∧ 16 ≤ rate ∧ rate ≤ 2822400) (hm : mode.contains Mode.M = true) :
    Ebu.new E channels rate mode = .done (.ok (Ebu.init E channels rate mode)) ∧
      Reachable E (Ebu.init E channels rate mode) := by
  obtain ⟨e, he⟩ := (C01_new_64 E hE channels rate mode).1.2 ⟨h, hm⟩
  obtain ⟨rfl, -⟩ := Ebu.new_ok he
  exact ⟨he, reachable_new he⟩

/-- What an analyzer with one channel at 20 Hz and mode `TRUE_PEAK` reports after one call: sample and true
peak of channel 0 as bit patterns. -/
def Demo.peaksAfter (E : Env F64 F32) (x : Input F64 F32) : Option (Nat × Nat) :=
  match step E (Ebu.init E 1 20 Mode.TRUE_PEAK) (.addFrames x) with
  | .done (e, _) => match e.getSamplePeak 0, e.getTruePeak E 0 with
    | .done (.ok v), .done (.ok w) => some (v.bits, w.bits)
    | _, _ => none
  | _ => none

theorem Demo.rises {o : Option (Nat × Nat)}
    (h : (match o with | some (s, t) => decide (s < t) | none => false) = true) :
    ∃ s t, o = some (s, t) ∧ s < t := by
  match o with
  | some (s, t) => exact ⟨s, t, rfl, of_decide_eq_true h⟩
  | none => cases h

/-- Two small samples between two subnormal ones of opposite sign. -/
def Demo.nearZero : List F32 :=
  let s : F32 := .num true 8388607 (by decide)
  let n : F32 := .num false 16777216 (by decide)
  [s, n, n, s, .zero false, .zero false, .zero false, .zero false]

def Demo.tune : List Int16 := [-9000, 20000, 20000, -9000, 0, 0, 0, 0]

theorem Demo.tune_rises : (match Demo.peaksAfter (Demo.envReal true) (.i16 Demo.tune) with
    | some (s, t) => decide (s < t) | none => false) = true := by decide +kernel

/-- The hypotheses of `C17_add` are met by a sixteen-bit signal, which is measured as non-silent with a true
peak above the sample peak. -/
example : Reachable (Demo.envReal true) (Ebu.init (Demo.envReal true) 1 20 Mode.TRUE_PEAK) ∧
    Adequate Mode.TRUE_PEAK 20 400 ∧
    NoSubnormal (.i16 Demo.tune : Input F64 F32) ∧
    (∃ s t, Demo.peaksAfter (Demo.envReal true) (.i16 Demo.tune) = some (s, t) ∧
      s < t) := by
  refine ⟨(fresh_any (Nat.le_refl _) (by omega) (by decide)).2, by decide, trivial, ?_⟩
  exact Demo.rises Demo.tune_rises

/-- **C17, why subnormal samples are excluded.** With flush-to-zero and a fused `mul_add` the true peak of an
`f32` signal with subnormal samples differs from the true peak of the same values given as doubles: the
interpolator works in `f32`, uses `f32` samples as they are, but doubles are narrowed to `f32`, which flushes
them. -/
theorem C17_subnormal :
    ¬ NoSubnormal (.f32 Demo.nearZero : Input F64 F32) ∧
    Demo.peaksAfter (Demo.envReal true) (.f32 Demo.nearZero) ≠
      Demo.peaksAfter (Demo.envReal true) (asDoubles (.f32 Demo.nearZero)) := by
  constructor
  · intro h
    have := h (.num true 8388607 (by decide)) (by simp [Demo.nearZero])
    revert this
    simp [Spec.Subnormal]
  · decide +kernel

end Verif
