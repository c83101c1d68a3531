import Verif.Props.C33
import Verif.Spec.Real
/-!
# C31: the absolute gate
-/

set_option linter.unusedSimpArgs false

namespace Verif
open Spec Fl
variable {m : Libm F64} {bs : BSearch} {t : Target}
variable {D S : Type}

/-! ## Blocks below the gate leave no trace -/

/-- The energies the absolute gate lets through: those not below -70 LUFS. -/
def Spec.ungated (E : Env D S) (g : D) (xs : List D) : List D := xs.filter fun x => !E.f64.lt x g

/-- **C31.** Offering an energy below the gate leaves the history as it is, in either mode. -/
theorem C31_add {h : History F64} (hi : h.Inv) {x : F64} (hx : Fl.lt x (bnd 0) = true) :
    h.add (ieeeEnv m bs t) x = .done h := by
  rw [History.add_eq (ieeeEnv m bs t) hi]
  unfold History.addP
  rw [gate0_bnd]
  have hx' : (ieeeEnv m bs t).f64.lt x (bnd 0) = true := hx
  rw [if_pos hx']

theorem foldl_ungated (E : Env D S) (h : History D) (xs : List D) :
    xs.foldl (History.addP E) h = (ungated E (gate0 E) xs).foldl (History.addP E) h := by
  induction xs generalizing h with
  | nil => rfl
  | cons x xs ih =>
    unfold ungated at *
    rw [List.foldl_cons, List.filter_cons]
    cases hx : E.f64.lt x (gate0 E) with
    | true =>
      have : History.addP E h x = h := by unfold History.addP; rw [if_pos hx]
      rw [this, ih]
      rfl
    | false =>
      rw [ih]
      rfl

/-- **C31.** Offering energies is offering those not below the gate. -/
theorem C31_ungated {h : History F64} (hi : h.Inv) (xs : List F64) :
    Run.foldL (History.add (ieeeEnv m bs t)) h xs =
      Run.foldL (History.add (ieeeEnv m bs t)) h (ungated (ieeeEnv m bs t) (bnd 0) xs) := by
  rw [foldL_add (ieeeEnv m bs t) hi, foldL_add (ieeeEnv m bs t) hi, foldl_ungated, gate0_bnd]

/-- **C31.** Hence both histories after any feeding are determined by the blocks of the signal that are not below
-70 LUFS: integrated loudness, relative threshold, gating count and loudness range depend on nothing else. -/
theorem C31_blocks {e0 e : Ebu F64 F32} (h : Started (ieeeEnv m bs t) e0)
    (hg : Adequate e0.mode e0.rate e0.window) {ops : List (Op F64 F32)} (hops : ∀ op ∈ ops, Feed op)
    (hrun : runOps (ieeeEnv m bs t) e0 ops = .done e) :
    let blocks := fun N ends => (ends (hop e0.rate) (measured (ieeeEnv m bs t) e0.channels ops)).map fun n =>
      energy (ieeeEnv m bs t) (capacity e0.rate e0.window) (N * hop e0.rate) n e0.channelMap
        (signalOn (ieeeEnv m bs t) e0.rate e0.channels ops)
    (e0.mode.contains Mode.I = true → Run.foldL (History.add (ieeeEnv m bs t)) e0.blockEnergyHistory
      (ungated (ieeeEnv m bs t) (bnd 0) (blocks 4 blockEnds)) = .done e.blockEnergyHistory) ∧
    (e0.mode.contains Mode.LRA = true → Run.foldL (History.add (ieeeEnv m bs t)) e0.shortTermBlockEnergyHistory
      (ungated (ieeeEnv m bs t) (bnd 0) (blocks 30 shortEnds)) = .done e.shortTermBlockEnergyHistory) := by
  intro blocks
  have hi := h.reachable.inv
  constructor
  · intro hI
    rw [← C31_ungated hi.hist]
    exact (C61_blocks (ieee_zero m bs t) h hg hops hrun).1 hI
  · intro hL
    rw [← C31_ungated hi.stHist]
    exact (C61_shorts (ieee_zero m bs t) h hg hops hrun).1 hL

/-! ## Silence -/

/-- Plus or minus zero. -/
def Fl.IsZero {φ : Fmt} (x : Fl φ) : Prop := ∃ s h, x = .num s 0 h

theorem Fl.IsZero.finite {φ : Fmt} {x : Fl φ} (h : x.IsZero) : x.Finite := by
  obtain ⟨s, h, rfl⟩ := h
  have := Fl.infK_pos φ
  exact ⟨s, 0, h, rfl, by omega⟩

theorem Fl.IsZero.ofMag {φ : Fmt} (ok : φ.Ok) (s : Bool) {d : Nat} (hd : 0 < d) : (Fl.ofMag φ s 0 d).IsZero := by
  have h := φ.rnd_zero ok.mb hd
  unfold Fl.ofMag
  exact ⟨s, Nat.zero_le _, by simp only [h]⟩

theorem Fl.IsZero.flush {φ : Fmt} {x : Fl φ} (h : x.IsZero) (t : Target) : (Fl.flush t x).IsZero := by
  obtain ⟨s, h, rfl⟩ := h
  unfold Fl.flush
  split
  · refine ⟨s, h, ?_⟩
    simp [Fl.ftz, Fl.zero]
  · exact ⟨s, h, rfl⟩

theorem Fl.IsZero.mul {φ : Fmt} (ok : φ.Ok) {x y : Fl φ} (hx : x.Finite) (hy : y.IsZero) : (Fl.mul x y).IsZero := by
  obtain ⟨s, k, h, rfl, hk⟩ := hx
  obtain ⟨s', h', rfl⟩ := hy
  have h0 : (0 : Nat) ≠ φ.infK := by have := Fl.infK_pos φ; omega
  simp only [Fl.mul, if_neg hk, if_neg h0, Fmt.mag_zero, Nat.mul_zero]
  exact Fl.IsZero.ofMag ok _ (Nat.two_pow_pos _)

theorem Fl.IsZero.mul' {φ : Fmt} (ok : φ.Ok) {x y : Fl φ} (hx : x.IsZero) (hy : y.Finite) : (Fl.mul x y).IsZero := by
  obtain ⟨s, k, h, rfl, hk⟩ := hy
  obtain ⟨s', h', rfl⟩ := hx
  have h0 : (0 : Nat) ≠ φ.infK := by have := Fl.infK_pos φ; omega
  simp only [Fl.mul, if_neg hk, if_neg h0, Fmt.mag_zero, Nat.zero_mul]
  exact Fl.IsZero.ofMag ok _ (Nat.two_pow_pos _)

theorem Fl.IsZero.add {φ : Fmt} {x y : Fl φ} (hx : x.IsZero) (hy : y.IsZero) : (Fl.add x y).IsZero := by
  obtain ⟨s, h, rfl⟩ := hx
  obtain ⟨s', h', rfl⟩ := hy
  have h0 : (0 : Nat) ≠ φ.infK := by have := Fl.infK_pos φ; omega
  have hs : ∀ b : Bool, Fl.smag φ b 0 = 0 := by intro b; cases b <;> simp [Fl.smag]
  simp only [Fl.add, if_neg h0, hs]
  exact ⟨_, Nat.zero_le _, rfl⟩

theorem Fl.IsZero.neg {φ : Fmt} {x : Fl φ} (h : x.IsZero) : (Fl.neg x).IsZero := by
  obtain ⟨s, h, rfl⟩ := h
  exact ⟨!s, h, rfl⟩

theorem Fl.IsZero.sub {φ : Fmt} {x y : Fl φ} (hx : x.IsZero) (hy : y.IsZero) : (Fl.sub x y).IsZero :=
  hx.add hy.neg

theorem Fl.IsZero.div {φ : Fmt} (ok : φ.Ok) {x y : Fl φ} (hx : x.IsZero) {k : Nat} {h : k ≤ φ.infK}
    (hy : y = .num false k h) (h0 : k ≠ 0) : (Fl.div x y).IsZero := by
  obtain ⟨s, h', rfl⟩ := hx
  subst hy
  have h1 : (0 : Nat) ≠ φ.infK := by have := Fl.infK_pos φ; omega
  by_cases hk : k = φ.infK
  · simp only [Fl.div, if_pos hk, if_neg h1]
    exact ⟨_, Nat.zero_le _, rfl⟩
  · simp only [Fl.div, if_neg hk, if_neg h0, if_neg h1, Fmt.mag_zero, Nat.zero_mul]
    exact Fl.IsZero.ofMag ok _ (mag_pos_iff.2 (Nat.pos_of_ne_zero h0))

theorem past_closed {P : D → Prop} {z : D} (hz : P z) {v : List D} (hv : ∀ x ∈ v, P x) (k : Nat) : P (past z v k) := by
  unfold past
  rw [List.getD_eq_getElem?_getD]
  cases h : v[k]? with
  | none => exact hz
  | some x => exact hv x (List.mem_of_getElem? h)

/-- A linear recursion with finite coefficients turns zeros into zeros. -/
theorem meterOn_zero {b a : V5 F64} (hb : ∀ x ∈ [b.v0, b.v1, b.v2, b.v3, b.v4], x.Finite)
    (ha : ∀ x ∈ [a.v1, a.v2, a.v3, a.v4], x.Finite) {evs : List (Event F64 × Bool)}
    (hev : ∀ p ∈ evs, ∀ x ∈ p.1.frame, x.IsZero) (c : Nat) :
    (∀ y ∈ (meterOn (ieeeEnv m bs t) b a evs c).1, y.IsZero) ∧ ∀ y ∈ (meterOn (ieeeEnv m bs t) b a evs c).2, y.IsZero := by
  have hz : ((ieeeEnv m bs t).f64.zero : F64).IsZero := ⟨false, Nat.zero_le _, rfl⟩
  have hmul : ∀ x y : F64, x.Finite → y.IsZero → ((ieeeEnv m bs t).f64p.mul x y).IsZero := by
    intro x y hx hy
    rw [ieee_p_mul]
    exact (Fl.IsZero.mul Fmt.ok64 hx hy).flush t
  have hsub : ∀ x y : F64, x.IsZero → y.IsZero → ((ieeeEnv m bs t).f64p.sub x y).IsZero := by
    intro x y hx hy
    rw [ieee_p_sub]
    exact (Fl.IsZero.sub hx hy).flush t
  have hadd : ∀ x y : F64, x.IsZero → y.IsZero → ((ieeeEnv m bs t).f64p.add x y).IsZero := by
    intro x y hx hy
    rw [ieee_p_add]
    exact (Fl.IsZero.add hx hy).flush t
  have hset : ∀ x : F64, x.IsZero → (settle (ieeeEnv m bs t) x).IsZero := by
    intro x hx
    unfold settle
    split
    · rw [ieee_zero]; exact hz
    · exact hx
  induction evs using List.reverseRecOn with
  | nil => exact ⟨fun y hy => (by cases hy), fun y hy => (by cases hy)⟩
  | append_singleton evs p ih =>
    obtain ⟨i1, i2⟩ := ih fun q hq => hev q (List.mem_append_left _ hq)
    have e : meterOn (ieeeEnv m bs t) b a (evs ++ [p]) c =
        meterStep (ieeeEnv m bs t) b a c (meterOn (ieeeEnv m bs t) b a evs c) p := by
      unfold meterOn; rw [List.foldl_append]; rfl
    rw [e, meterStep]
    have hx : (p.1.frame.getD c (ieeeEnv m bs t).f64.zero).IsZero := by
      rw [List.getD_eq_getElem?_getD]
      cases h : p.1.frame[c]? with
      | none => exact hz
      | some x => exact hev p (by simp) x (List.mem_of_getElem? h)
    have hp := past_closed hz i1
    have hn : ∀ y ∈ next (ieeeEnv m bs t).f64p a (ieeeEnv m bs t).f64.zero (meterOn (ieeeEnv m bs t) b a evs c).1
        (p.1.frame.getD c (ieeeEnv m bs t).f64.zero) :: (meterOn (ieeeEnv m bs t) b a evs c).1, y.IsZero := by
      intro y hy
      rcases List.mem_cons.1 hy with rfl | hy
      · refine hsub _ _ (hsub _ _ (hsub _ _ (hsub _ _ hx ?_) ?_) ?_) ?_ <;> exact hmul _ _ (ha _ (by simp)) (hp _)
      · exact i1 y hy
    refine ⟨?_, ?_⟩
    · dsimp only
      split
      · intro y hy
        unfold settleAll at hy
        rcases List.mem_append.1 hy with hy | hy
        · obtain ⟨x, hx, rfl⟩ := List.mem_map.1 hy
          exact hset x (hn x (List.mem_of_mem_take hx))
        · exact hn y (List.mem_of_mem_drop hy)
      · exact hn
    · dsimp only
      split
      · intro y hy
        rcases List.mem_append.1 hy with hy | hy
        · exact i2 y hy
        · rw [List.mem_singleton] at hy
          subst hy
          have hq := past_closed hz hn
          unfold response
          refine hadd _ _ (hadd _ _ (hadd _ _ (hadd _ _ ?_ ?_) ?_) ?_) ?_ <;> exact hmul _ _ (hb _ (by simp)) (hq _)
      · exact i2

theorem sumSq_zero {l : List F64} (hl : ∀ x ∈ l, x.IsZero) : (sumSq (Fl.arith Fmt.b64) l).IsZero := by
  unfold sumSq
  rw [arith_zero]
  have hz : (Fl.zero false : F64).IsZero := ⟨false, Nat.zero_le _, rfl⟩
  generalize (Fl.zero false : F64) = s at hz ⊢
  induction l generalizing s with
  | nil => exact hz
  | cons x l ih =>
    rw [List.foldl_cons]
    have hx := hl x (List.mem_cons_self ..)
    exact ih (fun y hy => hl y (List.mem_cons_of_mem _ hy)) _
      (hz.add (Fl.IsZero.mul Fmt.ok64 (hx.finite) hx))

theorem weight_cases (ch : Channel) : weight ch = (1, 1) ∨ weight ch = (141, 100) ∨ weight ch = (2, 1) := by
  cases ch <;> simp [weight]

theorem lit_141 : (Fl.lit Fmt.b64 141 100).Finite :=
  ⟨false, 4609028894647239311, by decide +kernel, by decide +kernel, by decide +kernel⟩

theorem lit_two : (Fl.lit Fmt.b64 2 1).Finite :=
  ⟨false, 4611686018427387904, by decide +kernel, by decide +kernel, by decide +kernel⟩

theorem weighted_zero (ch : Channel) {s : F64} (hs : s.IsZero) : (weighted (Fl.arith Fmt.b64) ch s).IsZero := by
  unfold weighted
  rcases weight_cases ch with h | h | h
  · rw [if_pos h]; exact hs
  · rw [if_neg (by rw [h]; decide), h, arith_mul, arith_lit]
    exact Fl.IsZero.mul' Fmt.ok64 hs lit_141
  · rw [if_neg (by rw [h]; decide), h, arith_mul, arith_lit]
    exact Fl.IsZero.mul' Fmt.ok64 hs lit_two

theorem channelSum_zero (cm : List Channel) {f : Nat → F64} (hf : ∀ c, (f c).IsZero) :
    (channelSum (Fl.arith Fmt.b64) cm f).IsZero := by
  unfold channelSum
  rw [arith_zero]
  have hz : (Fl.zero false : F64).IsZero := ⟨false, Nat.zero_le _, rfl⟩
  generalize (Fl.zero false : F64) = s at hz ⊢
  generalize cm.zipIdx = l
  induction l generalizing s with
  | nil => exact hz
  | cons x l ih =>
    rw [List.foldl_cons]
    apply ih
    split
    · exact hz
    · exact hz.add (weighted_zero _ (hf _))

theorem energy_zero {L N n : Nat} (hN : N ≠ 0) (hN' : N < 2 ^ 99) (cm : List Channel) {ys : Nat → List F64}
    (hy : ∀ c, ∀ y ∈ ys c, y.IsZero) : (energy (ieeeEnv m bs t) L N n cm ys).IsZero := by
  obtain ⟨k, h, e, h0, -⟩ := Fl.ofInt_fin hN hN'
  unfold energy
  rw [ieee_f64, arith_div, arith_ofInt, arith_zero]
  refine Fl.IsZero.div Fmt.ok64 (channelSum_zero _ fun c => sumSq_zero ?_) e h0
  intro x hx
  rw [(readOrder_perm ..).mem_iff] at hx
  unfold lastN at hx
  have := List.mem_of_mem_drop hx
  rw [List.mem_append] at this
  rcases this with h | h
  · rw [(List.mem_replicate.1 h).2]; exact ⟨false, Nat.zero_le _, rfl⟩
  · exact hy c x (List.mem_of_mem_take h)

/-- All samples of an input are zero (either sign). -/
def Spec.Silent : Input F64 F32 → Prop
  | .i16 l => ∀ x ∈ l, x = 0
  | .i32 l => ∀ x ∈ l, x = 0
  | .f32 l => ∀ x ∈ l, x.IsZero
  | .f64 l => ∀ x ∈ l, x.IsZero
  | .pi16 l => ∀ d ∈ l, ∀ x ∈ d, x = 0
  | .pi32 l => ∀ d ∈ l, ∀ x ∈ d, x = 0
  | .pf32 l => ∀ d ∈ l, ∀ x ∈ d, x.IsZero
  | .pf64 l => ∀ d ∈ l, ∀ x ∈ d, x.IsZero

/-- A call that feeds nothing but silence. -/
def Spec.FeedsSilence : Op F64 F32 → Prop
  | .addFrames x | .seedFrames x => Silent x
  | _ => True

theorem Fl.IsZero.cast {φ ψ : Fmt} (ok : ψ.Ok) {x : Fl φ} (h : x.IsZero) : (Fl.cast ψ x).IsZero := by
  obtain ⟨s, h, rfl⟩ := h
  have h1 : (0 : Nat) ≠ φ.infK := by have := Fl.infK_pos φ; omega
  simp only [Fl.cast, if_neg h1, Fmt.mag_zero, Nat.zero_mul]
  exact Fl.IsZero.ofMag ok _ (Nat.two_pow_pos _)

theorem ofInt_isZero {φ : Fmt} (ok : φ.Ok) : (Fl.ofInt φ 0).IsZero := by
  unfold Fl.ofInt
  rw [Int.natAbs_zero, Nat.zero_mul]
  exact Fl.IsZero.ofMag ok _ Nat.one_pos

theorem int_zero {n : Nat} (h0 : 0 < n) (hn : n ≤ 2147483648) :
    ((ieeeEnv m bs t).f64p.div ((ieeeEnv m bs t).f64p.ofInt 0) ((ieeeEnv m bs t).f64p.lit (n : Int) 1)).IsZero := by
  obtain ⟨-, h1, -, h2⟩ := lit_amp n h0 (by have := amp_mb; omega)
  obtain ⟨k, h, e, hk⟩ : ∃ k h, Fl.lit Fmt.b64 (n : Int) 1 = .num false k h ∧ k ≠ 0 := by
    refine ⟨_, _, Fl.lit_pos n 1, ?_⟩
    rw [Fl.lit_pos] at h1
    exact Nat.pos_iff_ne_zero.1 h1
  rw [ieee_p_div, ieee_p_ofInt, ieee_p_lit]
  exact (Fl.IsZero.div Fmt.ok64 (ofInt_isZero Fmt.ok64) e hk).flush t

theorem groups_all {α : Type} {P : α → Prop} (n : Nat) {l : List α} (h : ∀ x ∈ l, P x) :
    ∀ f ∈ groups n l, ∀ x ∈ f, P x := by
  intro f hf x hx
  unfold groups at hf
  rw [List.mem_map] at hf
  obtain ⟨k, -, rfl⟩ := hf
  exact h x (List.mem_of_mem_drop (List.mem_of_mem_take hx))

theorem columns_all {α : Type} {P : α → Prop} {l : List (List α)} (h : ∀ d ∈ l, ∀ x ∈ d, P x) :
    ∀ f ∈ columns l, ∀ x ∈ f, P x := by
  intro f hf x hx
  unfold columns at hf
  rw [List.mem_map] at hf
  obtain ⟨k, -, rfl⟩ := hf
  rw [List.mem_filterMap] at hx
  obtain ⟨d, hd, hx⟩ := hx
  exact h d hd x (List.mem_of_getElem? hx)

theorem map_all {α β : Type} {P : α → Prop} {Q : β → Prop} {f : α → β} (hf : ∀ x, P x → Q (f x)) {l : List α}
    (h : ∀ x ∈ l, P x) : ∀ y ∈ l.map f, Q y := by
  intro y hy
  rw [List.mem_map] at hy
  obtain ⟨x, hx, rfl⟩ := hy
  exact hf x (h x hx)

theorem frames_zero (n : Nat) {x : Input F64 F32} (h : Silent x) :
    ∀ f ∈ inputFrames (ieeeEnv m bs t) n x, ∀ v ∈ f, v.IsZero := by
  have c16 : ∀ x : Int16, x = 0 → ((i16Ops (ieeeEnv m bs t)).toF64 x).IsZero := by
    rintro x rfl; exact int_zero (n := 32768) (by omega) (by omega)
  have c32 : ∀ x : Int32, x = 0 → ((i32Ops (ieeeEnv m bs t)).toF64 x).IsZero := by
    rintro x rfl; exact int_zero (n := 2147483648) (by omega) (by omega)
  have f32 : ∀ x : F32, x.IsZero → ((f32Ops (ieeeEnv m bs t)).toF64 x).IsZero := fun x hx => hx.cast Fmt.ok64
  have f64 : ∀ x : F64, x.IsZero → ((f64Ops (ieeeEnv m bs t)).toF64 x).IsZero := fun x hx => hx
  cases x with
  | i16 l => exact groups_all n (map_all c16 h)
  | i32 l => exact groups_all n (map_all c32 h)
  | f32 l => exact groups_all n (map_all f32 h)
  | f64 l => exact groups_all n (map_all f64 h)
  | pi16 l => exact columns_all (map_all (fun d hd => map_all c16 hd) h)
  | pi32 l => exact columns_all (map_all (fun d hd => map_all c32 hd) h)
  | pf32 l => exact columns_all (map_all (fun d hd => map_all f32 hd) h)
  | pf64 l => exact columns_all (map_all (fun d hd => map_all f64 hd) h)

theorem heard_zero (n : Nat) {ops : List (Op F64 F32)} (h : ∀ op ∈ ops, FeedsSilence op) :
    ∀ ev ∈ heard (ieeeEnv m bs t) n ops, ∀ x ∈ ev.frame, x.IsZero := by
  intro ev hev
  unfold heard at hev
  rw [List.mem_flatMap] at hev
  obtain ⟨op, ho, hev⟩ := hev
  have hs := h op ho
  have key : ∀ (b : Bool) (x : Input F64 F32), Silent x →
      ev ∈ (inputFrames (ieeeEnv m bs t) n x).map (fun f => (⟨b, f⟩ : Event F64)) → ∀ x ∈ ev.frame, x.IsZero := by
    intro b x hx hm
    rw [List.mem_map] at hm
    obtain ⟨f, hf, rfl⟩ := hm
    exact frames_zero n hx f hf
  cases op <;> simp only [delivered] at hev <;> first
    | (split at hev
       · exact key _ _ hs hev
       · cases hev)
    | cases hev

theorem zero_below {x : F64} (h : x.IsZero) : Fl.lt x (bnd 0) = true := by
  obtain ⟨s, h, rfl⟩ := h
  obtain ⟨h', e⟩ := bnd_key 0
  have h0 : 0 < bkey 0 := by decide +kernel
  rw [e]
  simp only [Fl.lt, Fl.skey]
  cases s <;> simp [h0]

/-- The feed-forward coefficients of the weighting filter. -/
def Spec.forward (E : Env F64 F32) (rate : Nat) : List F64 :=
  let b := (filterCoefficients E (E.f64.ofInt rate)).1
  [b.v0, b.v1, b.v2, b.v3, b.v4]

/-- Its feedback coefficients. -/
def Spec.feedback (E : Env F64 F32) (rate : Nat) : List F64 :=
  let a := (filterCoefficients E (E.f64.ofInt rate)).2
  [a.v1, a.v2, a.v3, a.v4]

/-- The coefficients are finite numbers (a fact about the libm at this rate). -/
def Spec.FiniteFilter (E : Env F64 F32) (rate : Nat) : Prop :=
  (∀ x ∈ forward E rate, x.Finite) ∧ (∀ x ∈ feedback E rate, x.Finite)

theorem signal_zero {rate : Nat} (hf : FiniteFilter (ieeeEnv m bs t) rate) (n : Nat) {ops : List (Op F64 F32)}
    (h : ∀ op ∈ ops, FeedsSilence op) (c : Nat) : ∀ y ∈ signalOn (ieeeEnv m bs t) rate n ops c, y.IsZero :=
  (meterOn_zero hf.1 hf.2 (fun p hp => heard_zero n h p.1 (by
    rw [← heardOn_fst (ieeeEnv m bs t) n (hop rate) ops 0]
    exact List.mem_map_of_mem hp)) c).2

theorem foldL_below {h : History F64} (hi : h.Inv) {xs : List F64} (hx : ∀ x ∈ xs, x.IsZero) :
    Run.foldL (History.add (ieeeEnv m bs t)) h xs = .done h := by
  rw [C31_ungated hi]
  have : ungated (ieeeEnv m bs t) (bnd 0) xs = [] := by
    unfold ungated
    rw [List.filter_eq_nil_iff]
    intro x hxx
    have : (ieeeEnv m bs t).f64.lt x (bnd 0) = true := zero_below (hx x hxx)
    rw [this]
    decide
  rw [this]
  rfl

theorem level_zero {x : F64} (h : x.IsZero) : level (ieeeEnv m bs t) x = Fl.inf true := by
  obtain ⟨s, h, rfl⟩ := h
  unfold level
  have : (ieeeEnv m bs t).f64.le (.num s 0 h) (ieeeEnv m bs t).f64.zero = true := by
    rw [ieee_f64, arith_le, arith_zero]
    cases s <;> simp [Fl.le, Fl.zero, Fl.skey]
  rw [if_pos this]
  rfl

/-- **C31.** Silence in any amount leaves both histories as they are. -/
theorem C31_silence {e0 e : Ebu F64 F32} (h : Started (ieeeEnv m bs t) e0)
    (hg : Adequate e0.mode e0.rate e0.window) (hf : FiniteFilter (ieeeEnv m bs t) e0.rate)
    {ops : List (Op F64 F32)} (hops : ∀ op ∈ ops, Feed op) (hs : ∀ op ∈ ops, FeedsSilence op)
    (hrun : runOps (ieeeEnv m bs t) e0 ops = .done e) :
    e.blockEnergyHistory = e0.blockEnergyHistory ∧
    e.shortTermBlockEnergyHistory = e0.shortTermBlockEnergyHistory := by
  have hi := h.reachable.inv
  have hr : 0 < hop e0.rate ∧ hop e0.rate < 2 ^ 40 := by
    have := hi.rate16
    have := hi.rateMax
    unfold hop
    omega
  have h1 := C61_blocks (ieee_zero m bs t) h hg hops hrun
  have h2 := C61_shorts (ieee_zero m bs t) h hg hops hrun
  have hen : ∀ N, N ≠ 0 → N < 2 ^ 99 → ∀ L n, (energy (ieeeEnv m bs t) L N n e0.channelMap
      (signalOn (ieeeEnv m bs t) e0.rate e0.channels ops)).IsZero :=
    fun N h0 h1 L n => energy_zero h0 h1 _ (signal_zero hf _ hs)
  constructor
  · cases hI : e0.mode.contains Mode.I
    · exact h1.2 hI
    · have h3 := h1.1 hI
      rw [foldL_below hi.hist] at h3
      · injection h3 with h3; exact h3.symm
      · intro x hx
        rw [List.mem_map] at hx
        obtain ⟨n, -, rfl⟩ := hx
        exact hen _ (by omega) (by omega) _ _
  · cases hL : e0.mode.contains Mode.LRA
    · exact h2.2 hL
    · have h3 := h2.1 hL
      rw [foldL_below hi.stHist] at h3
      · injection h3 with h3; exact h3.symm
      · intro x hx
        rw [List.mem_map] at hx
        obtain ⟨n, -, rfl⟩ := hx
        exact hen _ (by omega) (by omega) _ _

/-- **C31.** After nothing but silence the loudness of every window is -inf. -/
theorem C31_windows {e0 e : Ebu F64 F32} (h : Started (ieeeEnv m bs t) e0)
    (hg : Adequate e0.mode e0.rate e0.window) (hf : FiniteFilter (ieeeEnv m bs t) e0.rate)
    {ops : List (Op F64 F32)} (hops : ∀ op ∈ ops, Feed op) (hs : ∀ op ∈ ops, FeedsSilence op)
    (hrun : runOps (ieeeEnv m bs t) e0 ops = .done e) {q : Query} {x : F64}
    (hq : q = .loudnessMomentary ∨ q = .loudnessShortterm ∨
      ∃ w : UInt32, q = .loudnessWindow w ∧ 1000 ≤ e0.rate * w.toNat)
    (hx : ask (ieeeEnv m bs t) e q = .done (.ok x)) : x = Fl.inf true := by
  have hi := h.reachable.inv
  have hr : 0 < hop e0.rate ∧ hop e0.rate < 2 ^ 40 := by
    have := hi.rate16
    have := hi.rateMax
    unfold hop
    omega
  have hen : ∀ N, N ≠ 0 → N < 2 ^ 99 → ∀ L n, level (ieeeEnv m bs t) (energy (ieeeEnv m bs t) L N n e0.channelMap
      (signalOn (ieeeEnv m bs t) e0.rate e0.channels ops)) = Fl.inf true :=
    fun N h0 h1 L n => level_zero (energy_zero h0 h1 _ (signal_zero hf _ hs))
  obtain ⟨h1, h2, h3⟩ := C61_windows (ieee_zero m bs t) h hg hops hrun
  rcases hq with rfl | rfl | ⟨w, rfl, hw⟩
  · rw [h1, Run.done.injEq, Except.ok.injEq] at hx
    rw [← hx]
    exact hen _ (by omega) (by omega) _ _
  · rw [h2] at hx
    split at hx
    · cases hx
    · rw [Run.done.injEq, Except.ok.injEq] at hx
      rw [← hx]
      exact hen _ (by omega) (by omega) _ _
  · rw [h3] at hx
    split at hx
    · cases hx
    · rw [Run.done.injEq, Except.ok.injEq] at hx
      rw [← hx]
      have hb : e0.rate * w.toNat ≤ 2822400 * 2 ^ 32 := Nat.mul_le_mul hi.rateMax w.toNat_lt.le
      exact hen _ (by omega) (by omega) _ _

theorem Reachable.run_ops {E : Env D S} {e e' : Ebu D S} (h : Reachable E e) {ops : List (Op D S)}
    (hrun : runOps E e ops = .done e') : Reachable E e' := by
  induction ops generalizing e with
  | nil => injection hrun with hrun; subst hrun; exact h
  | cons op ops ih =>
    simp only [runOps, Run.bind_eq] at hrun
    cases hs : Verif.step E e op with
    | done r =>
      rw [hs, Run.done_bind] at hrun
      exact ih (h.step hs) hrun
    | panic => rw [hs] at hrun; cases hrun
    | hang => rw [hs] at hrun; cases hrun

theorem gating_none (E : Env D S) {h : History D} (hi : h.Inv) (h0 : blocksStored h = 0) :
    gatingMultP E [h] = .error .noBlocksAboveThreshold := by
  unfold gatingMultP iterP totals
  simp [calc_count E hi, h0]

theorem calc_none (E : Env D S) {h : History D} (hi : h.Inv) (h0 : blocksStored h = 0) :
    gatedLoudnessP E [h] = E.f64.neg E.f64.inf := by
  unfold gatedLoudnessP
  rw [gating_none E hi h0]

theorem range_none (E : Env D S) {h : History D} (h0 : blocksStored h = 0) : rangeP E h = E.f64.zero := by
  cases h with
  | queue q max =>
    have : q = [] := List.length_eq_zero_iff.1 h0
    subst this
    simp [rangeP, queueRangeP]
  | histogram c =>
    have h1 : c.sum = 0 := h0
    unfold rangeP histRangeP
    simp only
    rw [if_pos h1]

/-- **C31.** An analyzer that stored nothing and hears nothing but silence, in any amount and any layout, reports
an integrated loudness of -inf, a relative threshold of -70, no gating blocks and a range of zero. -/
theorem C31_nothing (ht : t.usizeMax ≤ 2 ^ 64) {e0 e : Ebu F64 F32}
    (h : Started (ieeeEnv m bs t) e0)
    (hg : Adequate e0.mode e0.rate e0.window) (hf : FiniteFilter (ieeeEnv m bs t) e0.rate)
    (hb : blocksStored e0.blockEnergyHistory = 0) (hb' : blocksStored e0.shortTermBlockEnergyHistory = 0)
    {ops : List (Op F64 F32)} (hops : ∀ op ∈ ops, Feed op) (hs : ∀ op ∈ ops, FeedsSilence op)
    (hrun : runOps (ieeeEnv m bs t) e0 ops = .done e) :
    (e.mode.contains Mode.I = true →
      e.loudnessGlobal (ieeeEnv m bs t) = .done (.ok (Fl.inf true)) ∧
      e.relativeThreshold (ieeeEnv m bs t) = .ok (Fl.lit Fmt.b64 (-70) 1) ∧
      e.gatingBlockCountAndEnergy (ieeeEnv m bs t) = .done none) ∧
    (e.mode.contains Mode.LRA = true → e.loudnessRange (ieeeEnv m bs t) = .done (.ok (Fl.zero false))) := by
  obtain ⟨h1, h2⟩ := C31_silence h hg hf hops hs hrun
  have hr : Reachable (ieeeEnv m bs t) e := h.reachable.run_ops hrun
  rw [← h1] at hb
  rw [← h2] at hb'
  constructor
  · intro hI
    refine ⟨?_, ?_, ?_⟩
    · rw [Ebu.loudnessGlobal_eq hr.inv, if_pos hI, calc_none _ hr.inv.hist hb]
      rfl
    · cases hq : e.blockEnergyHistory with
      | queue q max =>
        rw [hq] at hb
        have : q = [] := List.length_eq_zero_iff.1 hb
        rw [C36_threshold hq, if_pos hI, this]
        rfl
      | histogram c =>
        rw [hq] at hb
        have : c.sum = 0 := hb
        rw [C36_histogram hr hq, if_pos hI, if_pos this]
    · rw [Ebu.gatingCount_eq hr.inv, gating_none _ hr.inv.hist hb]
  · intro hL
    rw [Ebu.loudnessRange_eq (percentile_le rfl ht) (percentile_le rfl (by unfold u64Max; omega)) hr.inv, if_pos hL,
      range_none _ hb']
    rfl

/-! ## Examples -/

/-- Quiet noise and then a loud tone: of the 17 gating blocks only those from the loud part are stored. -/
theorem Demo.quietLoud_report : (Demo.after (Demo.envReal false) 18 Mode.I
    [.addFrames (.i16 (List.replicate 20 1)), .addFrames (.i16 (List.replicate 20 5000))]).map (fun e =>
      decide ((Demo.queueOf e.blockEnergyHistory).length < 12) &&
        decide (0 < (Demo.queueOf e.blockEnergyHistory).length)) = some true := by decide +kernel

def Fl.finiteB {φ : Fmt} : Fl φ → Bool
  | .nan => false
  | .num _ k _ => k ≠ φ.infK

theorem Fl.finiteB_iff {φ : Fmt} {x : Fl φ} (h : x.finiteB = true) : x.Finite := by
  cases x with
  | nan => cases h
  | num s k h' => exact ⟨s, k, h', rfl, by simpa [Fl.finiteB] using h⟩

theorem Fl.finite_all {φ : Fmt} {l : List (Fl φ)} (h : l.all Fl.finiteB = true) : ∀ x ∈ l, x.Finite :=
  fun x hx => Fl.finiteB_iff (List.all_eq_true.1 h x hx)

theorem Demo.coef48 : (forward (Demo.envReal false) 48000).all Fl.finiteB = true ∧
    (feedback (Demo.envReal false) 48000).all Fl.finiteB = true := by decide +kernel

/-- The filter of a 48 kHz analyzer is finite. -/
example : FiniteFilter (Demo.envReal false) 48000 :=
  ⟨Fl.finite_all Demo.coef48.1, Fl.finite_all Demo.coef48.2⟩

/-- That nothing was stored before is needed: `set_max_history` fills the queue with zero energies (which never
passed the gate), and then the relative threshold of a silent analyzer is -inf instead of -70. -/
theorem Demo.padded_report : (Demo.after (Demo.envReal false) 18 Mode.I [.setMaxHistory 1000]).map (fun e =>
    decide (Demo.queueOf e.blockEnergyHistory = List.replicate 10 (Fl.zero false)) &&
      (match e.relativeThreshold (Demo.envReal false) with
        | .ok v => decide (v = Fl.inf true)
        | .error _ => false)) = some true := by decide +kernel

end Verif
