import Verif.Proofs.CoupleAll
import Verif.Proofs.Opposite
import Verif.Props.C25_C26
/-!
# C27 to C29: dual mono, exchanged channels, inverted polarity
-/

set_option linter.unusedSimpArgs false

namespace Verif
open Fl Spec

section generic
variable {D S : Type}

/-- Equality of values is a coupling as soon as the channels add up. -/
theorem coupling_eq {E : Env D S} {cm cm' : List Channel} {P : Nat → Nat → Prop}
    (hu : ∀ c c', P c c' → Used cm c ∧ Used cm' c')
    (hsum : ∀ w w' : Nat → List D, (∀ c c', P c c' → sumSq E.f64 (w c) = sumSq E.f64 (w' c')) →
      channelSum E.f64 cm (fun c => sumSq E.f64 (w c)) = channelSum E.f64 cm' (fun c => sumSq E.f64 (w' c))) :
    Coupling E cm cm' P (· = ·) where
  used := hu
  filter := (coupling_used E cm).filter
  flush := (coupling_used E cm).flush
  square := (coupling_used E cm).square
  sum := hsum

/-- Every sample twice. -/
def Spec.twice {α : Type} (l : List α) : List α := l.flatMap fun x => [x, x]

/-- The stereo input with both channels equal to the mono input. -/
def Spec.doubled : Input D S → Input D S
  | .i16 l => .i16 (twice l)
  | .i32 l => .i32 (twice l)
  | .f32 l => .f32 (twice l)
  | .f64 l => .f64 (twice l)
  | .pi16 l => .pi16 (twice l)
  | .pi32 l => .pi32 (twice l)
  | .pf32 l => .pf32 (twice l)
  | .pf64 l => .pf64 (twice l)

/-- Exchange the first with the second, the third with the fourth and so on. -/
def Spec.swapPairs {α : Type} : List α → List α
  | x :: y :: l => y :: x :: swapPairs l
  | l => l

/-- The stereo input with its channels exchanged. -/
def Spec.swapped : Input D S → Input D S
  | .i16 l => .i16 (swapPairs l)
  | .i32 l => .i32 (swapPairs l)
  | .f32 l => .f32 (swapPairs l)
  | .f64 l => .f64 (swapPairs l)
  | .pi16 l => .pi16 (swapPairs l)
  | .pi32 l => .pi32 (swapPairs l)
  | .pf32 l => .pf32 (swapPairs l)
  | .pf64 l => .pf64 (swapPairs l)

/-- Apply a function to the input of a feeding call. -/
def Spec.onInput (g : Input D S → Input D S) : Op D S → Op D S
  | .addFrames x => .addFrames (g x)
  | .seedFrames x => .seedFrames (g x)
  | op => op

end generic

variable {m : Libm F64} {bs : BSearch} {t : Target}

/-! ## Pairing of concrete inputs -/

theorem twice_length {α : Type} (l : List α) : (twice l).length = 2 * l.length := by
  induction l with
  | nil => rfl
  | cons x l ih => show (x :: x :: twice l).length = _; simp only [List.length_cons, ih]; omega

theorem twice_map {α β : Type} (g : α → β) (l : List α) : twice (l.map g) = (twice l).map g := by
  induction l with
  | nil => rfl
  | cons x l ih => show g x :: g x :: twice (l.map g) = g x :: g x :: (twice l).map g; rw [ih]

theorem twice_filterMap {α β : Type} (g : α → Option β) (l : List α) :
    (twice l).filterMap g = twice (l.filterMap g) := by
  induction l with
  | nil => rfl
  | cons x l ih =>
    show (x :: x :: twice l).filterMap g = _
    cases h : g x with
    | none => simp only [List.filterMap_cons, h, ih]
    | some y => simp only [List.filterMap_cons, h, ih]; rfl

theorem twice_get {α : Type} (l : List α) : (twice l)[0]? = l[0]? ∧ (twice l)[1]? = l[0]? := by
  cases l <;> exact ⟨rfl, rfl⟩

theorem mem_twice {α : Type} {x : α} {l : List α} : x ∈ twice l ↔ x ∈ l := by
  simp [twice]

theorem groups_succ {α : Type} {n : Nat} (hn : 0 < n) {f l : List α} (hf : f.length = n) :
    groups n (f ++ l) = f :: groups n l := by
  unfold groups
  rw [List.length_append, hf, Nat.add_div_left _ hn, List.range_succ_eq_map, List.map_cons, List.map_map]
  congr 1
  · simp [hf]
  · apply List.map_congr_left
    intro k _
    show ((f ++ l).drop ((k + 1) * n)).take n = _
    rw [show (k + 1) * n = f.length + k * n by rw [hf, Nat.add_mul]; omega, ← List.drop_drop, List.drop_left]

theorem groups_twice {α : Type} (l : List α) : groups 2 (twice l) = (groups 1 l).map twice := by
  induction l with
  | nil => simp [groups, twice]
  | cons x l ih =>
    rw [show twice (x :: l) = [x, x] ++ twice l from rfl, groups_succ (n := 2) (by omega) (by rfl), ih,
      show x :: l = [x] ++ l from rfl, groups_succ (n := 1) (by omega) (by rfl)]
    rfl

theorem columns_twice {α : Type} (l : List (List α)) : columns (twice l) = (columns l).map twice := by
  unfold columns
  have h : ((twice l).headD []).length = (l.headD []).length := by cases l <;> rfl
  rw [h, List.map_map]
  apply List.map_congr_left
  intro k _
  exact twice_filterMap _ l

theorem swapPairs_length {α : Type} : ∀ l : List α, (swapPairs l).length = l.length
  | [] => rfl
  | [_] => rfl
  | _ :: _ :: l => by simp only [swapPairs, List.length_cons, swapPairs_length l]

theorem swapPairs_map {α β : Type} (g : α → β) : ∀ l : List α, swapPairs (l.map g) = (swapPairs l).map g
  | [] => rfl
  | [_] => rfl
  | _ :: _ :: l => by simp only [swapPairs, List.map_cons, swapPairs_map g l]

theorem mem_swapPairs {α : Type} {z : α} : ∀ {l : List α}, z ∈ swapPairs l ↔ z ∈ l
  | [] => Iff.rfl
  | [_] => Iff.rfl
  | x :: y :: l => by
    simp only [swapPairs, List.mem_cons, mem_swapPairs (l := l)]
    tauto

theorem groups_swap {α : Type} : ∀ l : List α, l.length % 2 = 0 →
    groups 2 (swapPairs l) = (groups 2 l).map swapPairs
  | [], _ => by simp [groups, swapPairs]
  | [_], h => by simp at h
  | x :: y :: l, h => by
    rw [show swapPairs (x :: y :: l) = [y, x] ++ swapPairs l from rfl, groups_succ (n := 2) (by omega) (by rfl),
      show x :: y :: l = [x, y] ++ l from rfl, groups_succ (n := 2) (by omega) (by rfl), List.map_cons,
      groups_swap l (by simp only [List.length_cons] at h; omega)]
    rfl

theorem filterMap_some {α β : Type} {g : α → Option β} {h : α → β} : ∀ {l : List α}, (∀ x ∈ l, g x = some (h x)) →
    l.filterMap g = l.map h
  | [], _ => rfl
  | x :: l, hh => by
    rw [List.filterMap_cons, hh x (by simp), filterMap_some (fun y hy => hh y (by simp [hy]))]; rfl

theorem columns_swap {α : Type} {l : List (List α)} {n : Nat} (h : ∀ d ∈ l, d.length = n) :
    columns (swapPairs l) = (columns l).map swapPairs := by
  unfold columns
  have hl : ((swapPairs l).headD []).length = (l.headD []).length := by
    match l, h with
    | [], _ => rfl
    | [_], _ => rfl
    | x :: y :: l, h => show y.length = x.length; rw [h x (by simp), h y (by simp)]
  rw [hl, List.map_map]
  apply List.map_congr_left
  intro k hk
  have hk' : k < (l.headD []).length := List.mem_range.1 hk
  have hkn : k < n := by
    match l, h, hk' with
    | [], _, hk' => simp at hk'
    | x :: l, h, hk' => rw [← h x (by simp)]; exact hk'
  have hne : ∃ a : α, True := by
    match l, h, hk' with
    | [], _, hk' => simp at hk'
    | x :: l, h, hk' => exact ⟨x[k]'hk', trivial⟩
  obtain ⟨a, -⟩ := hne
  have hs : ∀ d ∈ l, d[k]? = some (d.getD k a) := by
    intro d hd
    have : k < d.length := by rw [h d hd]; exact hkn
    simp [List.getElem?_eq_getElem this]
  show (swapPairs l).filterMap (fun ch => ch[k]?) = swapPairs (l.filterMap fun ch => ch[k]?)
  rw [filterMap_some (l := l) (h := fun d => d.getD k a) hs,
    filterMap_some (h := fun d => d.getD k a) (fun d hd => hs d (mem_swapPairs.1 hd)), swapPairs_map]

theorem swapPairs_get {α : Type} {l : List α} (h : 2 ≤ l.length) :
    (swapPairs l)[0]? = l[1]? ∧ (swapPairs l)[1]? = l[0]? := by
  match l, h with
  | [], h => simp at h
  | [_], h => simp at h
  | x :: y :: l, _ => exact ⟨rfl, rfl⟩

theorem forall2_map_self {α β : Type} {R : α → β → Prop} {g : α → β} {l : List α} (h : ∀ x ∈ l, R x (g x)) :
    List.Forall₂ R l (l.map g) := by
  rw [List.forall₂_map_right_iff, List.forall₂_same]
  exact h

theorem vals_doubled (x : Input F64 F32) : vals m bs t 2 (doubled x) = (vals m bs t 1 x).map twice := by
  cases x <;> simp only [doubled, vals, mapFrames]
  case i16 | i32 | f32 | f64 => rw [← twice_map, groups_twice]
  all_goals rw [← twice_map, columns_twice]

/-- A mono input and its doubled form. -/
theorem paired_doubled (op : Op F64 F32) (hop : Feed op) :
    Paired m bs t 1 2 (fun c c' => c = 0 ∧ c' < 2) (· = ·) op (onInput doubled op) := by
  have key : ∀ x : Input F64 F32, (WellFormed 1 x ↔ WellFormed 2 (doubled x)) ∧
      PairedVals (fun c c' => c = 0 ∧ c' < 2) (· = ·) (vals m bs t 1 x) (vals m bs t 2 (doubled x)) := by
    intro x
    constructor
    · have hp : ∀ {T : Type} (l : List (List T)),
          (l ≠ [] ∧ ∃ n, ∀ d ∈ l, d.length = n) ↔ (twice l ≠ [] ∧ ∃ n, ∀ d ∈ twice l, d.length = n) := by
        intro T l
        have h1 : l ≠ [] ↔ twice l ≠ [] := by cases l <;> simp [twice]
        rw [h1]
        simp only [mem_twice]
      cases x
      case i16 | i32 | f32 | f64 => simp only [doubled, WellFormed, twice_length]; omega
      all_goals exact hp _
    · rw [vals_doubled]
      refine forall2_map_self ?_
      rintro f - c c' ⟨rfl, hc'⟩ v v' h1 h2
      have : (twice f)[c']? = f[0]? := by
        have := twice_get f
        match c', hc' with
        | 0, _ => exact this.1
        | 1, _ => exact this.2
      rw [this, h1] at h2
      cases h2
      rfl
  cases op with
  | addFrames x => exact .add (key x).1 fun _ => (key x).2
  | seedFrames x => exact .seed (key x).1 fun _ => (key x).2
  | _ => exact absurd hop id

theorem vals_swapped {x : Input F64 F32} (h : WellFormed 2 x) :
    vals m bs t 2 (swapped x) = (vals m bs t 2 x).map swapPairs := by
  have hp : ∀ {T : Type} (g : T → Val) (l : List (List T)), (l ≠ [] ∧ ∃ n, ∀ d ∈ l, d.length = n) →
      columns ((swapPairs l).map (·.map g)) = (columns (l.map (·.map g))).map swapPairs := by
    rintro T g l ⟨-, n, hn⟩
    rw [← swapPairs_map]
    apply columns_swap (n := n)
    intro d hd
    obtain ⟨d', hd', rfl⟩ := List.mem_map.1 hd
    rw [List.length_map]
    exact hn d' hd'
  cases x <;> simp only [swapped, vals, mapFrames] <;> simp only [WellFormed] at h
  case i16 | i32 | f32 | f64 => rw [← swapPairs_map, groups_swap _ (by rw [List.length_map]; exact h)]
  all_goals exact hp _ _ h

/-- A stereo input and its exchanged form. -/
theorem paired_swapped (op : Op F64 F32) (hop : Feed op) :
    Paired m bs t 2 2 (fun c c' => (c = 0 ∧ c' = 1) ∨ (c = 1 ∧ c' = 0)) (· = ·) op (onInput swapped op) := by
  have key : ∀ x : Input F64 F32, (WellFormed 2 x ↔ WellFormed 2 (swapped x)) ∧ (WellFormed 2 x →
      PairedVals (fun c c' => (c = 0 ∧ c' = 1) ∨ (c = 1 ∧ c' = 0)) (· = ·) (vals m bs t 2 x)
        (vals m bs t 2 (swapped x))) := by
    intro x
    constructor
    · have hp : ∀ {T : Type} (l : List (List T)),
          (l ≠ [] ∧ ∃ n, ∀ d ∈ l, d.length = n) ↔ (swapPairs l ≠ [] ∧ ∃ n, ∀ d ∈ swapPairs l, d.length = n) := by
        intro T l
        have h1 : l ≠ [] ↔ swapPairs l ≠ [] := by
          rw [← List.length_pos_iff, ← List.length_pos_iff, swapPairs_length]
        rw [h1]
        simp only [mem_swapPairs]
      cases x
      case i16 | i32 | f32 | f64 => simp only [swapped, WellFormed, swapPairs_length]
      all_goals exact hp _
    · intro hw
      rw [vals_swapped hw]
      refine forall2_map_self ?_
      rintro f - c c' hcc v v' h1 h2
      have hl : 2 ≤ f.length := by
        by_contra hh
        match f, hh with
        | [], _ => cases h1
        | [y], _ =>
          rcases hcc with ⟨rfl, rfl⟩ | ⟨rfl, rfl⟩
          · cases h2
          · cases h1
        | y :: z :: l, hh => simp at hh
      have hg := swapPairs_get hl
      rcases hcc with ⟨rfl, rfl⟩ | ⟨rfl, rfl⟩
      · rw [hg.2, h1] at h2; cases h2; rfl
      · rw [hg.1, h1] at h2; cases h2; rfl
  cases op with
  | addFrames x => exact .add (key x).1 (key x).2
  | seedFrames x => exact .seed (key x).1 (key x).2
  | _ => exact absurd hop id

/-! ## Sums of squares in IEEE arithmetic -/

theorem sumSq_nonneg (l : List F64) : sumSq (Fl.arith Fmt.b64) l = .nan ∨ (sumSq (Fl.arith Fmt.b64) l).Nonneg := by
  unfold sumSq
  have h0 : (Fl.arith Fmt.b64).zero = .nan ∨ ((Fl.arith Fmt.b64).zero : F64).Nonneg := Or.inr rfl
  revert h0
  generalize (Fl.arith Fmt.b64).zero = s
  induction l generalizing s with
  | nil => exact id
  | cons x l ih =>
    intro hs
    rw [List.foldl_cons]
    apply ih
    show Fl.add s (Fl.mul x x) = .nan ∨ (Fl.add s (Fl.mul x x)).Nonneg
    rcases hs with rfl | hs
    · exact Or.inl rfl
    · rcases Fl.mul_self x with ⟨h, -⟩ | ⟨k, hk, h, -⟩
      · rw [h]
        obtain ⟨k, hk, rfl⟩ := hs.out
        exact Or.inl rfl
      · rw [h]
        exact Or.inr (Fl.Nonneg.add Fmt.ok64.mb hs rfl)

theorem zero_add_sumSq (l : List F64) :
    Fl.add (Fl.zero false) (sumSq (Fl.arith Fmt.b64) l) = sumSq (Fl.arith Fmt.b64) l := by
  rcases sumSq_nonneg l with h | h
  · rw [h]; rfl
  · obtain ⟨k, hk, h⟩ := h.out
    rw [h]
    exact Fl.zero_add_pos Fmt.ok64.mb hk

theorem two_sumSq (l : List F64) :
    Fl.mul (sumSq (Fl.arith Fmt.b64) l) (Fl.lit Fmt.b64 ((2 : Nat) : Int) 1) =
      Fl.add (sumSq (Fl.arith Fmt.b64) l) (sumSq (Fl.arith Fmt.b64) l) := by
  rcases sumSq_nonneg l with h | h
  · rw [h]; rfl
  · obtain ⟨k, hk, h⟩ := h.out
    rw [h]
    exact Fl.mul_two Fmt.ok64 hk

/-- A weighted sum of squares is no negative zero. -/
theorem zero_add_weighted (ch : Channel) (l : List F64) :
    Fl.add (Fl.zero false) (weighted (Fl.arith Fmt.b64) ch (sumSq (Fl.arith Fmt.b64) l)) =
      weighted (Fl.arith Fmt.b64) ch (sumSq (Fl.arith Fmt.b64) l) := by
  unfold weighted
  split
  · exact zero_add_sumSq l
  · apply Fl.zero_add Fmt.ok64
    show Fl.mul (sumSq (Fl.arith Fmt.b64) l) (Fl.lit Fmt.b64 ((weight ch).1 : Nat) (weight ch).2) ≠ _
    rcases sumSq_nonneg l with h | h
    · rw [h]; exact nofun
    · obtain ⟨k, hk, h⟩ := h.out
      rw [h, Fl.lit_pos]
      unfold Fl.mul
      dsimp only
      intro hh
      split at hh
      · split at hh
        · cases hh
        · injection hh with h1; cases h1
      · split at hh
        · split at hh
          · cases hh
          · injection hh with h1; cases h1
        · injection hh with h1; cases h1

/-- Equal samples are a coupling for the peaks. -/
theorem peakCoupling_eq : PeakCoupling m bs t (· = ·) (· = ·) where
  level := by rintro v v' rfl; rfl
  value := by rintro v v' rfl; rfl
  zero := rfl
  scale := by rintro o o' x x' k rfl rfl; rfl
  key := by rintro x x' rfl; rfl

/-! ## C27 -/

/-- A used channel type of weight one. -/
def Spec.UnitWeight (ch : Channel) : Prop := ch ≠ .unused ∧ weight ch = (1, 1)

theorem weighted_one {ch : Channel} (h : weight ch = (1, 1)) (s : F64) : weighted (Fl.arith Fmt.b64) ch s = s := by
  unfold weighted
  rw [if_pos h]

theorem weighted_dual (s : F64) :
    weighted (Fl.arith Fmt.b64) .dualMono s = Fl.mul s (Fl.lit Fmt.b64 ((2 : Nat) : Int) 1) := by
  have h : weight .dualMono = (2, 1) := rfl
  unfold weighted
  rw [h, if_neg (by decide), arith_mul, arith_lit]

theorem coupling_dual {a b : Channel} (ha : UnitWeight a) (hb : UnitWeight b) :
    Coupling (ieeeEnv m bs t) [.dualMono] [a, b] (fun c c' => c = 0 ∧ c' < 2) (· = ·) := by
  refine coupling_eq ?_ ?_
  · rintro c c' ⟨rfl, hc'⟩
    refine ⟨⟨_, rfl, nofun⟩, ?_⟩
    match c', hc' with
    | 0, _ => exact ⟨a, rfl, ha.1⟩
    | 1, _ => exact ⟨b, rfl, hb.1⟩
  · intro w w' h
    have h0 := h 0 0 ⟨rfl, by omega⟩
    have h1 := h 0 1 ⟨rfl, by omega⟩
    rw [ieee_f64] at h0 h1 ⊢
    simp only [channelSum, List.zipIdx_cons, List.zipIdx_nil, List.foldl_cons, List.foldl_nil, if_neg ha.1,
      if_neg hb.1, weighted_one ha.2, weighted_one hb.2, weighted_dual, Nat.zero_add]
    rw [if_neg nofun, ← h0, ← h1, arith_add, arith_zero]
    rw [zero_add_sumSq, two_sumSq]
    apply Fl.zero_add Fmt.ok64
    apply Fl.add_ne_negzero Fmt.ok64
    rcases sumSq_nonneg (w 0) with h | h
    · rw [h]; exact nofun
    · obtain ⟨k, hk, h⟩ := h.out
      rw [h]
      intro hh
      injection hh with hh
      cases hh

/-- **C27.** A mono analyzer whose channel is dual mono and a stereo analyzer with two channels of weight one,
otherwise configured alike, give bit-identical answers to all loudness queries when the stereo analyzer
receives the mono signal on both channels, in the same calls.  Both of its peaks are the mono ones.  For every
target, any signal including NaN and infinities, any call sequence and any sample type. -/
theorem C27_dual_mono {e e' e1 e1' : Ebu F64 F32} (hs : Prepared (ieeeEnv m bs t) e)
    (hs' : Prepared (ieeeEnv m bs t) e') (h : Alike e e') (ha : Adequate e.mode e.rate e.window)
    (hm : e.channelMap = [.dualMono]) {a b : Channel} (hm' : e'.channelMap = [a, b]) (pa : UnitWeight a) (pb : UnitWeight b)
    {ops : List (Op F64 F32)} (hops : ∀ op ∈ ops, Feed op)
    (h1 : runOps (ieeeEnv m bs t) e ops = .done e1)
    (h2 : runOps (ieeeEnv m bs t) e' (ops.map (onInput doubled)) = .done e1') :
    SameLoudness (ieeeEnv m bs t) e1 e1' ∧
    ∀ q, PeakQuery q → ∀ c : UInt32, c.toNat < 2 →
      ask (ieeeEnv m bs t) e1 (q 0) = ask (ieeeEnv m bs t) e1' (q c) := by
  have n1 : e.channels = 1 := by rw [← hs.started.reachable.inv.map, hm]; rfl
  have n2 : e'.channels = 2 := by rw [← hs'.started.reachable.inv.map, hm']; rfl
  have hp : List.Forall₂ (Paired m bs t e.channels e'.channels (fun c c' => c = 0 ∧ c' < 2) (· = ·)) ops
      (ops.map (onInput doubled)) := by
    rw [n1, n2]
    exact forall2_map_self fun op ho => paired_doubled op (hops op ho)
  constructor
  · refine couple_loudness hs.started hs'.started h ha (P := fun c c' => c = 0 ∧ c' < 2) (R := (· = ·)) ?_ rfl
      (hp.imp fun op op' hh => hh.matching fun v v' hv => congrArg Val.f64 hv) h1 h2
    rw [hm, hm']
    exact coupling_dual pa pb
  · intro q hq c hc
    refine couple_peaks hs hs' h ha (P := fun c c' => c = 0 ∧ c' < 2) ?_ peakCoupling_eq hp h1 h2
      (c := 0) (c' := c) ⟨rfl, hc⟩ hq
    rintro c c' ⟨rfl, h2⟩
    exact ⟨by omega, by omega⟩

/-- **C27**, for new analyzers: set the mono channel to dual mono, leave the stereo analyzer as constructed. -/
theorem C27_new {rate : Nat} {mode : Mode} {e e' e1 e1' : Ebu F64 F32}
    (hn : Ebu.new (ieeeEnv m bs t) 1 rate mode = .done (.ok e))
    (hn' : Ebu.new (ieeeEnv m bs t) 2 rate mode = .done (.ok e'))
    (ha : Adequate mode rate e.window) {ops : List (Op F64 F32)} (hops : ∀ op ∈ ops, Feed op)
    (h1 : runOps (ieeeEnv m bs t) e (.setChannel 0 .dualMono :: ops) = .done e1)
    (h2 : runOps (ieeeEnv m bs t) e' (ops.map (onInput doubled)) = .done e1') :
    SameLoudness (ieeeEnv m bs t) e1 e1' ∧
    ∀ q, PeakQuery q → ∀ c : UInt32, c.toNat < 2 →
      ask (ieeeEnv m bs t) e1 (q 0) = ask (ieeeEnv m bs t) e1' (q c) := by
  simp only [runOps, Run.bind_eq] at h1
  obtain ⟨⟨e0, s⟩, g1, g2⟩ := Run.bind_done h1
  obtain ⟨rfl, -⟩ := Ebu.new_ok hn
  obtain ⟨rfl, -⟩ := Ebu.new_ok hn'
  have hs : Prepared (ieeeEnv m bs t) e0 := by
    refine ⟨_, [.setChannel 0 .dualMono], Or.inl ⟨_, _, _, hn⟩, ?_, ?_⟩
    · intro op ho
      rw [List.mem_singleton] at ho
      rw [ho]
      trivial
    · simp only [runOps, Run.bind_eq, g1, Run.done_bind]
  have hs' : Prepared (ieeeEnv m bs t) (Ebu.init (ieeeEnv m bs t) 2 rate mode) :=
    ⟨_, [], Or.inl ⟨_, _, _, hn'⟩, by simp, rfl⟩
  have he0 : e0 = { Ebu.init (ieeeEnv m bs t) 1 rate mode with channelMap := [.dualMono] } := by
    have : step (ieeeEnv m bs t) (Ebu.init (ieeeEnv m bs t) 1 rate mode) (.setChannel 0 .dualMono) =
        .done ({ Ebu.init (ieeeEnv m bs t) 1 rate mode with channelMap := [.dualMono] }, .ok ()) := rfl
    rw [this] at g1
    cases g1
    rfl
  refine C27_dual_mono hs hs' ?_ ?_ (by rw [he0]) (a := .left) (b := .right) rfl ⟨nofun, rfl⟩ ⟨nofun, rfl⟩ hops g2 h2
  · rw [he0]; exact ⟨rfl, rfl, rfl, rfl, rfl⟩
  · rw [he0]; exact ha

/-! ## C28 -/

theorem coupling_swap {a b a' b' : Channel} (ua : a ≠ .unused) (ub : b ≠ .unused) (ua' : a' ≠ .unused)
    (ub' : b' ≠ .unused) (h1 : weight a = weight b') (h2 : weight b = weight a') :
    Coupling (ieeeEnv m bs t) [a, b] [a', b'] (fun c c' => (c = 0 ∧ c' = 1) ∨ (c = 1 ∧ c' = 0)) (· = ·) := by
  refine coupling_eq ?_ ?_
  · rintro c c' (⟨rfl, rfl⟩ | ⟨rfl, rfl⟩)
    · exact ⟨⟨a, rfl, ua⟩, ⟨b', rfl, ub'⟩⟩
    · exact ⟨⟨b, rfl, ub⟩, ⟨a', rfl, ua'⟩⟩
  · intro w w' h
    have g0 := h 0 1 (Or.inl ⟨rfl, rfl⟩)
    have g1 := h 1 0 (Or.inr ⟨rfl, rfl⟩)
    have wt : ∀ {x y : Channel}, weight x = weight y → ∀ s, weighted (Fl.arith Fmt.b64) x s =
        weighted (Fl.arith Fmt.b64) y s := by
      intro x y hxy s
      unfold weighted
      rw [hxy]
    rw [ieee_f64] at g0 g1 ⊢
    simp only [channelSum, List.zipIdx_cons, List.zipIdx_nil, List.foldl_cons, List.foldl_nil, if_neg ua,
      if_neg ub, if_neg ua', if_neg ub', Nat.zero_add]
    rw [← g0, ← g1, wt h1, wt h2]
    show Fl.add (Fl.add (Fl.zero false) _) _ = Fl.add (Fl.add (Fl.zero false) _) _
    rw [zero_add_weighted, zero_add_weighted, Fl.add_comm]

/-- **C28.** Two stereo analyzers configured alike, all channels used, the weight of each channel of the first
equal to that of the other channel of the second (for instance the same analyzer with left and right).  If the
second receives the signal of the first with the channels exchanged, in the same calls, all loudness
answers are bit-identical and the peaks are exchanged.  For every target and any signal. -/
theorem C28_swap {e e' e1 e1' : Ebu F64 F32} (hs : Prepared (ieeeEnv m bs t) e)
    (hs' : Prepared (ieeeEnv m bs t) e') (h : Alike e e') (ha : Adequate e.mode e.rate e.window)
    {a b a' b' : Channel} (hm : e.channelMap = [a, b]) (hm' : e'.channelMap = [a', b'])
    (ua : a ≠ .unused) (ub : b ≠ .unused) (ua' : a' ≠ .unused) (ub' : b' ≠ .unused)
    (w1 : weight a = weight b') (w2 : weight b = weight a')
    {ops : List (Op F64 F32)} (hops : ∀ op ∈ ops, Feed op)
    (h1 : runOps (ieeeEnv m bs t) e ops = .done e1)
    (h2 : runOps (ieeeEnv m bs t) e' (ops.map (onInput swapped)) = .done e1') :
    SameLoudness (ieeeEnv m bs t) e1 e1' ∧
    ∀ q, PeakQuery q → ask (ieeeEnv m bs t) e1 (q 0) = ask (ieeeEnv m bs t) e1' (q 1) ∧
      ask (ieeeEnv m bs t) e1 (q 1) = ask (ieeeEnv m bs t) e1' (q 0) := by
  have n1 : e.channels = 2 := by rw [← hs.started.reachable.inv.map, hm]; rfl
  have n2 : e'.channels = 2 := by rw [← hs'.started.reachable.inv.map, hm']; rfl
  have hp : List.Forall₂ (Paired m bs t e.channels e'.channels
      (fun c c' => (c = 0 ∧ c' = 1) ∨ (c = 1 ∧ c' = 0)) (· = ·)) ops (ops.map (onInput swapped)) := by
    rw [n1, n2]
    exact forall2_map_self fun op ho => paired_swapped op (hops op ho)
  constructor
  · refine couple_loudness hs.started hs'.started h ha
      (P := fun c c' => (c = 0 ∧ c' = 1) ∨ (c = 1 ∧ c' = 0)) (R := (· = ·)) ?_ rfl
      (hp.imp fun op op' hh => hh.matching fun v v' hv => congrArg Val.f64 hv) h1 h2
    rw [hm, hm']
    exact coupling_swap ua ub ua' ub' w1 w2
  · intro q hq
    have key := fun (c c' : UInt32) hcc => couple_peaks hs hs' h ha
      (P := fun c c' => (c = 0 ∧ c' = 1) ∨ (c = 1 ∧ c' = 0)) (by
        rintro c c' (⟨rfl, rfl⟩ | ⟨rfl, rfl⟩)
        · exact ⟨by omega, by omega⟩
        · exact ⟨by omega, by omega⟩) peakCoupling_eq hp h1 h2 (c := c) (c' := c') hcc hq
    exact ⟨key 0 1 (Or.inl ⟨rfl, rfl⟩), key 1 0 (Or.inr ⟨rfl, rfl⟩)⟩

/-- **C28**, for one stereo analyzer as constructed. -/
theorem C28_new {rate : Nat} {mode : Mode} {e e1 e1' : Ebu F64 F32}
    (hn : Ebu.new (ieeeEnv m bs t) 2 rate mode = .done (.ok e))
    (ha : Adequate mode rate e.window) {ops : List (Op F64 F32)} (hops : ∀ op ∈ ops, Feed op)
    (h1 : runOps (ieeeEnv m bs t) e ops = .done e1)
    (h2 : runOps (ieeeEnv m bs t) e (ops.map (onInput swapped)) = .done e1') :
    SameLoudness (ieeeEnv m bs t) e1 e1' ∧
    ∀ q, PeakQuery q → ask (ieeeEnv m bs t) e1 (q 0) = ask (ieeeEnv m bs t) e1' (q 1) ∧
      ask (ieeeEnv m bs t) e1 (q 1) = ask (ieeeEnv m bs t) e1' (q 0) := by
  have hs : Prepared (ieeeEnv m bs t) e := ⟨_, [], Or.inl ⟨_, _, _, hn⟩, by simp, rfl⟩
  obtain ⟨rfl, -⟩ := Ebu.new_ok hn
  exact C28_swap hs hs (Alike.refl _) ha (a := .left) (b := .right) (a' := .left) (b' := .right) rfl rfl nofun nofun
    nofun nofun rfl rfl hops h1 h2

/-! ## C29 -/

/-- The signal with inverted polarity. -/
def Spec.inverted : Input F64 F32 → Input F64 F32
  | .i16 l => .i16 (l.map (- ·))
  | .i32 l => .i32 (l.map (- ·))
  | .f32 l => .f32 (l.map Fl.neg)
  | .f64 l => .f64 (l.map Fl.neg)
  | .pi16 l => .pi16 (l.map (·.map (- ·)))
  | .pi32 l => .pi32 (l.map (·.map (- ·)))
  | .pf32 l => .pf32 (l.map (·.map Fl.neg))
  | .pf64 l => .pf64 (l.map (·.map Fl.neg))

/-- No integer sample is the one without opposite. -/
def Spec.HasOpposite : Op F64 F32 → Prop
  | .addFrames x | .seedFrames x => match x with
    | .i16 l => Int16.minValue ∉ l
    | .i32 l => Int32.minValue ∉ l
    | .pi16 l => ∀ d ∈ l, Int16.minValue ∉ d
    | .pi32 l => ∀ d ∈ l, Int32.minValue ∉ d
    | _ => True
  | _ => True

/-- Opposite samples: of the same level, and with opposite conversions. -/
structure OppVal (v v' : Val) : Prop where
  f64 : Opp v.f64 v'.f64
  f32 : Opp v.f32 v'.f32
  level : v'.level = v.level

theorem int16_neg {x : Int16} (h : x ≠ Int16.minValue) : (-x).toInt = -x.toInt := by
  have h1 := x.toInt_lt
  have h2 := x.le_toInt
  have h3 : x.toInt ≠ -32768 := fun hh => h (Int16.toInt_inj.1 (by rw [hh]; rfl))
  rw [Int16.toInt_neg, Int.bmod_def]
  omega

theorem int32_neg {x : Int32} (h : x ≠ Int32.minValue) : (-x).toInt = -x.toInt := by
  have h1 := x.toInt_lt
  have h2 := x.le_toInt
  have h3 : x.toInt ≠ -2147483648 := fun hh => h (Int32.toInt_inj.1 (by rw [hh]; rfl))
  rw [Int32.toInt_neg, Int.bmod_def]
  omega

theorem opp_val16 {x : Int16} (h : x ≠ Int16.minValue) : OppVal (val16 m bs t x) (val16 m bs t (-x)) := by
  refine ⟨?_, ?_, ?_⟩
  · show Opp ((ieeeEnv m bs t).f64p.div _ _) ((ieeeEnv m bs t).f64p.div _ _)
    rw [ieee_p_div, ieee_p_div, ieee_p_ofInt, int16_neg h]
    exact ((opp_ofInt Fmt.ok64.mb _).div Fmt.ok64.mb _).flush t
  · show Opp ((ieeeEnv m bs t).f32p.div _ _) ((ieeeEnv m bs t).f32p.div _ _)
    rw [ieee_q_div, ieee_q_div, ieee_q_ofInt, int16_neg h]
    exact ((opp_ofInt Fmt.ok32.mb _).div Fmt.ok32.mb _).flush t
  · show level16 (-x) = level16 x
    unfold level16
    rw [int16_neg h, Int.natAbs_neg]

theorem opp_val32 {x : Int32} (h : x ≠ Int32.minValue) : OppVal (val32 m bs t x) (val32 m bs t (-x)) := by
  refine ⟨?_, ?_, ?_⟩
  · show Opp ((ieeeEnv m bs t).f64p.div _ _) ((ieeeEnv m bs t).f64p.div _ _)
    rw [ieee_p_div, ieee_p_div, ieee_p_ofInt, int32_neg h]
    exact ((opp_ofInt Fmt.ok64.mb _).div Fmt.ok64.mb _).flush t
  · show Opp ((ieeeEnv m bs t).f32p.div _ _) ((ieeeEnv m bs t).f32p.div _ _)
    rw [ieee_q_div, ieee_q_div, ieee_q_ofInt, int32_neg h]
    exact ((opp_ofInt Fmt.ok32.mb _).div Fmt.ok32.mb _).flush t
  · show level32 (-x) = level32 x
    unfold level32
    rw [int32_neg h, Int.natAbs_neg]

theorem opp_valF (x : F32) : OppVal (valF m bs t x) (valF m bs t (Fl.neg x)) := by
  refine ⟨?_, opp_neg x, ?_⟩
  · show Opp ((ieeeEnv m bs t).widen x) ((ieeeEnv m bs t).widen (Fl.neg x))
    rw [ieee_widen]
    exact (opp_neg x).cast Fmt.ok64.mb
  · exact ((opp_neg x).cast Fmt.ok64.mb).abs

theorem opp_valD (x : F64) : OppVal (valD m bs t x) (valD m bs t (Fl.neg x)) := by
  refine ⟨opp_neg x, ?_, ?_⟩
  · show Opp ((ieeeEnv m bs t).narrowP x) ((ieeeEnv m bs t).narrowP (Fl.neg x))
    rw [ieee_narrowP, ieee_narrowP]
    exact ((opp_neg x).cast Fmt.ok32.mb).flush t
  · show levelD t (Fl.neg x) = levelD t x
    unfold levelD
    split
    · exact (opp_neg x).ftz.abs
    · exact (opp_neg x).abs

/-- Two lists of frames in which corresponding values are opposite. -/
theorem groups_rel {α : Type} {R : α → α → Prop} (n : Nat) {l l' : List α} (h : List.Forall₂ R l l') :
    List.Forall₂ (List.Forall₂ R) (groups n l) (groups n l') := by
  unfold groups
  rw [← h.length_eq, List.forall₂_map_left_iff, List.forall₂_map_right_iff, List.forall₂_same]
  intro k _
  exact List.forall₂_take _ (List.forall₂_drop _ h)

theorem columns_rel {α : Type} {R : α → α → Prop} {l l' : List (List α)} (h : List.Forall₂ (List.Forall₂ R) l l') :
    List.Forall₂ (List.Forall₂ R) (columns l) (columns l') := by
  unfold columns
  have hl : (l'.headD []).length = (l.headD []).length := by
    cases h with
    | nil => rfl
    | cons h1 _ => exact h1.length_eq.symm
  rw [hl, List.forall₂_map_left_iff, List.forall₂_map_right_iff, List.forall₂_same]
  intro k hk
  clear hk hl
  induction h with
  | nil => exact .nil
  | @cons a b l l' h1 h2 ih =>
    have h0 : ∀ {a b : List α}, List.Forall₂ R a b → (a[k]? = none ∧ b[k]? = none) ∨
        ∃ x y, a[k]? = some x ∧ b[k]? = some y ∧ R x y := by
      intro a b hab
      rcases Nat.lt_or_ge k a.length with hk | hk
      · have hk' : k < b.length := hab.length_eq ▸ hk
        exact Or.inr ⟨_, _, List.getElem?_eq_getElem hk, List.getElem?_eq_getElem hk', hab.get hk hk'⟩
      · exact Or.inl ⟨List.getElem?_eq_none hk, List.getElem?_eq_none (hab.length_eq ▸ hk)⟩
    rcases h0 h1 with ⟨e1, e2⟩ | ⟨x, y, e1, e2, e3⟩
    · simp only [List.filterMap_cons, e1, e2]
      exact ih
    · simp only [List.filterMap_cons, e1, e2]
      exact .cons e3 ih

theorem forall2_map_map {α β : Type} {R : β → β → Prop} {f : α → β} {g : α → α} {l : List α}
    (h : ∀ x ∈ l, R (f x) (f (g x))) : List.Forall₂ R (l.map f) ((l.map g).map f) := by
  rw [List.map_map, List.forall₂_map_left_iff, List.forall₂_map_right_iff, List.forall₂_same]
  exact h

/-- A signal and its inverted form. -/
theorem paired_inverted (n : Nat) (op : Op F64 F32) (hop : Feed op) (hi : HasOpposite op) :
    Paired m bs t n n (· = ·) OppVal op (onInput inverted op) := by
  have key : ∀ x : Input F64 F32, HasOpposite (.addFrames x) → (WellFormed n x ↔ WellFormed n (inverted x)) ∧
      PairedVals (· = ·) OppVal (vals m bs t n x) (vals m bs t n (inverted x)) := by
    intro x hx
    constructor
    · have hp : ∀ {T : Type} (g : T → T) (l : List (List T)), (l ≠ [] ∧ ∃ n, ∀ d ∈ l, d.length = n) ↔
          (l.map (·.map g) ≠ [] ∧ ∃ n, ∀ d ∈ l.map (·.map g), d.length = n) := by
        intro T g l
        simp only [ne_eq, List.map_eq_nil_iff, List.forall_mem_map, List.length_map]
      cases x
      case i16 | i32 | f32 | f64 => simp only [inverted, WellFormed, List.length_map]
      all_goals exact hp _ _
    · have main : List.Forall₂ (List.Forall₂ OppVal) (vals m bs t n x) (vals m bs t n (inverted x)) := by
        cases x
        · exact groups_rel n (forall2_map_map fun x h => opp_val16 fun hh => hx (hh ▸ h))
        · exact groups_rel n (forall2_map_map fun x h => opp_val32 fun hh => hx (hh ▸ h))
        · exact groups_rel n (forall2_map_map fun x _ => opp_valF x)
        · exact groups_rel n (forall2_map_map fun x _ => opp_valD x)
        · exact columns_rel (forall2_map_map fun d hd => forall2_map_map fun x h => opp_val16 fun hh =>
            hx d hd (hh ▸ h))
        · exact columns_rel (forall2_map_map fun d hd => forall2_map_map fun x h => opp_val32 fun hh =>
            hx d hd (hh ▸ h))
        · exact columns_rel (forall2_map_map fun d _ => forall2_map_map fun x _ => opp_valF x)
        · exact columns_rel (forall2_map_map fun d _ => forall2_map_map fun x _ => opp_valD x)
      refine main.imp fun f f' hf => ?_
      rintro c c' rfl v v' h1 h2
      have hk : c < f.length := (List.getElem?_eq_some_iff.1 h1).1
      have hk' : c < f'.length := hf.length_eq ▸ hk
      have := hf.get hk hk'
      rw [List.getElem?_eq_getElem hk, Option.some.injEq] at h1
      rw [List.getElem?_eq_getElem hk', Option.some.injEq] at h2
      rw [← h1, ← h2]
      exact this
  cases op with
  | addFrames x => exact .add (key x hi).1 fun _ => (key x hi).2
  | seedFrames x => exact .seed (key x hi).1 fun _ => (key x hi).2
  | _ => exact absurd hop id

theorem opp_p_mul {x x' : F64} (h : Opp x x') (c : F64) :
    Opp ((ieeeEnv m bs t).f64p.mul c x) ((ieeeEnv m bs t).f64p.mul c x') := by
  rw [ieee_p_mul, ieee_p_mul, Fl.mul_comm c x, Fl.mul_comm c x']
  exact (h.mul Fmt.ok64.mb c).flush t

theorem opp_p_add {x x' y y' : F64} (h : Opp x x') (g : Opp y y') :
    Opp ((ieeeEnv m bs t).f64p.add x y) ((ieeeEnv m bs t).f64p.add x' y') := by
  rw [ieee_p_add, ieee_p_add]
  exact (h.add g).flush t

theorem opp_p_sub {x x' y y' : F64} (h : Opp x x') (g : Opp y y') :
    Opp ((ieeeEnv m bs t).f64p.sub x y) ((ieeeEnv m bs t).f64p.sub x' y') := by
  rw [ieee_p_sub, ieee_p_sub]
  exact (h.sub g).flush t

theorem opp_filterIn {st st' : V5 F64} (hs : Rel5 Opp st st') (a : V5 F64) {x x' : F64} (h : Opp x x') :
    Opp (filterIn (ieeeEnv m bs t).f64p a st x) (filterIn (ieeeEnv m bs t).f64p a st' x') :=
  opp_p_sub (opp_p_sub (opp_p_sub (opp_p_sub h (opp_p_mul hs.v1 _)) (opp_p_mul hs.v2 _)) (opp_p_mul hs.v3 _))
    (opp_p_mul hs.v4 _)

theorem opp_filterOut {st st' : V5 F64} (hs : Rel5 Opp st st') (b : V5 F64) {x x' : F64} (h : Opp x x') :
    Opp (filterOut (ieeeEnv m bs t).f64p b st x) (filterOut (ieeeEnv m bs t).f64p b st' x') :=
  opp_p_add (opp_p_add (opp_p_add (opp_p_add (opp_p_mul h _) (opp_p_mul hs.v1 _)) (opp_p_mul hs.v2 _))
    (opp_p_mul hs.v3 _)) (opp_p_mul hs.v4 _)

/-- Opposite signals are a coupling. -/
theorem coupling_opp (cm : List Channel) :
    Coupling (ieeeEnv m bs t) cm cm (fun c c' => c = c' ∧ Used cm c) Opp where
  used := by
    rintro c c' ⟨rfl, h⟩
    exact ⟨h, h⟩
  filter := by
    intro b a st st' xs xs' hs hx
    induction hx generalizing st st' with
    | nil => exact ⟨hs, .nil⟩
    | cons h _ ih =>
      have hi := opp_filterIn (m := m) (bs := bs) (t := t) hs a h
      obtain ⟨i1, i2⟩ := ih (filterShift st _) (filterShift st' _) ⟨hi, hi, hs.v1, hs.v2, hs.v3⟩
      exact ⟨i1, .cons (opp_filterOut hs b hi) i2⟩
  flush := by
    intro st st' hs
    unfold flushState
    split
    · have key : ∀ {x x' : F64}, Opp x x' →
          Opp (if (ieeeEnv m bs t).f64p.lt ((ieeeEnv m bs t).f64p.abs x) (epsilon (ieeeEnv m bs t).f64p) then
            (ieeeEnv m bs t).f64p.zero else x)
          (if (ieeeEnv m bs t).f64p.lt ((ieeeEnv m bs t).f64p.abs x') (epsilon (ieeeEnv m bs t).f64p) then
            (ieeeEnv m bs t).f64p.zero else x') := by
        intro x x' h
        rw [ieee_p_abs, h.abs, ieee_p_zero]
        split
        · exact opp_zero _ _
        · exact h
      exact ⟨key hs.v0, key hs.v1, key hs.v2, key hs.v3, key hs.v4⟩
    · exact hs
  square := fun x y h => by rw [ieee_f64]; exact h.square
  sum := fun w w' h => channelSum_congr _ _ fun c hc => h c c ⟨rfl, hc⟩

theorem peakCoupling_opp : PeakCoupling m bs t OppVal Opp where
  level := fun v v' h => by rw [h.level]
  value := fun v v' h => h.f32
  zero := by rw [ieee_q_zero]; exact opp_zero _ _
  scale := by
    intro o o' x x' k ho hx
    rcases t with ⟨_ | _, _ | _, _⟩
    · exact ho.add (hx.mul Fmt.ok32.mb k)
    · exact hx.fma ho k
    · exact (ho.add (hx.mul Fmt.ok32.mb k).ftz).ftz
    · exact (hx.fma ho k).ftz
  key := fun x x' h => h.key

theorem runFeeds_sameCfg {E : Env F64 F32} {ops : List (Op F64 F32)} (hops : ∀ op ∈ ops, Feed op) {e e1 : Ebu F64 F32}
    (hi : e.Inv E) (h : runOps E e ops = .done e1) : e.SameCfg e1 := by
  induction ops generalizing e with
  | nil => cases h; exact .refl _
  | cons op ops ih =>
    simp only [runOps, Run.bind_eq] at h
    obtain ⟨⟨e2, r⟩, g1, g2⟩ := Run.bind_done h
    have h1 := feed_sameCfg hi (hops op (by simp)) g1
    have h2 : e2.Inv E := by
      rcases step_cases hi op with hs | ⟨e', r', hs, h3, -⟩
      · rw [hs] at g1; cases g1
      · rw [hs] at g1; cases g1; exact h3
    exact h1.trans (ih (fun o ho => hops o (by simp [ho])) h2 g2)

/-- **C29.** Inverting the polarity of all samples changes no measurement: all loudness answers, the recorded
blocks and all peaks are bit-identical.  For every target, channel map, call sequence and signal, including NaN
and infinities; integer samples must have an opposite. -/
theorem C29_inversion {e e1 e1' : Ebu F64 F32} (hs : Prepared (ieeeEnv m bs t) e)
    (ha : Adequate e.mode e.rate e.window) {ops : List (Op F64 F32)} (hops : ∀ op ∈ ops, Feed op ∧ HasOpposite op)
    (h1 : runOps (ieeeEnv m bs t) e ops = .done e1)
    (h2 : runOps (ieeeEnv m bs t) e (ops.map (onInput inverted)) = .done e1') :
    SameLoudness (ieeeEnv m bs t) e1 e1' ∧
    ∀ q, PeakQuery q → ∀ c, ask (ieeeEnv m bs t) e1 (q c) = ask (ieeeEnv m bs t) e1' (q c) := by
  have hp : List.Forall₂ (Paired m bs t e.channels e.channels (· = ·) OppVal) ops (ops.map (onInput inverted)) :=
    forall2_map_self fun op ho => paired_inverted _ op (hops op ho).1 (hops op ho).2
  constructor
  · refine couple_loudness hs.started hs.started (Alike.refl _) ha
      (P := fun c c' => c = c' ∧ Used e.channelMap c) (R := Opp) (coupling_opp _)
      (by rw [ieee_f64]; exact opp_zero _ _)
      (hp.imp fun op op' hh => (hh.imp fun c c' h => h.1).matching fun v v' hv => hv.f64) h1 h2
  · intro q hq c
    by_cases hc : c.toNat < e.channels
    · exact couple_peaks hs hs (Alike.refl _) ha (P := fun c c' => c = c' ∧ c < e.channels)
        (fun c c' h => ⟨h.2, h.1 ▸ h.2⟩) peakCoupling_opp
        (hp.imp fun op op' hh => hh.imp fun c c' h => h.1) h1 h2 (c := c) (c' := c) ⟨rfl, hc⟩ hq
    · have c1 := runFeeds_sameCfg (fun op ho => (hops op ho).1) hs.started.reachable.inv h1
      have c2 := runFeeds_sameCfg (by
        intro op ho
        obtain ⟨o, h, rfl⟩ := List.mem_map.1 ho
        have := (hops o h).1
        cases o <;> exact this) hs.started.reachable.inv h2
      have b1 : e1.channels ≤ c.toNat := by rw [c1.channels]; omega
      have b2 : e1'.channels ≤ c.toNat := by rw [c2.channels]; omega
      cases hq <;> simp only [ask, Ebu.getSamplePeak, Ebu.getPrevSamplePeak, Ebu.getTruePeak, Ebu.getPrevTruePeak,
        c1.mode, c2.mode, if_pos b1, if_pos b2]

/-! ## Concrete cases -/

/-- The bits of the momentary and global loudness and of the first sample peak of an analyzer with `n`
channels. -/
def Demo.bitsN (n : Nat) (ops : List (Op F64 F32)) : Option ((Option Nat × Option Nat) × Option Nat) :=
  (Demo.afterN (Demo.envReal true) n 18 (Mode.I ||| Mode.SAMPLE_PEAK) ops).map fun e =>
    (Demo.loudBits (Demo.envReal true) e, Demo.bitsOf (ask (Demo.envReal true) e (.samplePeak 0)))

def Demo.monoCalls : List (Op F64 F32) :=
  [.addFrames (.i16 [1000, -20000, 3000, 5, -6]), .seedFrames (.f32 [Fl.lit _ 1 5]),
   .addFrames (.pf64 [[Fl.lit _ 1 3, Fl.lit _ (-1) 4, Fl.lit _ 1 7, Fl.lit _ 2 3, .zero true]])]

/-- Dual mono is stereo with the same signal twice; mono is not. -/
theorem Demo.dual_report :
    Demo.bitsN 1 (.setChannel 0 .dualMono :: Demo.monoCalls) = Demo.bitsN 2 (Demo.monoCalls.map (onInput doubled)) ∧
    (Demo.bitsN 1 Demo.monoCalls ≠ Demo.bitsN 2 (Demo.monoCalls.map (onInput doubled))) ∧
    Demo.bothKnown ((Demo.bitsN 1 Demo.monoCalls).map (·.1)) = true := by
  decide +kernel

def Demo.stereoCalls : List (Op F64 F32) :=
  [.addFrames (.i16 [1000, -20000, 3000, 5, -6, 12]), .seedFrames (.f32 [Fl.lit _ 1 5, Fl.lit _ 1 9]),
   .addFrames (.pf64 [[Fl.lit _ 1 3, Fl.lit _ (-1) 4, Fl.lit _ 1 7, Fl.lit _ 2 3, .zero true, Fl.lit _ 1 1],
     [Fl.lit _ 1 5, Fl.lit _ 1 4, Fl.lit _ (-1) 7, Fl.lit _ 3 5, .zero true, Fl.lit _ 1 6]])]

/-- Exchanged channels: the same loudness, another first peak; with unequal weights another loudness. -/
theorem Demo.swap_report :
    (Demo.bitsN 2 Demo.stereoCalls).map (·.1) = (Demo.bitsN 2 (Demo.stereoCalls.map (onInput swapped))).map (·.1) ∧
    Demo.bitsN 2 Demo.stereoCalls ≠ Demo.bitsN 2 (Demo.stereoCalls.map (onInput swapped)) ∧
    (Demo.bitsN 2 (.setChannel 1 .leftSurround :: Demo.stereoCalls)).map (·.1) ≠
      (Demo.bitsN 2 (.setChannel 1 .leftSurround :: Demo.stereoCalls.map (onInput swapped))).map (·.1) ∧
    Demo.bothKnown ((Demo.bitsN 2 Demo.stereoCalls).map (·.1)) = true := by
  decide +kernel

/-- Inverted polarity: the same report.  The smallest integer is its own wrapping negative, so that a signal
with such a sample is not inverted by negating. -/
theorem Demo.invert_report :
    Demo.bitsN 2 Demo.stereoCalls = Demo.bitsN 2 (Demo.stereoCalls.map (onInput inverted)) ∧
    Demo.bitsN 1 [.addFrames (.i16 [100, -32768, 200, 0, 5, 6, 7, 8])] ≠
      Demo.bitsN 1 [.addFrames (inverted (.i16 [100, -32768, 200, 0, 5, 6, 7, 8]))] := by
  decide +kernel

example : twice [1, 2] = [1, 1, 2, 2] ∧ swapPairs [1, 2, 3, 4, 5, 6] = [2, 1, 4, 3, 6, 5] := by decide

example : weight .left = weight .right ∧ weight .leftSurround = weight .rightSurround ∧
    weight .left ≠ weight .leftSurround := by decide

end Verif
