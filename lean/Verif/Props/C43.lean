import Verif.Props.C25_C26
import Verif.Props.C24
/-!
# C43: seeding warms the filters and does nothing else
-/

set_option linter.unusedSimpArgs false

namespace Verif
open Spec

section any
variable {D S : Type}

theorem seed_step {E : Env D S} {e e' : Ebu D S} (hi : e.Inv E) {x : Input D S} {r : Except Error Unit}
    (hs : step E e (.seedFrames x) = .done (e', r)) :
    (¬ x.Ok e.channels ∧ e' = e ∧ r = .error .noMem) ∨
    (x.Ok e.channels ∧ x.width e.channels = e.channels ∧ r = .ok () ∧
      e' = e.seedP E (x.decode E e.channels).ops (x.decode E e.channels).frames) := by
  by_cases hx : x.Ok e.channels
  · by_cases hw : x.width e.channels = e.channels
    · have h := Ebu.seedInput_eq hi hx hw
      have h := h.symm.trans hs
      cases h
      exact Or.inr ⟨hx, hw, rfl, rfl⟩
    · have h := (Ebu.seedInput_wrong hi hx hw).symm.trans hs
      cases h
  · have h := (Ebu.addInput_err (E := E) hx).2.symm.trans hs
    cases h
    exact Or.inl ⟨hx, rfl, rfl⟩

/-- **C43.** Seeding changes at most the state of the filters and of the interpolators: every query and the
histories of the integrated loudness and the loudness range are as before, and so are all counters and peaks.
In any arithmetic, from any reachable state, whatever the input and the result. -/
theorem C43_nothing {E : Env D S} {e e' : Ebu D S} (hr : Reachable E e) {x : Input D S} {r : Except Error Unit}
    (hs : step E e (.seedFrames x) = .done (e', r)) :
    (∀ q, ask E e' q = ask E e q) ∧ e'.gatingBlockCountAndEnergy E = e.gatingBlockCountAndEnergy E ∧
    e'.blockEnergyHistory = e.blockEnergyHistory ∧
    e'.shortTermBlockEnergyHistory = e.shortTermBlockEnergyHistory ∧
    ∃ state tp, e' = { e with filter := { e.filter with filterState := state, tp := tp } } := by
  have key : ∃ state tp, e' = { e with filter := { e.filter with filterState := state, tp := tp } } := by
    rcases seed_step hr.inv hs with ⟨-, rfl, -⟩ | ⟨-, -, -, rfl⟩
    · exact ⟨_, _, rfl⟩
    · exact ⟨_, _, rfl⟩
  obtain ⟨state, tp, rfl⟩ := key
  exact ⟨fun q => by cases q <;> rfl, rfl, rfl, rfl, state, tp, rfl⟩

theorem coreP_foldl {T : Type} {E : Env D S} (hz : E.noFtz = false) (ops : SampleOps D S T) {n : Nat}
    {cm : List Channel} (hcm : cm.length = n) (fs : List (List T)) : ∀ {f : Filter D S}, f.Inv n → f.RectTp →
    RectF n fs → fs.foldl (fun f x => f.coreP E ops [x] cm) f = f.coreP E ops fs cm := by
  induction fs with
  | nil => intro f hf _ _; exact (Filter.coreP_nil hz ops hf hcm).symm
  | cons x fs ih =>
    intro f hf ht hr
    have hx : RectF n [x] := by
      intro y hy
      rw [List.mem_singleton] at hy
      rw [hy]
      exact hr x (by simp)
    obtain ⟨h1, h2⟩ := Filter.coreP_inv E ops hf ht hx hcm
    rw [List.foldl_cons, ih h1 h2 (fun y hy => hr y (by simp [hy])), ← Filter.coreP_append hz]
    rfl

theorem tickC_filter {T : Type} {E : Env D S} (ops : SampleOps D S T) (fs : List (List T)) : ∀ e : Ebu D S,
    (fs.foldl (Ebu.tickC E ops) e).filter = fs.foldl (fun f x => f.coreP E ops [x] e.channelMap) e.filter := by
  induction fs with
  | nil => intro e; rfl
  | cons x fs ih =>
    intro e
    have h1 : (e.tickC E ops x).filter = e.filter.coreP E ops [x] e.channelMap ∧
        (e.tickC E ops x).channelMap = e.channelMap := by
      unfold Ebu.tickC
      dsimp only
      split
      · exact ⟨(Ebu.completeP_fields E _).1, (Ebu.completeP_sameCfg E _).map⟩
      · exact ⟨rfl, rfl⟩
    rw [List.foldl_cons, List.foldl_cons, ih, h1.1, h1.2]

/-- **C43.** The state of the filters and of the interpolators after seeding is the one after adding the same
input. -/
theorem C43_warm {E : Env D S} (hz : E.noFtz = false) {e e1 e2 : Ebu D S} (hr : Reachable E e)
    (ha : Adequate e.mode e.rate e.window) {x : Input D S} {r1 r2 : Except Error Unit}
    (h1 : step E e (.addFrames x) = .done (e1, r1)) (h2 : step E e (.seedFrames x) = .done (e2, r2)) :
    r2 = r1 ∧ e2.filter.filterState = e1.filter.filterState ∧ e2.filter.tp = e1.filter.tp := by
  have hi := hr.inv
  have hg := hi.good_iff.2 ha
  obtain ⟨n, hp⟩ := hr.inv2.pos hg
  rcases seed_step hi h2 with ⟨hx, rfl, rfl⟩ | ⟨hx, hw, rfl, rfl⟩
  · have h := (Ebu.addInput_err (E := E) hx).1.symm.trans h1
    cases h
    exact ⟨rfl, rfl, rfl⟩
  · have h := (Ebu.addInput_eq hi hg hp hx hw).1.symm.trans h1
    cases h
    have hf := Input.decode_rect E hx
    rw [hw] at hf
    have h3 := Ebu.strip_addP hz (x.decode E e.channels).ops hi hg hp hf
    have h4 := congrArg Ebu.filter h3
    rw [tickC_filter] at h4
    have h5 : ∀ (fs : List (List (x.decode E e.channels).T)) (f : Filter D S) (cm : List Channel),
        fs.foldl (fun f x_1 => f.coreP E (x.decode E e.channels).ops [x_1] cm) f.strip =
          (fs.foldl (fun f x_1 => f.coreP E (x.decode E e.channels).ops [x_1] cm) f).strip := by
      intro fs
      induction fs with
      | nil => intros; rfl
      | cons y fs ih => intro f cm; exact ih (f.coreP E _ [y] cm) cm
    have h6 := h4.trans (h5 _ e.filter e.channelMap)
    rw [coreP_foldl hz _ hi.map _ hi.filter hi.rect hf] at h6
    exact ⟨rfl, (congrArg Filter.filterState h6).symm, (congrArg Filter.tp h6).symm⟩

/-! ## What is heard after a seed -/

/-- The measured outputs for `evs` of a filter that has heard `xs`. -/
def outsAfter (A : Arith D) (b a : V5 D) (z : D) (c : Nat) : List D → List (Event D) → List D
  | _, [] => []
  | xs, ev :: evs =>
    (if ev.measured then [response A b z (internal A a z (xs ++ [ev.frame.getD c z]))] else []) ++
      outsAfter A b a z c (xs ++ [ev.frame.getD c z]) evs

theorem outs_append (A : Arith D) (b a : V5 D) (z : D) (c : Nat) (evs' : List (Event D)) : ∀ evs : List (Event D),
    outs A b a z (evs ++ evs') c = outs A b a z evs c ++ outsAfter A b a z c (chan z c evs) evs' := by
  induction evs' with
  | nil => intro evs; simp [outsAfter]
  | cons ev evs' ih =>
    intro evs
    have h1 : chan z c (evs ++ [ev]) = chan z c evs ++ [ev.frame.getD c z] := by rw [chan_append]; rfl
    rw [show evs ++ ev :: evs' = (evs ++ [ev]) ++ evs' by simp, ih, outs_snoc, h1, outsAfter, List.append_assoc]

theorem outsAfter_length (A : Arith D) (b a : V5 D) (z : D) (c : Nat) (evs : List (Event D)) : ∀ xs : List D,
    (outsAfter A b a z c xs evs).length = count evs := by
  induction evs with
  | nil => intro xs; rfl
  | cons ev evs ih =>
    intro xs
    have h1 : count (ev :: evs) = count [ev] + count evs := count_append [ev] evs
    rw [outsAfter, List.length_append, ih, h1]
    congr 1
    unfold count
    by_cases h : ev.measured = true <;> simp [h]

/-- The frames of an input as events. -/
theorem chan_delivered (E : Env D S) (n c : Nat) (x : Input D S) :
    chan E.f64.zero c (delivered E n (.addFrames x)) = chan E.f64.zero c (delivered E n (.seedFrames x)) := by
  unfold delivered chan
  dsimp only
  split
  · rw [List.map_map, List.map_map]; rfl
  · rfl

theorem count_seed (E : Env D S) (n : Nat) (x : Input D S) : count (delivered E n (.seedFrames x)) = 0 := by
  unfold delivered count
  dsimp only
  split
  · simp
  · rfl

/-- **C43.** Seeding in the middle of any calls: the K-weighted signal that all measurements are taken from (C13 to
C15) is the one with the seed added, only without the part of the seed. -/
theorem C43_signal (E : Env D S) (rate n : Nat) (before after : List (Op D S)) (x : Input D S) (c : Nat) :
    ∃ mid post : List D,
      signal E rate n (before ++ .addFrames x :: after) c = signal E rate n before c ++ mid ++ post ∧
      signal E rate n (before ++ .seedFrames x :: after) c = signal E rate n before c ++ post ∧
      mid.length = measured E n [.addFrames x] ∧ post.length = measured E n after := by
  unfold signal measured heard
  simp only [List.flatMap_append, List.flatMap_cons, List.flatMap_nil, List.append_nil]
  generalize (filterCoefficients E (E.f64.ofInt rate)).1 = b
  generalize (filterCoefficients E (E.f64.ofInt rate)).2 = a
  generalize before.flatMap (delivered E n) = p
  generalize after.flatMap (delivered E n) = s
  refine ⟨outsAfter E.f64p b a E.f64.zero c (chan E.f64.zero c p) (delivered E n (.addFrames x)),
    outsAfter E.f64p b a E.f64.zero c (chan E.f64.zero c (p ++ delivered E n (.addFrames x))) s, ?_, ?_, ?_, ?_⟩
  · rw [← List.append_assoc, outs_append, outs_append]
  · rw [← List.append_assoc, outs_append, outs_append, chan_append, chan_append, chan_delivered]
    have h0 : outsAfter E.f64p b a E.f64.zero c (chan E.f64.zero c p) (delivered E n (.seedFrames x)) = [] := by
      rw [← List.length_eq_zero_iff, outsAfter_length, count_seed]
    rw [h0, List.append_nil]
  · rw [outsAfter_length]
  · rw [outsAfter_length]

theorem signal_length (E : Env D S) (rate n : Nat) (ops : List (Op D S)) (c : Nat) :
    (signal E rate n ops c).length = measured E n ops := outs_length ..

theorem lastN_append (z : D) {N : Nat} (pre post : List D) (h : N ≤ post.length) :
    lastN z N (pre ++ post) = lastN z N post := by
  rw [(C15_exactly 1 N 0 z (pre ++ post)).2.2.1 (by rw [List.length_append]; omega),
    (C15_exactly 1 N 0 z post).2.2.1 h, List.length_append,
    show pre.length + post.length - N = pre.length + (post.length - N) by omega, ← List.drop_drop,
    List.drop_left]

theorem seeded_energy {E : Env D S} {L N rate n : Nat} {before after : List (Op D S)} {x : Input D S}
    (cm : List Channel) (hN : N ≤ measured E n after)
    (hsum : ∀ w : List D, w.length = N →
      sumSq E.f64 (readOrder L (measured E n (before ++ .addFrames x :: after)) w) =
      sumSq E.f64 (readOrder L (measured E n (before ++ .seedFrames x :: after)) w)) :
    energy E L N (measured E n (before ++ .addFrames x :: after)) cm (signal E rate n (before ++ .addFrames x :: after)) =
    energy E L N (measured E n (before ++ .seedFrames x :: after)) cm
      (signal E rate n (before ++ .seedFrames x :: after)) := by
  unfold energy
  congr 1
  apply channelSum_congr
  intro c _
  rw [List.take_of_length_le (Nat.le_of_eq (signal_length ..)), List.take_of_length_le (Nat.le_of_eq (signal_length ..))]
  obtain ⟨mid, post, h1, h2, -, h4⟩ := C43_signal E rate n before after x c
  rw [h1, h2, lastN_append _ _ _ (h4 ▸ hN), lastN_append _ _ _ (h4 ▸ hN)]
  exact hsum _ (lastN_length ..)

/-- The window queries of an analyzer that was seeded and one that was given the seed as part of the stream agree
once the windows contain nothing from before the seed. -/
structure Spec.SameWindows (E : Env D S) (e e' : Ebu D S) (rate frames : Nat) : Prop where
  momentary : 4 * hop rate ≤ frames → ask E e .loudnessMomentary = ask E e' .loudnessMomentary
  shortterm : 30 * hop rate ≤ frames → ask E e .loudnessShortterm = ask E e' .loudnessShortterm
  window : ∀ w : UInt32, rate * w.toNat / 1000 ≤ frames → ask E e (.loudnessWindow w) = ask E e' (.loudnessWindow w)

theorem same_windows {E : Env D S} (hz : E.noFtz = false) {e0 e e' : Ebu D S} (h : Started E e0)
    (ha : Adequate e0.mode e0.rate e0.window) {before after : List (Op D S)} {x : Input D S}
    (hb : ∀ op ∈ before, Feed op) (hf : ∀ op ∈ after, Feed op)
    (hadd : runOps E e0 (before ++ .addFrames x :: after) = .done e)
    (hseed : runOps E e0 (before ++ .seedFrames x :: after) = .done e')
    (hsum : ∀ w : List D,
      sumSq E.f64 (readOrder (capacity e0.rate e0.window) (measured E e0.channels (before ++ .addFrames x :: after)) w) =
      sumSq E.f64 (readOrder (capacity e0.rate e0.window) (measured E e0.channels (before ++ .seedFrames x :: after)) w)) :
    SameWindows E e e' e0.rate (measured E e0.channels after) := by
  have ho : ∀ op : Op D S, Feed op → ∀ o ∈ before ++ op :: after, Feed o := by
    intro op hop o ho
    rw [List.mem_append, List.mem_cons] at ho
    rcases ho with h | rfl | h
    · exact hb o h
    · exact hop
    · exact hf o h
  obtain ⟨m1, s1, w1⟩ := C15_windows hz h ha (ho (.addFrames x) trivial) hadd
  obtain ⟨m2, s2, w2⟩ := C15_windows hz h ha (ho (.seedFrames x) trivial) hseed
  dsimp only at m1 s1 w1 m2 s2 w2
  refine ⟨fun hN => ?_, fun hN => ?_, fun w hN => ?_⟩
  · rw [m1, m2, seeded_energy _ hN fun w _ => hsum w]
  · rw [s1, s2, seeded_energy _ hN fun w _ => hsum w]
  · rw [w1, w2, seeded_energy _ hN fun w _ => hsum w]

theorem measured_cons (E : Env D S) (n : Nat) (before after : List (Op D S)) (op : Op D S) :
    measured E n (before ++ op :: after) =
      measured E n before + (measured E n [op] + measured E n after) := by
  unfold measured heard
  simp only [List.flatMap_append, List.flatMap_cons, List.flatMap_nil, List.append_nil, count_append]

/-- **C43**, the window measurements: seeding the last samples is as good as adding them.  In any arithmetic with
all its rounding, if the seed fills the ring buffer a whole number of times (otherwise the same values are summed
starting at another one). -/
theorem C43_windows {E : Env D S} (hz : E.noFtz = false) {e0 e e' : Ebu D S} (h : Started E e0)
    (ha : Adequate e0.mode e0.rate e0.window) {before after : List (Op D S)} {x : Input D S}
    (hb : ∀ op ∈ before, Feed op) (hf : ∀ op ∈ after, Feed op)
    (hadd : runOps E e0 (before ++ .addFrames x :: after) = .done e)
    (hseed : runOps E e0 (before ++ .seedFrames x :: after) = .done e')
    (hx : measured E e0.channels [.addFrames x] % capacity e0.rate e0.window = 0) :
    SameWindows E e e' e0.rate (measured E e0.channels after) := by
  refine same_windows hz h ha hb hf hadd hseed fun w => ?_
  have h0 : measured E e0.channels [.seedFrames x] = 0 := by
    unfold measured heard
    simp only [List.flatMap_cons, List.flatMap_nil, List.append_nil]
    exact count_seed ..
  have : measured E e0.channels (before ++ .addFrames x :: after) % capacity e0.rate e0.window =
      measured E e0.channels (before ++ .seedFrames x :: after) % capacity e0.rate e0.window := by
    rw [measured_cons, measured_cons, h0]
    generalize measured E e0.channels before = p
    generalize measured E e0.channels after = q
    rw [show p + (measured E e0.channels [.addFrames x] + q) = measured E e0.channels [.addFrames x] + (p + q) by omega,
      Nat.add_mod, hx, Nat.zero_add, Nat.zero_add, Nat.mod_mod]
  unfold readOrder
  rw [this]

end any

theorem exact_sumSq_perm (bs : BSearch) (u : Nat) {v w : List ℝ} (h : v.Perm w) :
    sumSq (exactEnv bs u).f64 v = sumSq (exactEnv bs u).f64 w := by
  show sumSq exactArith v = sumSq exactArith w
  rw [exact_sumSq, exact_sumSq]
  exact (h.map _).sum_eq

/-- **C43**, the window measurements in exact arithmetic: for every seed. -/
theorem C43_windows_exact {bs : BSearch} {u : Nat} {e0 e e' : Ebu ℝ ℝ} (h : Started (exactEnv bs u) e0)
    (ha : Adequate e0.mode e0.rate e0.window) {before after : List (Op ℝ ℝ)} {x : Input ℝ ℝ}
    (hb : ∀ op ∈ before, Feed op) (hf : ∀ op ∈ after, Feed op)
    (hadd : runOps (exactEnv bs u) e0 (before ++ .addFrames x :: after) = .done e)
    (hseed : runOps (exactEnv bs u) e0 (before ++ .seedFrames x :: after) = .done e') :
    SameWindows (exactEnv bs u) e e' e0.rate (measured (exactEnv bs u) e0.channels after) :=
  same_windows rfl h ha hb hf hadd hseed fun _ =>
    exact_sumSq_perm bs u ((readOrder_perm _ _ _).trans (readOrder_perm _ _ _).symm)

variable {m : Libm F64} {bs : BSearch} {t : Target}

/-- **C43**, the peaks: frames added after a seed have the same peaks, including the true peak, as if the seed had
been added. -/
theorem C43_peaks (hz : t.sse2 = true) {e e1 e2 f1 f2 : Ebu F64 F32} (hr : Reachable (ieeeEnv m bs t) e)
    (ha : Adequate e.mode e.rate e.window) {x y : Input F64 F32} {r1 r2 : Except Error Unit}
    (h1 : step (ieeeEnv m bs t) e (.addFrames x) = .done (e1, r1))
    (h2 : step (ieeeEnv m bs t) e (.seedFrames x) = .done (e2, r2))
    (g1 : step (ieeeEnv m bs t) e1 (.addFrames y) = .done (f1, .ok ()))
    (g2 : step (ieeeEnv m bs t) e2 (.addFrames y) = .done (f2, .ok ()))
    (hy : 0 < frameCount e.channels y) {c : UInt32} (hc : c.toNat < e.channels) :
    ask (ieeeEnv m bs t) f1 (.prevSamplePeak c) = ask (ieeeEnv m bs t) f2 (.prevSamplePeak c) ∧
    ask (ieeeEnv m bs t) f1 (.prevTruePeak c) = ask (ieeeEnv m bs t) f2 (.prevTruePeak c) := by
  obtain ⟨-, -, htp⟩ := C43_warm (by rw [show (ieeeEnv m bs t).noFtz = !t.sse2 from rfl, hz]; rfl) hr ha h1 h2
  have i1 : Reachable (ieeeEnv m bs t) e1 := hr.step h1
  have i2 : Reachable (ieeeEnv m bs t) e2 := hr.step h2
  have c1 := feed_sameCfg hr.inv (op := .addFrames x) trivial h1
  have c2 := feed_sameCfg hr.inv (op := .seedFrames x) trivial h2
  obtain ⟨a, q, A, Q, p1, -⟩ := i1.pk m bs t c.toNat (by rw [c1.channels]; exact hc)
  obtain ⟨a', q', A', Q', p2, -⟩ := i2.pk m bs t c.toNat (by rw [c2.channels]; exact hc)
  obtain ⟨-, n1, m1, -, -, d1, k1, P1, D1, K1⟩ := fed_step i1.inv g1 (by rw [c1.channels]; exact hy)
    (by rw [c1.channels]; exact hc) p1
  obtain ⟨-, n2, m2, -, -, d2, k2, P2, D2, K2⟩ := fed_step i2.inv g2 (by rw [c2.channels]; exact hy)
    (by rw [c2.channels]; exact hc) p2
  rw [c1.channels, c1.mode] at D1
  rw [c2.channels, c2.mode] at D2
  rw [c1.channels] at K1
  rw [c2.channels] at K2
  have hd : d1 = d2 := D1.trans D2.symm
  have hk : k1 = k2 := by
    rw [K1, K2]
    unfold Filter.tKey
    rw [htp]
  subst hd hk
  have b1 : ¬ f1.channels ≤ c.toNat := by rw [n1, c1.channels]; omega
  have b2 : ¬ f2.channels ≤ c.toNat := by rw [n2, c2.channels]; omega
  have mm : f2.mode = f1.mode := by rw [m1, m2, c1.mode, c2.mode]
  constructor
  · simp only [ask, Ebu.getPrevSamplePeak, mm, if_neg b1, if_neg b2, Run.index_some P1.last.sample,
      Run.index_some P2.last.sample]
  · simp only [ask, Ebu.getPrevTruePeak, mm, if_neg b1, if_neg b2, Run.index_some P1.last.sample,
      Run.index_some P2.last.sample, Run.index_some P1.last.true, Run.index_some P2.last.true]

/-! ## Concrete cases -/

/-- Bits of the momentary loudness, and of the previous sample peak, of a mono analyzer at 18 Hz. -/
def Demo.seedReport (ops : List (Op F64 F32)) : Option (Option Nat × Option Nat) :=
  (Demo.afterN (Demo.envReal false) 1 18 (Mode.M ||| Mode.SAMPLE_PEAK) ops).map fun e =>
    (Demo.bitsOf (ask (Demo.envReal false) e .loudnessMomentary),
     Demo.bitsOf (ask (Demo.envReal false) e (.prevSamplePeak 0)))

def Demo.seedX : Input F64 F32 := .i16 [1000, -20000, 3000, 5, -6, 30000, 7, 80]
def Demo.seedY : Input F64 F32 := .i16 [100, 200, -3000, 500, -600, 3000, 70, 8]

/-- Eight frames fill the ring buffer at 18 Hz.  Adding or seeding `x` before `y` gives the same momentary loudness
after `y`, not doing so another one; and a seed leaves the report as it is. -/
theorem Demo.seed_report :
    capacity 18 400 = 8 ∧
    Demo.seedReport [.addFrames Demo.seedX, .addFrames Demo.seedY] =
      Demo.seedReport [.seedFrames Demo.seedX, .addFrames Demo.seedY] ∧
    Demo.seedReport [.addFrames Demo.seedY] ≠ Demo.seedReport [.seedFrames Demo.seedX, .addFrames Demo.seedY] ∧
    Demo.seedReport [.addFrames Demo.seedY, .seedFrames Demo.seedX] = Demo.seedReport [.addFrames Demo.seedY] ∧
    Demo.bothKnown (Demo.seedReport [.addFrames Demo.seedY]) = true := by
  decide +kernel

end Verif
