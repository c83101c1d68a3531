import Verif.Proofs.Bursts
import Verif.Props.C76
/-!
# C77: the loudest moment of short tones

EBU Tech 3341 tests the maximum of the momentary loudness with tones of 0.4 s (cases 13 and 14) and that of the short-term
loudness with tones of 3 s (cases 10 and 11), in silence, at different offsets. The reading must never be more than 0.1 LU above
the level of the loudest tone so far, and must come within 0.1 LU of it at the end of the tone.
-/

namespace Verif
open Spec
variable {m : Libm F64} {bs : BSearch} {t : Target}

theorem stepSlack_scale (a S R O ε w : ℝ) : stepSlack (a * S) (a * R) (a * O) (a * ε) w = a ^ 2 * stepSlack S R O ε w := by
  unfold stepSlack
  ring

theorem dBFS_mono {L L' : ℝ} (h : L ≤ L') : dBFS L ≤ dBFS L' := by
  unfold dBFS
  exact Real.rpow_le_rpow_of_exponent_le (by norm_num) (by linarith)

theorem dBFS_range {L : ℝ} (h : -40 ≤ L) (h' : L ≤ 0) : 1 / 100 ≤ dBFS L ∧ dBFS L ≤ 1 := by
  have h1 := dBFS_mono h
  have h2 := dBFS_mono h'
  have e1 : dBFS (-40) = 1 / 100 := by
    unfold dBFS
    rw [show (-40 / 20 : ℝ) = -((2 : ℕ) : ℝ) by norm_num, Real.rpow_neg (by norm_num), Real.rpow_natCast]
    norm_num
  have e2 : dBFS 0 = 1 := by
    unfold dBFS
    simp
  rw [e1] at h1
  rw [e2] at h2
  exact ⟨h1, h2⟩

/-- A step of 1 dB is a tenth of the amplitude at least. -/
theorem dBFS_step {L L' : ℝ} (h : L + 1 ≤ L') : dBFS L ≤ 9 / 10 * dBFS L' := by
  have h1 := dBFS_mono h
  have e : dBFS (L + 1) = dBFS L * (10 : ℝ) ^ ((1 : ℝ) / 20) := by
    unfold dBFS
    rw [← Real.rpow_add (by norm_num)]
    congr 1
    ring
  have h2 := le_rpow_of_pow (a := 10 / 9) (p := 1) (q := 20) (by norm_num) (by norm_num) (by norm_num)
  push_cast at h2
  have := mul_le_mul_of_nonneg_left h2 (dBFS_pos L).le
  rw [e] at h1
  linarith

/-- Tones that rise by 1 dB or more: all of them together are at most ten times the last one. -/
theorem rising_sum {L : ℕ → ℝ} : ∀ j, (∀ i < j, L i + 1 ≤ L (i + 1)) → ∑ i ∈ Finset.range (j + 1), dBFS (L i) ≤ 10 * dBFS (L j)
  | 0, _ => by
    have := dBFS_pos (L 0)
    simp
    linarith
  | j + 1, h => by
    have ih := rising_sum j fun i hi => h i (by omega)
    have := dBFS_step (h j (by omega))
    rw [Finset.sum_range_succ]
    linarith

theorem rising_le {L : ℕ → ℝ} {n : ℕ} (h : ∀ i j, i < j → j < n → L i + 1 ≤ L j) {i j : ℕ} (hij : i ≤ j) (hj : j < n) :
    dBFS (L i) ≤ dBFS (L j) := by
  rcases Nat.lt_or_ge i j with h1 | h1
  · exact dBFS_mono (by linarith [h i j h1 hj])
  · rw [show i = j by omega]

theorem sounds_congr {tol : ℝ} {A A' : ℕ → ℝ} {K channels : ℕ} {φ : ℕ → ℝ} {evs : List (Event F64)}
    (h : Sounds tol A K channels φ evs) (hA : ∀ i < K, A i = A' i) : Sounds tol A' K channels φ evs := by
  refine ⟨h.length, h.measured, fun n hn c hc => ?_⟩
  rw [← hA (n / 480) ((Nat.div_lt_iff_lt_mul (by norm_num)).2 (by rw [← h.length]; exact hn))]
  exact h.sample n hn c hc

/-- What is asked after the last tone has begun. -/
theorem bursts_ask (hm : GoodLibm m) {mode : Mode} {e0 e : Ebu F64 F32}
    (hnew : Ebu.new (ieeeEnv m bs t) 2 48000 mode = .done (.ok e0)) {ops : List (Op F64 F32)} (hops : ∀ op ∈ ops, Feed op)
    (hrun : runOps (ieeeEnv m bs t) e0 ops = .done e) {K w x j : ℕ} {φ : ℕ → ℝ} {L : ℕ → ℝ} {s : ℕ → ℕ} {q : Query}
    (hp : Sounds (1 / 2 ^ 22) (bursts (fun i => dBFS (L i)) s w (j + 1)) K 2 φ (heard (ieeeEnv m bs t) 2 ops))
    (hq : (w = 40 ∧ x = 0 ∧ q = .loudnessMomentary) ∨
      (w = 300 ∧ x = 5 ∧ q = .loudnessShortterm ∧ mode.contains Mode.S = true))
    (hL : -40 ≤ L j) (hL' : L j ≤ 0) (hr : ∀ i i', i < i' → i' < j + 1 → L i + 1 ≤ L i')
    (hs : ∀ i i', i < i' → i' < j + 1 → s i + (w + 10) ≤ s i') :
    ∃ v : F64, ask (ieeeEnv m bs t) e q = .done (.ok v) ∧ AtMost (ieeeEnv m bs t) v (L j + 1 / 10) ∧
      (w ≤ K → K ≤ s j + w + x → s j + w ≤ K + x → v.Finite ∧ |v.value - L j| ≤ 1 / 10) := by
  have hq' : (w = 40 ∧ q = .loudnessMomentary) ∨ (w = 300 ∧ q = .loudnessShortterm ∧ mode.contains Mode.S = true) := by
    rcases hq with ⟨h1, -, h2⟩ | ⟨h1, -, h2⟩
    · exact .inl ⟨h1, h2⟩
    · exact .inr ⟨h1, h2⟩
  obtain ⟨a1, a2⟩ := dBFS_range hL hL'
  have hsum := rising_sum j fun i hi => hr i (i + 1) (by omega) (by omega)
  have hsq := dBFS_sq (L j)
  have a0 : ∀ i < j + 1, 0 ≤ dBFS (L i) := fun i _ => (dBFS_pos _).le
  have hb : ∀ i < j + 1, dBFS (L i) ≤ dBFS (L j) := fun i hi => rising_le hr (by omega) (by omega)
  have hle : ∀ i, |bursts (fun i => dBFS (L i)) s w (j + 1) i| ≤ dBFS (L j) := fun i => by
    rw [abs_of_nonneg (bursts_nonneg a0 i)]
    exact bursts_le (by linarith) hb hs (by omega) i
  generalize hbj : dBFS (L j) = b at *
  have b2 : 0 < b ^ 2 := by positivity
  obtain ⟨c, c1, c2, sl⟩ : ∃ c : ℝ, c ≤ 4 / 1000 ∧ 576 / 1000 ≤ 587138 / 10 ^ 6 * (((w - x : ℕ) : ℝ) / w) - c ∧
      stepSlack b (2 * b) (2 * (10 * b)) (1 / 2 ^ 22) w ≤ c * b ^ 2 := by
    have w0 : (0 : ℝ) < w := by
      rcases hq with ⟨rfl, -⟩ | ⟨rfl, -⟩ <;> norm_num
    have e : stepSlack b (2 * b) (2 * (10 * b)) (b * (1 / 40000)) w = b ^ 2 * stepSlack 1 2 20 (1 / 40000) w := by
      rw [← stepSlack_scale]
      congr 1 <;> ring
    have h1 : stepSlack b (2 * b) (2 * (10 * b)) (1 / 2 ^ 22) w ≤ stepSlack b (2 * b) (2 * (10 * b)) (b * (1 / 40000)) w := by
      have : (1 : ℝ) / 2 ^ 22 ≤ b * (1 / 40000) := by
        norm_num at a1 ⊢
        linarith
      unfold stepSlack
      gcongr
    rw [e] at h1
    rw [mul_comm (b ^ 2)] at h1
    refine ⟨_, ?_, ?_, h1⟩
    · unfold stepSlack
      rcases hq with ⟨rfl, rfl, -⟩ | ⟨rfl, rfl, -⟩ <;> norm_num
    · unfold stepSlack
      rcases hq with ⟨rfl, rfl, -⟩ | ⟨rfl, rfl, -⟩ <;> norm_num
  have sl4 := mul_le_mul_of_nonneg_right c1 b2.le
  have sl5 := mul_le_mul_of_nonneg_right c2 b2.le
  have w0 : 0 < w := by
    rcases hq with ⟨rfl, -⟩ | ⟨rfl, -⟩ <;> norm_num
  have O : ∀ W, ∑ i ∈ Finset.range W, |jump (bursts (fun i => dBFS (L i)) s w (j + 1)) i| ≤ 2 * (10 * b) := fun W =>
    (bursts_older a0 W).trans (by linarith)
  have up := sounds_le bs 0 hp (by positivity) (cm := defaultChannelMap 2) (by decide) w0 (a := b) (R := 2 * b) (O := 2 * (10 * b))
    (fun i _ _ => hle i) (by linarith) (bursts_recent a0 (by linarith) hb hs (by omega)) (O _)
  rw [stereo_weight] at up
  have hX : ∀ i < K, |bursts (fun i => dBFS (L i)) s w (j + 1) i| + 1 / 2 ^ 22 ≤ 11 / 10 * b := by
    intro i _
    have := hle i
    norm_num at a1 ⊢
    linarith
  have X1 : (1 : ℝ) / 2 ^ 13 ≤ 11 / 10 * b := by
    norm_num at a1 ⊢
    linarith
  have X2 : 11 / 10 * b ≤ 2 ^ 60 := by
    norm_num at a2 ⊢
    linarith
  have X3 : (11 / 10 * b) ^ 2 = 121 / 100 * b ^ 2 := by ring
  obtain ⟨v, v1, v2⟩ := fine_le hm hnew hops hrun hp X1 X2 hX hq' (B := 1182278 / 10 ^ 6 * b ^ 2)
    (by linarith) (by rw [X3]; linarith)
  have u1 := (lufs_fine (x := 1001 / 1000 * (1182278 / 10 ^ 6 * b ^ 2)) (L := L j) (by rw [← hsq]; linarith)
    (by rw [← hsq]; linarith)).2
  refine ⟨v, v1, ?_, ?_⟩
  · rcases v2 with h | ⟨h1, h2⟩
    · exact .inl h
    · exact .inr ⟨h1, by linarith⟩
  · intro hK hK1 hK2
    have lo := (sounds_window bs 0 hp (by positivity) (cm := defaultChannelMap 2) (by decide) (k := K - w) w0 (by omega) (S := b)
      (R := 2 * b) (O := 2 * (10 * b)) (fun i _ => hle _) (bursts_recent a0 (by linarith) hb hs (by omega)) (O _)).1
    rw [Nat.sub_add_cancel hK, stereo_weight] at lo
    have share := bursts_share (s := s) (d := w) a0 (Nat.lt_succ_self j) (k := K - w) (x := x) (by omega) (by omega) (by omega)
    rw [hbj] at share
    have M : ((w - x : ℕ) : ℝ) / w * b ^ 2 ≤ (∑ i ∈ Finset.range w, bursts (fun i => dBFS (L i)) s w (j + 1) (K - w + i) ^ 2) / w := by
      rw [div_mul_eq_mul_div]
      exact div_le_div_of_nonneg_right share (Nat.cast_nonneg w)
    have M' := mul_le_mul_of_nonneg_left M (by norm_num : (0 : ℝ) ≤ 587138 / 10 ^ 6)
    rw [sub_mul, mul_assoc] at sl5
    have key := fine_ask hm hnew hops hrun hp X1 X2 hX hq'
    dsimp only at key
    generalize idealPower (defaultChannelMap 2) (w * 480) (K * 480) (idealOuts bs 0 48000 (heard (ieeeEnv m bs t) 2 ops)) = P at *
    obtain ⟨v', v3, v4, v5⟩ := key (by rw [X3]; linarith)
    obtain rfl : v = v' := by
      rw [v1] at v3
      injection v3 with v3
      injection v3
    have lf := lufs_fine (x := P) (L := L j) (by rw [← hsq]; linarith) (by rw [← hsq]; linarith)
    refine ⟨v4, ?_⟩
    have v5 := abs_le.1 v5
    rw [abs_le]
    constructor <;> linarith [v5.1, v5.2, lf.1, lf.2]

/-- **C77.** Cases 13 and 14. Tones of 0.4 s in silence, each at least 1 dB louder than the one before it. At each multiple of 10 ms
before the tone after number `j`, the momentary loudness is at most 0.1 LU above the level of tone `j`, or minus infinity. When
tone `j` ends, it is that level, to 0.1 LU. -/
theorem C77_momentary (hm : GoodLibm m) {mode : Mode} {e0 e : Ebu F64 F32}
    (hnew : Ebu.new (ieeeEnv m bs t) 2 48000 mode = .done (.ok e0)) {ops : List (Op F64 F32)} (hops : ∀ op ∈ ops, Feed op)
    (hrun : runOps (ieeeEnv m bs t) e0 ops = .done e) {K n j : ℕ} {φ : ℕ → ℝ} {L : ℕ → ℝ} {s : ℕ → ℕ} (hj : j < n)
    (hp : Sounds (1 / 2 ^ 22) (bursts (fun i => dBFS (L i)) s 40 n) K 2 φ (heard (ieeeEnv m bs t) 2 ops))
    (hL : -40 ≤ L j) (hL' : L j ≤ 0) (hr : ∀ i i', i < i' → i' < n → L i + 1 ≤ L i')
    (hs : ∀ i i', i < i' → i' < n → s i + 50 ≤ s i') (hK : ∀ i, j < i → i < n → K ≤ s i) :
    ∃ v : F64, ask (ieeeEnv m bs t) e .loudnessMomentary = .done (.ok v) ∧ AtMost (ieeeEnv m bs t) v (L j + 1 / 10) ∧
      (K = s j + 40 → v.Finite ∧ |v.value - L j| ≤ 1 / 10) := by
  obtain ⟨v, v1, v2, v3⟩ := bursts_ask hm hnew hops hrun (w := 40) (x := 0) (j := j) (s := s) (L := L)
    (sounds_congr hp fun i hi => bursts_prefix (by omega) fun y h1 h2 => by have := hK y (by omega) h2; omega) (.inl ⟨rfl, rfl, rfl⟩)
    hL hL' (fun i i' h1 h2 => hr i i' h1 (by omega)) fun i i' h1 h2 => hs i i' h1 (by omega)
  exact ⟨v, v1, v2, fun h => v3 (by omega) (by omega) (by omega)⟩

/-- **C77.** Cases 10 and 11. Tones of 3 s in silence, each at least 1 dB louder than the one before it. At each multiple of 10 ms
before the tone after number `j`, the short-term loudness is at most 0.1 LU above the level of tone `j`, or minus infinity. Within
50 ms of the end of tone `j`, if three seconds have been measured, it is that level, to 0.1 LU. -/
theorem C77_shortterm (hm : GoodLibm m) {mode : Mode} (hS : mode.contains Mode.S = true) {e0 e : Ebu F64 F32}
    (hnew : Ebu.new (ieeeEnv m bs t) 2 48000 mode = .done (.ok e0)) {ops : List (Op F64 F32)} (hops : ∀ op ∈ ops, Feed op)
    (hrun : runOps (ieeeEnv m bs t) e0 ops = .done e) {K n j : ℕ} {φ : ℕ → ℝ} {L : ℕ → ℝ} {s : ℕ → ℕ} (hj : j < n)
    (hp : Sounds (1 / 2 ^ 22) (bursts (fun i => dBFS (L i)) s 300 n) K 2 φ (heard (ieeeEnv m bs t) 2 ops))
    (hL : -40 ≤ L j) (hL' : L j ≤ 0) (hr : ∀ i i', i < i' → i' < n → L i + 1 ≤ L i')
    (hs : ∀ i i', i < i' → i' < n → s i + 310 ≤ s i') (hK : ∀ i, j < i → i < n → K ≤ s i) :
    ∃ v : F64, ask (ieeeEnv m bs t) e .loudnessShortterm = .done (.ok v) ∧ AtMost (ieeeEnv m bs t) v (L j + 1 / 10) ∧
      (300 ≤ K → s j + 295 ≤ K → K ≤ s j + 305 → v.Finite ∧ |v.value - L j| ≤ 1 / 10) := by
  obtain ⟨v, v1, v2, v3⟩ := bursts_ask hm hnew hops hrun (w := 300) (x := 5) (j := j) (s := s) (L := L)
    (sounds_congr hp fun i hi => bursts_prefix (by omega) fun y h1 h2 => by have := hK y (by omega) h2; omega)
    (.inr ⟨rfl, rfl, rfl, hS⟩) hL hL' (fun i i' h1 h2 => hr i i' h1 (by omega)) fun i i' h1 h2 => hs i i' h1 (by omega)
  exact ⟨v, v1, v2, fun h1 h2 h3 => v3 h1 (by omega) (by omega)⟩

/-! ## The files -/

theorem flatten_take {α : Type} {c : ℕ} : ∀ {parts : List (List α)} (k : ℕ), (∀ p ∈ parts, p.length = c) →
    (parts.take k).flatten = parts.flatten.take (k * c)
  | [], k, _ => by simp
  | p :: ps, 0, _ => by simp
  | p :: ps, k + 1, h => by
    have hp : p.length = c := h p (by simp)
    rw [List.take_succ_cons, List.flatten_cons, List.flatten_cons, flatten_take k fun q hq => h q (by simp [hq]),
      show (k + 1) * c = p.length + k * c by rw [hp]; ring, List.take_length_add_append]

theorem stepFile24_take {A : ℕ → ℝ} {K k channels : ℕ} {φ : ℕ → ℝ} (h : k ≤ K) :
    (stepFile24 A K channels φ).take (k * 480) = stepFile24 A k channels φ := by
  unfold stepFile24
  rw [← List.map_take, List.take_range, Nat.min_eq_left (Nat.mul_le_mul_right _ h)]

/-- The analyzer after any number of the parts of a file. -/
theorem parts_run (hu : 2 ^ 64 - 1 ≤ t.usizeMax) {mode : Mode} {e0 : Ebu F64 F32}
    (h0 : Ebu.new (ieeeEnv m bs t) 2 48000 mode = .done (.ok e0)) (parts : List (List (List Int32))) :
    (∀ op ∈ parts.map (fun fs => (.addFrames (.i32 fs.flatten) : Op F64 F32)), Feed op) ∧
    ∃ e, runOps (ieeeEnv m bs t) e0 (parts.map fun fs => .addFrames (.i32 fs.flatten)) = .done e := by
  constructor
  · intro op hop
    obtain ⟨fs, -, rfl⟩ := List.mem_map.1 hop
    trivial
  · exact C09_plain hu h0 (by norm_num) _ (by
      intro op hop
      obtain ⟨fs, -, rfl⟩ := List.mem_map.1 hop
      trivial)

/-- **C77.** The 24-bit files of the four cases, of any levels from -40 to -1 dBFS that rise by 1 dB or more, are read in parts of
10 ms (momentary loudness) or 100 ms (short-term loudness), and the loudness is asked after every part, as the reference tests do:
of the answers up to the beginning of the next tone, none is more than 0.1 LU above the level of tone `j`, and one is that level,
to 0.1 LU. -/
theorem C77_files (hm : GoodLibm m) (hu : 2 ^ 64 - 1 ≤ t.usizeMax) (φ : ℕ → ℝ) {w c K n j : ℕ} {query : Query} {L : ℕ → ℝ} {s : ℕ → ℕ}
    (hc : (w = 40 ∧ c = 1 ∧ query = .loudnessMomentary) ∨ (w = 300 ∧ c = 10 ∧ query = .loudnessShortterm)) (hj : j < n)
    (hL : ∀ i < n, -40 ≤ L i ∧ L i ≤ -1) (hr : ∀ i i', i < i' → i' < n → L i + 1 ≤ L i')
    (hs : ∀ i i', i < i' → i' < n → s i + (w + 10) ≤ s i') (hK : s j + w + 5 ≤ K) {parts : List (List (List Int32))}
    (hp : parts.flatten = stepFile24 (bursts (fun i => dBFS (L i)) s w n) K 2 φ) (hl : ∀ p ∈ parts, p.length = c * 480) :
    ∃ (e0 : Ebu F64 F32) (e : ℕ → Ebu F64 F32) (v : ℕ → F64), Ebu.new (ieeeEnv m bs t) 2 48000 Mode.S = .done (.ok e0) ∧
      (∀ k ≤ parts.length, runOps (ieeeEnv m bs t) e0 ((parts.take k).map fun fs => .addFrames (.i32 fs.flatten)) = .done (e k)) ∧
      (∀ k ≤ parts.length, (∀ i, j < i → i < n → k * c ≤ s i) →
        ask (ieeeEnv m bs t) (e k) query = .done (.ok (v k)) ∧ AtMost (ieeeEnv m bs t) (v k) (L j + 1 / 10)) ∧
      ∃ k ≤ parts.length, (∀ i, j < i → i < n → k * c ≤ s i) ∧ (v k).Finite ∧ |(v k).value - L j| ≤ 1 / 10 := by
  obtain ⟨e0, h0⟩ := (C01_new_64 (ieeeEnv m bs t) hu 2 48000 Mode.S).1.2 ⟨by unfold ValidArgs; decide, by decide⟩
  choose e he using fun k => (parts_run hu h0 (parts.take k)).2
  have hf := fun k => (parts_run hu h0 (parts.take k)).1
  have hlen : parts.length * c = K := by
    have h1 := congrArg List.length hp
    rw [List.length_flatten, List.map_congr_left (g := fun _ => c * 480) (fun p h => hl p h)] at h1
    simp [stepFile24] at h1
    have : parts.length * c * 480 = K * 480 := by rw [← h1]; ring
    exact Nat.eq_of_mul_eq_mul_right (by norm_num) this
  have hA : ∀ i, |bursts (fun i => dBFS (L i)) s w n i| ≤ 99 / 100 := by
    intro i
    have a0 : ∀ i < n, 0 ≤ dBFS (L i) := fun i _ => (dBFS_pos _).le
    rw [abs_of_nonneg (bursts_nonneg a0 i)]
    refine bursts_le (by norm_num) (fun y hy => ?_) hs (by omega) i
    have := dBFS_step (L := L y) (L' := 0) (by linarith [(hL y hy).2])
    have := (dBFS_range (L := 0) (by norm_num) le_rfl).2
    linarith
  have sound : ∀ k ≤ parts.length, Sounds (1 / 2 ^ 22) (bursts (fun i => dBFS (L i)) s w n) (k * c) 2 φ
      (heard (ieeeEnv m bs t) 2 ((parts.take k).map fun fs => .addFrames (.i32 fs.flatten))) := by
    intro k hk
    have hkK : k * c ≤ K := by rw [← hlen]; exact Nat.mul_le_mul_right _ hk
    refine (stepFile24_sounds (by norm_num) (fun i _ => hA i) ?_).mono (by norm_num)
    rw [flatten_take k hl, hp, ← mul_assoc, stepFile24_take hkK]
  have key : ∀ k ≤ parts.length, (∀ i, j < i → i < n → k * c ≤ s i) → ∃ v : F64, ask (ieeeEnv m bs t) (e k) query = .done (.ok v) ∧
      AtMost (ieeeEnv m bs t) v (L j + 1 / 10) ∧
      (w ≤ k * c → s j + w ≤ k * c + w / 60 → k * c ≤ s j + w + w / 60 → v.Finite ∧ |v.value - L j| ≤ 1 / 10) := by
    intro k hk hki
    have hLj := hL j hj
    rcases hc with ⟨rfl, rfl, rfl⟩ | ⟨rfl, rfl, rfl⟩
    · obtain ⟨v, v1, v2, v3⟩ := C77_momentary hm h0 (hf k) (he k) hj (sound k hk) hLj.1 (by linarith) hr hs hki
      exact ⟨v, v1, v2, fun _ h1 h2 => v3 (by omega)⟩
    · obtain ⟨v, v1, v2, v3⟩ := C77_shortterm hm (by decide) h0 (hf k) (he k) hj (sound k hk) hLj.1 (by linarith) hr hs hki
      exact ⟨v, v1, v2, fun h0 h1 h2 => v3 h0 (by omega) (by omega)⟩
  choose v hv using key
  classical
  refine ⟨e0, e, fun k => if h : k ≤ parts.length ∧ ∀ i, j < i → i < n → k * c ≤ s i then v k h.1 h.2 else Fl.zero false, h0,
    fun k _ => he k, fun k hk hki => ?_, ?_⟩
  · simp only [dif_pos (And.intro hk hki)]
    exact ⟨(hv k hk hki).1, (hv k hk hki).2.1⟩
  · obtain ⟨k, k1, k2, k3, k4⟩ : ∃ k, k * c ≤ K ∧ w ≤ k * c ∧ s j + w ≤ k * c + w / 60 ∧ k * c ≤ s j + w + w / 60 := by
      rcases hc with ⟨rfl, rfl, -⟩ | ⟨rfl, rfl, -⟩
      · exact ⟨s j + 40, by omega, by omega, by omega, by omega⟩
      · exact ⟨(s j + 304) / 10, by omega, by omega, by omega, by omega⟩
    have hk : k ≤ parts.length := by
      rcases hc with ⟨-, rfl, -⟩ | ⟨-, rfl, -⟩ <;> omega
    have hki : ∀ i, j < i → i < n → k * c ≤ s i := by
      intro i h1 h2
      have := hs j i h1 h2
      rcases hc with ⟨rfl, -⟩ | ⟨rfl, -⟩ <;> omega
    refine ⟨k, hk, hki, ?_⟩
    simp only [dif_pos (And.intro hk hki)]
    exact (hv k hk hki).2.2 k2 k3 k4

/-- Case 11: twenty tones of 3 s, from -38 to -19 dBFS, one in every 6 s and each 0.15 s later than the one before it. Up to the
beginning of tone 8 no answer exceeds -30.9 LUFS, and one is -31 LUFS, to 0.1 LU. -/
example (hm : GoodLibm m) (hu : 2 ^ 64 - 1 ≤ t.usizeMax) (φ : ℕ → ℝ) {parts : List (List (List Int32))}
    (hp : parts.flatten = stepFile24 (bursts (fun i => dBFS (-38 + i)) (fun i => 600 * i + 15 * i) 300 20) 12000 2 φ)
    (hl : ∀ p ∈ parts, p.length = 4800) :
    ∃ (e0 : Ebu F64 F32) (e : ℕ → Ebu F64 F32) (v : ℕ → F64), Ebu.new (ieeeEnv m bs t) 2 48000 Mode.S = .done (.ok e0) ∧
      (∀ k ≤ parts.length, runOps (ieeeEnv m bs t) e0 ((parts.take k).map fun fs => .addFrames (.i32 fs.flatten)) = .done (e k)) ∧
      (∀ k ≤ parts.length, (∀ i, 7 < i → i < 20 → k * 10 ≤ 600 * i + 15 * i) →
        ask (ieeeEnv m bs t) (e k) .loudnessShortterm = .done (.ok (v k)) ∧
        AtMost (ieeeEnv m bs t) (v k) (-38 + (7 : ℕ) + 1 / 10)) ∧
      ∃ k ≤ parts.length, (∀ i, 7 < i → i < 20 → k * 10 ≤ 600 * i + 15 * i) ∧ (v k).Finite ∧
        |(v k).value - (-38 + (7 : ℕ))| ≤ 1 / 10 :=
  C77_files (j := 7) (n := 20) (L := fun i => -38 + i) (s := fun i => 600 * i + 15 * i) hm hu φ (.inr ⟨rfl, rfl, rfl⟩) (by norm_num)
    (fun i hi => by
      have : (i : ℝ) ≤ 19 := by exact_mod_cast Nat.le_of_lt_succ hi
      constructor
      · have : (0 : ℝ) ≤ i := Nat.cast_nonneg i
        linarith
      · linarith)
    (fun i i' h _ => by
      have : (i : ℝ) + 1 ≤ i' := by exact_mod_cast h
      linarith)
    (fun i i' h _ => by omega) (by norm_num) hp hl

end Verif
