import Verif.Proofs.ToneRange
import Verif.Props.C72
/-!
# C73: the minimum requirements test signals of EBU Tech 3342

The four synthetic signals for the loudness range: tones of 1 kHz in stereo whose level changes every 20 s. The loudness
range an analyzer reports, in IEEE arithmetic, is within 0.5 LU of the specified one; the specification allows 1 LU. As in
C72 the claim does not depend on the phase of the tones, on the rounding of the samples (16 bits are enough) or on how they
are cut into calls.
-/

namespace Verif
open Spec
variable {m : Libm F64} {bs : BSearch} {t : Target}

/-- What is computed about a programme: its short-term blocks by the gate of the range, their least power, the percentiles of
those above the gate, and the quotients of the percentiles. -/
structure RangeProgramme (segs : List (ℕ × ℝ)) (amps : List (ℕ × ℕ)) (K V n sl sh a1 a2 b1 b2 : ℕ) (ρ1 ρ2 : ℝ) : Prop where
  rounded : Rounded segs amps
  quiet : ∀ s ∈ segs, s.2 ≤ 0
  tenths : Spec.tenths amps = K
  short : 30 ≤ K
  long : K ≤ 1000
  leaps : sumOver (leap (ampAt amps)) 0 K ≤ V
  split : Split 100 ((shortTenths K).map (shortBounds amps V 2180)) n sl sh
  floor : ∀ x ∈ (shortTenths K).map (shortBounds amps V 2180), 5472000000000000000000 ≤ x.1
  ranks : Ranks (((shortTenths K).map (shortBounds amps V 2180)).filter fun x => passes 100 n sh x.1) a1 a2 b1 b2
  least : 72000000000000000000000 ≤ a1
  pos : 0 < ρ1 ∧ 0 < ρ2
  low : ρ1 * a2 ≤ b1
  high : b2 ≤ ρ2 * a1

/-- The loudness range of such a programme. -/
theorem stereo_range (hm : GoodLibm m) (hu : 10 ^ 8 ≤ t.usizeMax) (hu' : t.usizeMax ≤ 2 ^ 64) {mode : Mode}
    (hI : mode.contains Mode.LRA = true) (hH : mode.contains Mode.HISTOGRAM = false) {e0 e : Ebu F64 F32}
    (hnew : Ebu.new (ieeeEnv m bs t) 2 48000 mode = .done (.ok e0)) {ops : List (Op F64 F32)} (hops : ∀ op ∈ ops, Feed op)
    (hrun : runOps (ieeeEnv m bs t) e0 ops = .done e) {segs : List (ℕ × ℝ)} {amps : List (ℕ × ℕ)} {L : ℝ} (hL : -30 ≤ L)
    (hL' : L ≤ 0) {φ : ℕ → ℝ} (hp : Plays (1 / 6000) segs 2 (fun _ => L) φ (heard (ieeeEnv m bs t) 2 ops))
    {K V n sl sh a1 a2 b1 b2 : ℕ} {ρ1 ρ2 : ℝ} (hM : RangeProgramme segs amps K V n sl sh a1 a2 b1 b2 ρ1 ρ2) {R : ℝ}
    (h1 : (10 : ℝ) ^ ((R - 12 / 25) / 10) ≤ ρ1) (h2 : ρ2 ≤ (10 : ℝ) ^ ((R + 12 / 25) / 10)) :
    ∃ v : F64, ask (ieeeEnv m bs t) e .loudnessRange = .done (.ok v) ∧ v.Finite ∧ |v.value - R| ≤ 1 / 2 := by
  obtain ⟨f1, f2, f3, f4, f5, f6, f7⟩ := fresh hnew hH
  obtain ⟨l1, l2, l3, l4⟩ := level_bounds (by linarith) hL'
  have l5 : 1 / 10 ^ 3 ≤ (10 : ℝ) ^ (L / 10) := by
    rw [show (1 : ℝ) / 10 ^ 3 = 10 ^ (-3 : ℝ) by rw [Real.rpow_neg (by norm_num), one_div]; norm_num]
    exact Real.rpow_le_rpow_of_exponent_le (by norm_num) (by linarith)
  obtain ⟨m1, m2, rfl, m4, m5, m6, m7, m8, m9, m10, ⟨m11, m12⟩, m13, m14⟩ := hM
  obtain ⟨v, hv1, hv2, hv3, hv4⟩ := tones_range (bs := bs) (t := t) (X := 1001 / 1000 * (10 : ℝ) ^ (L / 20)) (ε := 2180)
    (gain := fun _ => L) (μ := 38 / 10 ^ 5)
    le_rfl hm.log hm.elem hm.hundredth hu' (Started.new hnew) f1 f7 (by rw [f4]; exact hI) f6 hops hrun
    (by rw [f2]; exact hp) m1 (by norm_num) m2
    (m5.trans (by
      have : 1000 ≤ t.usizeMax / 3000 := (Nat.le_div_iff_mul_le (by norm_num)).2 (by omega)
      exact this)) (by omega) (by omega) m4 (by norm_num; linarith) (by norm_num; linarith)
    (fun c _ => mul_le_mul_of_nonneg_right (by norm_num) (by positivity))
    (by
      rw [f3, stereo_weight, stereo_power, mul_pow, l3]
      norm_num
      linarith) m6 (by norm_num) m7 (by norm_num) (by norm_num) (by rw [f3, stereo_power]; norm_num at l5 ⊢; linarith)
    (fun j hj => by
      have : ((5472000000000000000000 : ℕ) : ℝ) ≤ _ := Nat.cast_le.2 (m8 _ (List.mem_map.2 ⟨j, hj, rfl⟩))
      refine le_trans ?_ this
      norm_num) m9 (by
      have : ((72000000000000000000000 : ℕ) : ℝ) ≤ _ := Nat.cast_le.2 m10
      refine le_trans ?_ this
      norm_num) m11 m12 m13 m14
  refine ⟨v, hv1, hv2, ?_⟩
  have g1 := (Real.le_logb_iff_rpow_le (by norm_num) m11).2 h1
  have g2 := (Real.logb_le_iff_le_rpow (by norm_num) m12).2 h2
  rw [abs_le]
  constructor <;> linarith

theorem near_ratio {R ρ1 ρ2 : ℝ} (p1 q1 p2 q2 : ℕ) (n1 : q1 ≠ 0) (n2 : q2 ≠ 0) (r1 : 0 ≤ ρ1) (r2 : 0 ≤ ρ2)
    (h1 : (10 : ℝ) ^ p1 ≤ ρ1 ^ q1) (h2 : ρ2 ^ q2 ≤ (10 : ℝ) ^ p2) (h3 : (R - 12 / 25) / 10 ≤ (p1 : ℝ) / q1)
    (h4 : (p2 : ℝ) / q2 ≤ (R + 12 / 25) / 10) :
    (10 : ℝ) ^ ((R - 12 / 25) / 10) ≤ ρ1 ∧ ρ2 ≤ (10 : ℝ) ^ ((R + 12 / 25) / 10) :=
  ⟨(Real.rpow_le_rpow_of_exponent_le (by norm_num) h3).trans (rpow_le_of_pow n1 r1 h1),
    (le_rpow_of_pow n2 r2 h2).trans (Real.rpow_le_rpow_of_exponent_le (by norm_num) h4)⟩

/-! ## Case 1 -/

theorem range1_rounded : Rounded [(200, 0), (200, -10)] [(200, 1000000), (200, 316228)] := by
  have h10 : |((316228 : ℕ) : ℝ) / 10 ^ 6 - (10 : ℝ) ^ (-10 / 20 : ℝ)| ≤ 1 / 10 ^ 6 :=
    att_near 1 2 (by norm_num) (by norm_num) (by norm_num) (by norm_num) (by norm_num)
  exact .cons ⟨rfl, by norm_num⟩ (.cons ⟨rfl, h10⟩ .nil)

def range1 : List (ℕ × ℕ) := (shortTenths 400).map (shortBounds [(200, 1000000), (200, 316228)] 1683772 2180)

set_option maxRecDepth 100000 in
theorem range1_leaps : sumOver (leap (ampAt [(200, 1000000), (200, 316228)])) 0 400 ≤ 1683772 := by decide +kernel

set_option maxRecDepth 100000 in
theorem range1_split : Split 100 range1 38 174843409297612740383744000 178567044167010450221056000 :=
  ⟨by decide +kernel, by decide +kernel, by decide +kernel, by decide +kernel⟩

set_option maxRecDepth 100000 in
theorem range1_floor : ∀ x ∈ range1, 5472000000000000000000 ≤ x.1 := by decide +kernel

set_option maxRecDepth 100000 in
theorem range1_ranks : Ranks (range1.filter fun x => passes 100 38 178567044167010450221056000 x.1) 823884636489824964608000 867076745858764014592000
    8386645824790128642560000 8522942975209871357440000 :=
  ⟨by decide +kernel, by decide +kernel, by decide +kernel, by decide +kernel, by decide +kernel⟩

theorem range1_programme : RangeProgramme [(200, 0), (200, -10)] [(200, 1000000), (200, 316228)] 400 1683772 38
    174843409297612740383744000 178567044167010450221056000 823884636489824964608000 867076745858764014592000
    8386645824790128642560000 8522942975209871357440000 (9) (111 / 10) where
  rounded := range1_rounded
  quiet := by simp
  tenths := rfl
  short := by norm_num
  long := by norm_num
  leaps := range1_leaps
  split := range1_split
  floor := range1_floor
  ranks := range1_ranks
  least := by norm_num
  pos := by norm_num
  low := by norm_num
  high := by norm_num

/-- **C73.** Case 1: 20 s at the reference level and 20 s 10 dB lower: 10 LU. -/
theorem C73_first (hm : GoodLibm m) (hu : 10 ^ 8 ≤ t.usizeMax) (hu' : t.usizeMax ≤ 2 ^ 64) {mode : Mode}
    (hI : mode.contains Mode.LRA = true) (hH : mode.contains Mode.HISTOGRAM = false) {e0 e : Ebu F64 F32}
    (hnew : Ebu.new (ieeeEnv m bs t) 2 48000 mode = .done (.ok e0)) {ops : List (Op F64 F32)} (hops : ∀ op ∈ ops, Feed op)
    (hrun : runOps (ieeeEnv m bs t) e0 ops = .done e) {L : ℝ} (hL : -30 ≤ L) (hL' : L ≤ 0) {φ : ℕ → ℝ}
    (hp : Plays (1 / 6000) [(200, 0), (200, -10)] 2 (fun _ => L) φ (heard (ieeeEnv m bs t) 2 ops)) :
    ∃ v : F64, ask (ieeeEnv m bs t) e .loudnessRange = .done (.ok v) ∧ v.Finite ∧ |v.value - 10| ≤ 1 / 2 := by
  obtain ⟨h1, h2⟩ := near_ratio (R := 10) (ρ1 := 9) (ρ2 := 111 / 10) 20 21 22 21 (by norm_num) (by norm_num) (by norm_num) (by norm_num)
    (by norm_num) (by norm_num) (by norm_num) (by norm_num)
  exact stereo_range hm hu hu' hI hH hnew hops hrun hL hL' hp range1_programme h1 h2

/-! ## Case 2 -/

theorem range2_rounded : Rounded [(200, -5), (200, 0)] [(200, 562341), (200, 1000000)] := by
  have h5 : |((562341 : ℕ) : ℝ) / 10 ^ 6 - (10 : ℝ) ^ (-5 / 20 : ℝ)| ≤ 1 / 10 ^ 6 :=
    att_near 1 4 (by norm_num) (by norm_num) (by norm_num) (by norm_num) (by norm_num)
  exact .cons ⟨rfl, h5⟩ (.cons ⟨rfl, by norm_num⟩ .nil)

def range2 : List (ℕ × ℕ) := (shortTenths 400).map (shortBounds [(200, 562341), (200, 1000000)] 1000000 2180)

set_option maxRecDepth 100000 in
theorem range2_leaps : sumOver (leap (ampAt [(200, 562341), (200, 1000000)])) 0 400 ≤ 1000000 := by decide +kernel

set_option maxRecDepth 100000 in
theorem range2_split : Split 100 range2 38 209332437258421390184800000 213547980756428184418400000 :=
  ⟨by decide +kernel, by decide +kernel, by decide +kernel, by decide +kernel⟩

set_option maxRecDepth 100000 in
theorem range2_floor : ∀ x ∈ range2, 5472000000000000000000 ≤ x.1 := by decide +kernel

set_option maxRecDepth 100000 in
theorem range2_ranks : Ranks (range2.filter fun x => passes 100 38 213547980756428184418400000 x.1) 2635290164763027203200000 2711985141281687249600000
    8386652060000000000000000 8522936740000000000000000 :=
  ⟨by decide +kernel, by decide +kernel, by decide +kernel, by decide +kernel, by decide +kernel⟩

theorem range2_programme : RangeProgramme [(200, -5), (200, 0)] [(200, 562341), (200, 1000000)] 400 1000000 38
    209332437258421390184800000 213547980756428184418400000 2635290164763027203200000 2711985141281687249600000
    8386652060000000000000000 8522936740000000000000000 (286 / 100) (35 / 10) where
  rounded := range2_rounded
  quiet := by simp
  tenths := rfl
  short := by norm_num
  long := by norm_num
  leaps := range2_leaps
  split := range2_split
  floor := range2_floor
  ranks := range2_ranks
  least := by norm_num
  pos := by norm_num
  low := by norm_num
  high := by norm_num

/-- **C73.** Case 2: 20 s 5 dB below the reference level and 20 s at it: 5 LU. -/
theorem C73_second (hm : GoodLibm m) (hu : 10 ^ 8 ≤ t.usizeMax) (hu' : t.usizeMax ≤ 2 ^ 64) {mode : Mode}
    (hI : mode.contains Mode.LRA = true) (hH : mode.contains Mode.HISTOGRAM = false) {e0 e : Ebu F64 F32}
    (hnew : Ebu.new (ieeeEnv m bs t) 2 48000 mode = .done (.ok e0)) {ops : List (Op F64 F32)} (hops : ∀ op ∈ ops, Feed op)
    (hrun : runOps (ieeeEnv m bs t) e0 ops = .done e) {L : ℝ} (hL : -30 ≤ L) (hL' : L ≤ 0) {φ : ℕ → ℝ}
    (hp : Plays (1 / 6000) [(200, -5), (200, 0)] 2 (fun _ => L) φ (heard (ieeeEnv m bs t) 2 ops)) :
    ∃ v : F64, ask (ieeeEnv m bs t) e .loudnessRange = .done (.ok v) ∧ v.Finite ∧ |v.value - 5| ≤ 1 / 2 := by
  obtain ⟨h1, h2⟩ := near_ratio (R := 5) (ρ1 := 286 / 100) (ρ2 := 35 / 10) 5 11 6 11 (by norm_num) (by norm_num) (by norm_num) (by norm_num)
    (by norm_num) (by norm_num) (by norm_num) (by norm_num)
  exact stereo_range hm hu hu' hI hH hnew hops hrun hL hL' hp range2_programme h1 h2

/-! ## Case 3 -/

theorem range3_rounded : Rounded [(200, -20), (200, 0)] [(200, 100000), (200, 1000000)] := by
  have h20 : |((100000 : ℕ) : ℝ) / 10 ^ 6 - (10 : ℝ) ^ (-20 / 20 : ℝ)| ≤ 1 / 10 ^ 6 :=
    att_near 1 1 (by norm_num) (by norm_num) (by norm_num) (by norm_num) (by norm_num)
  exact .cons ⟨rfl, h20⟩ (.cons ⟨rfl, by norm_num⟩ .nil)

def range3 : List (ℕ × ℕ) := (shortTenths 400).map (shortBounds [(200, 100000), (200, 1000000)] 1000000 2180)

set_option maxRecDepth 100000 in
theorem range3_leaps : sumOver (leap (ampAt [(200, 100000), (200, 1000000)])) 0 400 ≤ 1000000 := by decide +kernel

set_option maxRecDepth 100000 in
theorem range3_split : Split 100 range3 38 160648254785600000000000000 163846754286400000000000000 :=
  ⟨by decide +kernel, by decide +kernel, by decide +kernel, by decide +kernel⟩

set_option maxRecDepth 100000 in
theorem range3_floor : ∀ x ∈ range3, 5472000000000000000000 ≤ x.1 := by decide +kernel

set_option maxRecDepth 100000 in
theorem range3_ranks : Ranks (range3.filter fun x => passes 100 38 163846754286400000000000000 x.1) 77672607200000000000000 91423280800000000000000
    8386652060000000000000000 8522936740000000000000000 :=
  ⟨by decide +kernel, by decide +kernel, by decide +kernel, by decide +kernel, by decide +kernel⟩

theorem range3_programme : RangeProgramme [(200, -20), (200, 0)] [(200, 100000), (200, 1000000)] 400 1000000 38
    160648254785600000000000000 163846754286400000000000000 77672607200000000000000 91423280800000000000000
    8386652060000000000000000 8522936740000000000000000 (90) (111) where
  rounded := range3_rounded
  quiet := by simp
  tenths := rfl
  short := by norm_num
  long := by norm_num
  leaps := range3_leaps
  split := range3_split
  floor := range3_floor
  ranks := range3_ranks
  least := by norm_num
  pos := by norm_num
  low := by norm_num
  high := by norm_num

/-- **C73.** Case 3: 20 s 20 dB below the reference level and 20 s at it: 20 LU. -/
theorem C73_third (hm : GoodLibm m) (hu : 10 ^ 8 ≤ t.usizeMax) (hu' : t.usizeMax ≤ 2 ^ 64) {mode : Mode}
    (hI : mode.contains Mode.LRA = true) (hH : mode.contains Mode.HISTOGRAM = false) {e0 e : Ebu F64 F32}
    (hnew : Ebu.new (ieeeEnv m bs t) 2 48000 mode = .done (.ok e0)) {ops : List (Op F64 F32)} (hops : ∀ op ∈ ops, Feed op)
    (hrun : runOps (ieeeEnv m bs t) e0 ops = .done e) {L : ℝ} (hL : -30 ≤ L) (hL' : L ≤ 0) {φ : ℕ → ℝ}
    (hp : Plays (1 / 6000) [(200, -20), (200, 0)] 2 (fun _ => L) φ (heard (ieeeEnv m bs t) 2 ops)) :
    ∃ v : F64, ask (ieeeEnv m bs t) e .loudnessRange = .done (.ok v) ∧ v.Finite ∧ |v.value - 20| ≤ 1 / 2 := by
  obtain ⟨h1, h2⟩ := near_ratio (R := 20) (ρ1 := 90) (ρ2 := 111) 41 21 43 21 (by norm_num) (by norm_num) (by norm_num) (by norm_num)
    (by norm_num) (by norm_num) (by norm_num) (by norm_num)
  exact stereo_range hm hu hu' hI hH hnew hops hrun hL hL' hp range3_programme h1 h2

/-! ## Case 4 -/

theorem range4_rounded : Rounded [(200, -30), (200, -15), (200, 0), (200, -15), (200, -30)] [(200, 31623), (200, 177828), (200, 1000000), (200, 177828), (200, 31623)] := by
  have h30 : |((31623 : ℕ) : ℝ) / 10 ^ 6 - (10 : ℝ) ^ (-30 / 20 : ℝ)| ≤ 1 / 10 ^ 6 :=
    att_near 3 2 (by norm_num) (by norm_num) (by norm_num) (by norm_num) (by norm_num)
  have h15 : |((177828 : ℕ) : ℝ) / 10 ^ 6 - (10 : ℝ) ^ (-15 / 20 : ℝ)| ≤ 1 / 10 ^ 6 :=
    att_near 3 4 (by norm_num) (by norm_num) (by norm_num) (by norm_num) (by norm_num)
  exact .cons ⟨rfl, h30⟩ (.cons ⟨rfl, h15⟩ (.cons ⟨rfl, by norm_num⟩ (.cons ⟨rfl, h15⟩ (.cons ⟨rfl, h30⟩ .nil))))

def range4 : List (ℕ × ℕ) := (shortTenths 1000).map (shortBounds [(200, 31623), (200, 177828), (200, 1000000), (200, 177828), (200, 31623)] 1968377 2180)

set_option maxRecDepth 100000 in
theorem range4_leaps : sumOver (leap (ampAt [(200, 31623), (200, 177828), (200, 1000000), (200, 177828), (200, 31623)])) 0 1000 ≤ 1968377 := by decide +kernel

set_option maxRecDepth 100000 in
theorem range4_split : Split 100 range4 98 177854835811602653859168000 182368653795632330406432000 :=
  ⟨by decide +kernel, by decide +kernel, by decide +kernel, by decide +kernel⟩

set_option maxRecDepth 100000 in
theorem range4_floor : ∀ x ∈ range4, 5472000000000000000000 ≤ x.1 := by decide +kernel

set_option maxRecDepth 100000 in
theorem range4_ranks : Ranks (range4.filter fun x => passes 100 98 182368653795632330406432000 x.1) 255189307532617391328000 279539196318456067872000
    8386643185424878859360000 8522945614575121140640000 :=
  ⟨by decide +kernel, by decide +kernel, by decide +kernel, by decide +kernel, by decide +kernel⟩

theorem range4_programme : RangeProgramme [(200, -30), (200, -15), (200, 0), (200, -15), (200, -30)] [(200, 31623), (200, 177828), (200, 1000000), (200, 177828), (200, 31623)] 1000 1968377 98
    177854835811602653859168000 182368653795632330406432000 255189307532617391328000 279539196318456067872000
    8386643185424878859360000 8522945614575121140640000 (286 / 10) (35) where
  rounded := range4_rounded
  quiet := by simp
  tenths := rfl
  short := by norm_num
  long := by norm_num
  leaps := range4_leaps
  split := range4_split
  floor := range4_floor
  ranks := range4_ranks
  least := by norm_num
  pos := by norm_num
  low := by norm_num
  high := by norm_num

/-- **C73.** Case 4: 20 s each at -30, -15, 0, -15, -30 dB relative to the reference level: 15 LU. The parts at -30 dB are below
the gate of the range. -/
theorem C73_fourth (hm : GoodLibm m) (hu : 10 ^ 8 ≤ t.usizeMax) (hu' : t.usizeMax ≤ 2 ^ 64) {mode : Mode}
    (hI : mode.contains Mode.LRA = true) (hH : mode.contains Mode.HISTOGRAM = false) {e0 e : Ebu F64 F32}
    (hnew : Ebu.new (ieeeEnv m bs t) 2 48000 mode = .done (.ok e0)) {ops : List (Op F64 F32)} (hops : ∀ op ∈ ops, Feed op)
    (hrun : runOps (ieeeEnv m bs t) e0 ops = .done e) {L : ℝ} (hL : -30 ≤ L) (hL' : L ≤ 0) {φ : ℕ → ℝ}
    (hp : Plays (1 / 6000) [(200, -30), (200, -15), (200, 0), (200, -15), (200, -30)] 2 (fun _ => L) φ (heard (ieeeEnv m bs t) 2 ops)) :
    ∃ v : F64, ask (ieeeEnv m bs t) e .loudnessRange = .done (.ok v) ∧ v.Finite ∧ |v.value - 15| ≤ 1 / 2 := by
  obtain ⟨h1, h2⟩ := near_ratio (R := 15) (ρ1 := 286 / 10) (ρ2 := 35) 16 11 17 11 (by norm_num) (by norm_num) (by norm_num) (by norm_num)
    (by norm_num) (by norm_num) (by norm_num) (by norm_num)
  exact stereo_range hm hu hu' hI hH hnew hops hrun hL hL' hp range4_programme h1 h2

/-! ## The files -/

/-- **C73.** The 16-bit files of the four cases, whatever the phases of the two channels, read in any number of calls of any
sizes. -/
theorem C73_files (hm : GoodLibm m) (hu : t.usizeMax = 2 ^ 64 - 1) (φ : ℕ → ℝ) {segs : List (ℕ × ℝ)} {L R : ℝ}
    (hc : (segs = [(200, 0), (200, -10)] ∧ L = -20 ∧ R = 10) ∨ (segs = [(200, -5), (200, 0)] ∧ L = -15 ∧ R = 5) ∨
      (segs = [(200, -20), (200, 0)] ∧ L = -20 ∧ R = 20) ∨
      (segs = [(200, -30), (200, -15), (200, 0), (200, -15), (200, -30)] ∧ L = -20 ∧ R = 15))
    {parts : List (List (List Int16))} (hp : parts.flatten = file16 segs 2 (fun _ => L) φ) :
    ∃ (e0 e : Ebu F64 F32) (v : F64), Ebu.new (ieeeEnv m bs t) 2 48000 Mode.LRA = .done (.ok e0) ∧
      runOps (ieeeEnv m bs t) e0 (parts.map fun fs => .addFrames (.i16 fs.flatten)) = .done e ∧
      ask (ieeeEnv m bs t) e .loudnessRange = .done (.ok v) ∧ v.Finite ∧ |v.value - R| ≤ 1 / 2 := by
  have hu64 : 2 ^ 64 - 1 ≤ t.usizeMax := hu.ge
  have hu8 : 10 ^ 8 ≤ t.usizeMax := le_trans (by norm_num) hu64
  have hu' : t.usizeMax ≤ 2 ^ 64 := by omega
  obtain ⟨e0, h0⟩ := (C01_new_64 (ieeeEnv m bs t) hu64 2 48000 Mode.LRA).1.2 ⟨by unfold ValidArgs; decide, by decide⟩
  obtain ⟨e, h1⟩ := C09_plain hu64 h0 (by norm_num) (parts.map fun fs => .addFrames (.i16 fs.flatten)) (by
    intro op hop
    obtain ⟨fs, -, rfl⟩ := List.mem_map.1 hop
    trivial)
  have hf : ∀ op ∈ parts.map (fun fs => (.addFrames (.i16 fs.flatten) : Op F64 F32)), Feed op := by
    intro op hop
    obtain ⟨fs, -, rfl⟩ := List.mem_map.1 hop
    trivial
  have hI : Mode.LRA.contains Mode.LRA = true := by decide
  have hH : Mode.LRA.contains Mode.HISTOGRAM = false := by decide
  have g20 : (1 : ℝ) / 65536 ≤ 1 / 6000 * (10 : ℝ) ^ (-20 / 20 : ℝ) := by
    rw [show (-20 / 20 : ℝ) = -1 by norm_num, Real.rpow_neg_one]
    norm_num
  have g15 : (1 : ℝ) / 65536 ≤ 1 / 6000 * (10 : ℝ) ^ (-15 / 20 : ℝ) :=
    g20.trans (mul_le_mul_of_nonneg_left (Real.rpow_le_rpow_of_exponent_le (by norm_num) (by norm_num)) (by norm_num))
  refine ⟨e0, e, ?_⟩
  rcases hc with ⟨rfl, rfl, rfl⟩ | ⟨rfl, rfl, rfl⟩ | ⟨rfl, rfl, rfl⟩ | ⟨rfl, rfl, rfl⟩
  · obtain ⟨v, hv⟩ := C73_first hm hu8 hu' hI hH h0 hf h1 (L := -20) (by norm_num) (by norm_num)
      (file16_plays (by norm_num) (by simp) (fun c _ => ⟨by norm_num, g20⟩) hp)
    exact ⟨v, h0, h1, hv⟩
  · obtain ⟨v, hv⟩ := C73_second hm hu8 hu' hI hH h0 hf h1 (L := -15) (by norm_num) (by norm_num)
      (file16_plays (by norm_num) (by simp) (fun c _ => ⟨by norm_num, g15⟩) hp)
    exact ⟨v, h0, h1, hv⟩
  · obtain ⟨v, hv⟩ := C73_third hm hu8 hu' hI hH h0 hf h1 (L := -20) (by norm_num) (by norm_num)
      (file16_plays (by norm_num) (by simp) (fun c _ => ⟨by norm_num, g20⟩) hp)
    exact ⟨v, h0, h1, hv⟩
  · obtain ⟨v, hv⟩ := C73_fourth hm hu8 hu' hI hH h0 hf h1 (L := -20) (by norm_num) (by norm_num)
      (file16_plays (by norm_num) (by simp) (fun c _ => ⟨by norm_num, g20⟩) hp)
    exact ⟨v, h0, h1, hv⟩

/-- The file of case 4 read in one call, with the elementary functions of the earlier examples. -/
example (bs : BSearch) (h64 : t.usizeMax = 2 ^ 64 - 1) :
    ∃ (e0 e : Ebu F64 F32) (v : F64), Ebu.new (ieeeEnv Demo.libm57 bs t) 2 48000 Mode.LRA = .done (.ok e0) ∧
      runOps (ieeeEnv Demo.libm57 bs t) e0 [.addFrames (.i16 (file16
        [(200, -30), (200, -15), (200, 0), (200, -15), (200, -30)] 2 (fun _ => -20) fun _ => 0).flatten)] = .done e ∧
      ask (ieeeEnv Demo.libm57 bs t) e .loudnessRange = .done (.ok v) ∧ v.Finite ∧ |v.value - 15| ≤ 1 / 2 :=
  C73_files Demo.good57 h64 (fun _ => 0) (.inr (.inr (.inr ⟨rfl, rfl, rfl⟩)))
    (parts := [file16 [(200, -30), (200, -15), (200, 0), (200, -15), (200, -30)] 2 (fun _ => -20) fun _ => 0]) (by simp)

end Verif
