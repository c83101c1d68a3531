{
 "claims": [
  {
   "property": "C01",
   "status": "proved",
   "theorems": [
    "Verif.C01_new",
    "Verif.C01_new_64",
    "Verif.C01_new_32_panics",
    "Verif.C01_flags"
   ],
   "note": ""
  },
  {
   "property": "C02",
   "status": "proved",
   "theorems": [
    "Verif.C02_new",
    "Verif.C02_change"
   ],
   "note": ""
  },
  {
   "property": "C03",
   "status": "proved",
   "theorems": [
    "Verif.C03_setChannel",
    "Verif.C03_setChannelMap"
   ],
   "note": ""
  },
  {
   "property": "C04",
   "status": "proved",
   "theorems": [
    "Verif.C04_invariants"
   ],
   "note": ""
  },
  {
   "property": "C05",
   "status": "proved",
   "theorems": [
    "Verif.C05_config_error",
    "Verif.C05_add_error",
    "Verif.C05_add_rejected",
    "Verif.C05_add_error_low_rate"
   ],
   "note": "Strong form: the whole state is unchanged. C05_add_error_low_rate is the documented exception (low rates with LRA, where add_frames fails midway)."
  },
  {
   "property": "C06",
   "status": "proved",
   "theorems": [
    "Verif.C06_same",
    "Verif.C06_change",
    "Verif.C06_accepts",
    "Verif.C06_rejects"
   ],
   "note": ""
  },
  {
   "property": "C07",
   "status": "proved",
   "theorems": [
    "Verif.C07_setMaxWindow",
    "Verif.C07_accepts"
   ],
   "note": ""
  },
  {
   "property": "C08",
   "status": "partial",
   "theorems": [
    "Verif.C08_partial",
    "Verif.C08_content_partial",
    "Verif.C08_after",
    "Verif.C08_arrive",
    "Verif.C08_reset",
    "Verif.C08_padding",
    "Verif.C08_no_truncation"
   ],
   "note": "The code violates the claim once set_max_history is called; C08_padding and C08_no_truncation prove the two violations. C08_after and C08_arrive say exactly what the queues contain after a call; C08_partial and C08_content_partial hold for analyzers on which set_max_history was never called; C08_reset proves the full claim after a reset, until the limit is changed again."
  },
  {
   "property": "C09",
   "status": "proved",
   "theorems": [
    "Verif.C09_call",
    "Verif.C09_history",
    "Verif.C09_plain",
    "Verif.C09_query",
    "Verif.C09_query_multiple",
    "Verif.C09_low_rate",
    "Verif.C09_wrong_width"
   ],
   "note": "On 64-bit targets; the queries hold for every IEEE target. Memory exhaustion is not modelled."
  },
  {
   "property": "C10",
   "status": "proved",
   "theorems": [
    "Verif.C10_momentary",
    "Verif.C10_momentary_ok",
    "Verif.C10_momentary_fails",
    "Verif.C10_shortterm",
    "Verif.C10_shortterm_ok",
    "Verif.C10_shortterm_fails",
    "Verif.C10_shortterm_without_S"
   ],
   "note": ""
  },
  {
   "property": "C11",
   "status": "proved",
   "theorems": [
    "Verif.C11_state",
    "Verif.C11_queries",
    "Verif.C11_after",
    "Verif.C11_f64",
    "Verif.C11_f32",
    "Verif.C11_i16",
    "Verif.C11_i32"
   ],
   "note": "SSE2 targets; any two successful feeding histories from the same state delivering the same frames, in any mixture of chunk sizes, layouts and failed calls, agree in the whole state except the peaks of the last call."
  },
  {
   "property": "C12",
   "status": "proved",
   "theorems": [
    "Verif.C12_differs",
    "Verif.C12_aligned",
    "Verif.C12_peaks"
   ],
   "note": "C12_differs is the negation of chunk independence without SSE2, for every new or reset analyzer with finite coefficients and a first feedback coefficient of at least 2^-53 in magnitude (Demo.softCoef: true at the usual rates). C12_aligned and C12_peaks hold on every target. C12_aligned is about calls of add_frames after any feeding history."
  },
  {
   "property": "C13",
   "status": "proved",
   "theorems": [
    "Verif.C13_blocks"
   ],
   "note": "Any feeding history (all sample types, seeding included) after new, reset or an effective change_parameters, with configuration calls in between; hardware flush-to-zero targets; rates/windows for which add_frames does not fail (Adequate, always true from 146 Hz)."
  },
  {
   "property": "C14",
   "status": "proved",
   "theorems": [
    "Verif.C14_blocks"
   ],
   "note": "Same setting as C13."
  },
  {
   "property": "C15",
   "status": "proved",
   "theorems": [
    "Verif.C15_windows",
    "Verif.C15_exactly"
   ],
   "note": "Same setting as C13; the summation order inside the window is that of the ring buffer (a permutation, C15_exactly)."
  },
  {
   "property": "C16",
   "status": "proved",
   "theorems": [
    "Verif.C16_planar"
   ],
   "note": ""
  },
  {
   "property": "C17",
   "status": "proved",
   "theorems": [
    "Verif.C17_add",
    "Verif.C17_seed",
    "Verif.C17_subnormal"
   ],
   "note": "Needs that no f32 sample is subnormal on targets with flush-to-zero; C17_subnormal is a witness that the equivalence fails otherwise."
  },
  {
   "property": "C18",
   "status": "proved",
   "theorems": [
    "Verif.C18_rejects",
    "Verif.C18_accepts",
    "Verif.C18_empty"
   ],
   "note": ""
  },
  {
   "property": "C19",
   "status": "proved",
   "theorems": [
    "Verif.C19_sample_peak",
    "Verif.C19_unique",
    "Verif.C19_exact_int",
    "Verif.C19_exact_float",
    "Verif.C19_monotone"
   ],
   "note": "All sample types; f64 subnormals count as zero on SSE2 (flush-to-zero), NaN is ignored. Failed add_frames calls (low-rate LRA defect) do not count."
  },
  {
   "property": "C20",
   "status": "proved",
   "theorems": [
    "Verif.C20_prev_sample_peak"
   ],
   "note": ""
  },
  {
   "property": "C21",
   "status": "proved",
   "theorems": [
    "Verif.C21_bounds",
    "Verif.C21_overall",
    "Verif.C21_monotone",
    "Verif.C21_start",
    "Verif.C21_high_rate_prev",
    "Verif.C21_high_rate",
    "Verif.C21_rate_change_keeps"
   ],
   "note": "Equality of overall true and sample peak at >= 192 kHz needs a history at such rates: a rate-only change_parameters keeps the overall peaks (witness in the file)."
  },
  {
   "property": "C22",
   "status": "proved",
   "theorems": [
    "Verif.C22_interpolator",
    "Verif.C22_oversampling"
   ],
   "note": ""
  },
  {
   "property": "C23",
   "status": "proved",
   "theorems": [
    "Verif.C23_buffer",
    "Verif.C23_indices"
   ],
   "note": ""
  },
  {
   "property": "C24",
   "status": "proved",
   "theorems": [
    "Verif.C24_true_peak",
    "Verif.C24_prev_true_peak",
    "Verif.C24_channels",
    "Verif.C24_mono"
   ],
   "note": "Histories in which well-formed add_frames calls succeed (fails only with the low-rate LRA defect)."
  },
  {
   "property": "C25",
   "status": "proved",
   "theorems": [
    "Verif.C25_unused",
    "Verif.C25_multiple"
   ],
   "note": "every target, any arithmetic, from any state; also over several analyzers, and including the histories the results are computed from"
  },
  {
   "property": "C26",
   "status": "proved",
   "theorems": [
    "Verif.C26_weights",
    "Verif.C26_energy",
    "Verif.C26_exact"
   ],
   "note": "C26_energy: exact expression in code order, any arithmetic including rounding; C26_exact: in exact real arithmetic the reported values are 10*log10(sum of weight * mean square) - 0.691"
  },
  {
   "property": "C27",
   "status": "proved",
   "theorems": [
    "Verif.C27_dual_mono",
    "Verif.C27_new"
   ],
   "note": "every target; any two weight-one channel types on the stereo side; also the peaks. Rates/windows where the analyzer works at all (Adequate; see C08)"
  },
  {
   "property": "C28",
   "status": "proved",
   "theorems": [
    "Verif.C28_swap",
    "Verif.C28_new"
   ],
   "note": "every target; any pair of channel types whose weights are exchanged too"
  },
  {
   "property": "C29",
   "status": "proved",
   "theorems": [
    "Verif.C29_inversion"
   ],
   "note": "every target and sample type; integer samples must not be the minimum, which has no opposite (Demo.invert_report)"
  },
  {
   "property": "C30",
   "status": "proved",
   "theorems": [
    "Verif.C30_search",
    "Verif.C30_low",
    "Verif.C30_tables",
    "Verif.C30_values",
    "Verif.C30_add"
   ],
   "note": ""
  },
  {
   "property": "C31",
   "status": "proved",
   "theorems": [
    "Verif.C31_add",
    "Verif.C31_ungated",
    "Verif.C31_blocks",
    "Verif.C31_silence",
    "Verif.C31_windows",
    "Verif.C31_nothing"
   ],
   "note": "Every target (through C61). Silence theorems: finite filter coefficients (a fact about tan and powf), nothing stored before. After set_max_history has padded the queue the threshold of a silent analyzer is -inf (Demo.padded_report)."
  },
  {
   "property": "C32",
   "status": "proved",
   "theorems": [
    "Verif.C32_integrated",
    "Verif.C32_stored",
    "Verif.C32_passes"
   ],
   "note": "0.1 is powf(10, -1) as the libm computes it; that one block passes needs this value to be non-negative and at most 1/4."
  },
  {
   "property": "C33",
   "status": "proved",
   "theorems": [
    "Verif.C33_gating",
    "Verif.C33_loudness",
    "Verif.C33_gate",
    "Verif.C33_counts",
    "Verif.C33_run",
    "Verif.C33_exact"
   ],
   "note": "The relative gate has to be a number (C33_gate says when it is). Equality with gating a list of bin centres holds in exact arithmetic (C33_exact); in IEEE arithmetic the sum is formed bin by bin."
  },
  {
   "property": "C34",
   "status": "proved",
   "theorems": [
    "Verif.C34_energy",
    "Verif.C34_mean"
   ],
   "note": "Bound 0.05 dB plus 1e-9 dB for the rounding of the tables."
  },
  {
   "property": "C35",
   "status": "proved",
   "theorems": [
    "Verif.C35_some",
    "Verif.C35_none",
    "Verif.C35_queue"
   ],
   "note": ""
  },
  {
   "property": "C36",
   "status": "proved",
   "theorems": [
    "Verif.C36_threshold",
    "Verif.C36_histogram"
   ],
   "note": ""
  },
  {
   "property": "C37",
   "status": "proved",
   "theorems": [
    "Verif.C37_range",
    "Verif.C37_empty",
    "Verif.C37_total",
    "Verif.C37_order",
    "Verif.C37_sign",
    "Verif.C37_nonneg",
    "Verif.C40_range"
   ],
   "note": "percentile indices are exact nearest ranks up to 2^46 stored energies; the mean is the rounded sum over the ascending list. C37_sign and C37_nonneg assume a log10 that keeps the order; C37_nonneg also that stored energies are finite and not zero: the zeros set_max_history pads with make the range NaN (Demo.padded_range)"
  },
  {
   "property": "C38",
   "status": "proved",
   "theorems": [
    "Verif.C38_range",
    "Verif.C38_ascending",
    "Verif.C38_sign",
    "Verif.C37_total"
   ],
   "note": "up to 2^46 stored blocks; the mean is formed bin by bin as in the code"
  },
  {
   "property": "C39",
   "status": "proved",
   "theorems": [
    "Verif.C39_one",
    "Verif.C39_none",
    "Verif.C39_mode",
    "Verif.C39_queues",
    "Verif.C39_exact",
    "Verif.C39_exact_loudness",
    "Verif.C39_range_one",
    "Verif.C39_range_none",
    "Verif.C39_range_queues",
    "Verif.C39_range_nan",
    "Verif.C39_range_histograms",
    "Verif.C39_range_mode"
   ],
   "note": "Integrated loudness of several queues in IEEE arithmetic: each history is summed on its own for the gate (C39_queues). That any mixture of queues and histograms gives the gate over the concatenated blocks is proved in exact arithmetic (C39_exact). The ranges are exact in IEEE arithmetic up to 2^46 blocks"
  },
  {
   "property": "C40",
   "status": "proved",
   "theorems": [
    "Verif.C40_global",
    "Verif.C40_range",
    "Verif.C40_histogram"
   ],
   "note": "For a history of a single NaN the range is NaN if the libm maps NaN to NaN."
  },
  {
   "property": "C41",
   "status": "proved",
   "theorems": [
    "Verif.C41_queries"
   ],
   "note": ""
  },
  {
   "property": "C42",
   "status": "proved",
   "theorems": [
    "Verif.C42_reset",
    "Verif.C42_public",
    "Verif.C42_forgets"
   ],
   "note": ""
  },
  {
   "property": "C43",
   "status": "proved",
   "theorems": [
    "Verif.C43_nothing",
    "Verif.C43_warm",
    "Verif.C43_signal",
    "Verif.C43_windows",
    "Verif.C43_windows_exact",
    "Verif.C43_peaks"
   ],
   "note": "C43_nothing holds in any arithmetic and for any target. The others need hardware flush-to-zero. C43_windows is bit-identical when the seed fills the ring buffer a whole number of times; otherwise the same values are summed in another order, and C43_windows_exact is the exact-arithmetic statement."
  },
  {
   "property": "C44",
   "status": "proved",
   "theorems": [
    "Verif.C44_windows",
    "Verif.C44_energies",
    "Verif.C44_energies_exact",
    "Verif.C44_histories",
    "Verif.C44_loudness",
    "Verif.C44_peaks"
   ],
   "note": "hardware flush-to-zero for the statements about analyzers. C44_windows: the blocks consist of the same values, any arithmetic, every list of split points. Their energies are bit-identical when the parts begin at multiples of the ring length (C44_energies, C44_histories); otherwise the same values are summed in another order, which Demo.chunk_report shows can change bits, and C44_energies_exact and C44_loudness are the exact-arithmetic statements. C44_peaks also covers true peaks and holds on every target."
  },
  {
   "property": "C45",
   "status": "proved",
   "theorems": [
    "Verif.C45_accepts",
    "Verif.C45_up_to_window",
    "Verif.C45_short_window",
    "Verif.C45_value"
   ],
   "note": "NaN for empty windows assumes log10(NaN) = NaN."
  },
  {
   "property": "C46",
   "status": "proved",
   "theorems": [
    "Verif.C46_signal",
    "Verif.C46_energy",
    "Verif.C46_windows",
    "Verif.C46_integrated",
    "Verif.C46_range",
    "Verif.C46_calls"
   ],
   "note": "exact arithmetic (real numbers). The hypothesis relates the frames delivered, so the two histories of calls may be cut differently or use different sample types; C46_calls shows that multiplying the samples of every call is such a case. Queue mode: a histogram stores bin numbers, so there a gain acts only up to the width of a bin. C46_case is a concrete case."
  },
  {
   "property": "C47",
   "status": "proved",
   "theorems": [
    "Verif.C47_poles",
    "Verif.C47_stable",
    "Verif.C47_unstable",
    "Verif.C47_dc",
    "Verif.C47_bounded",
    "Verif.C47_constant",
    "Verif.C47_unbounded",
    "Verif.C47_signal"
   ],
   "note": "exact arithmetic (real numbers, exact tan and pow, the decimal literals of the code). C47_poles characterises the stable rates; C47_unbounded also shows that no unstable pole is cancelled by the numerator. The numerical error of the f64 filter is not covered."
  },
  {
   "property": "C48",
   "status": "proved",
   "theorems": [
    "Verif.C48_call",
    "Verif.C48_mirror",
    "Verif.C48_query",
    "Verif.C48_multiple",
    "Verif.C48_window",
    "Verif.C48_header"
   ],
   "note": ""
  },
  {
   "property": "C49",
   "status": "proved",
   "theorems": [
    "Verif.C49_init",
    "Verif.C49_rate"
   ],
   "note": ""
  },
  {
   "property": "C50",
   "status": "proved",
   "theorems": [
    "Verif.C50_withFtz",
    "Verif.C50_addFrames",
    "Verif.C50_seedFrames"
   ],
   "note": ""
  },
  {
   "property": "C51",
   "status": "proved",
   "theorems": [
    "Verif.C51_loudness",
    "Verif.C51_level",
    "Verif.C51_gated",
    "Verif.C51_global"
   ],
   "note": "in the modelled binary64 arithmetic including rounding, overflow and infinities. log10 is external: C51_loudness asks for order only at the two energies compared, the others for a log10 that keeps the order of non-negative numbers. 'Louder set of gated blocks' is an equally long list, block by block not quieter; a louder signal may let more or fewer blocks through the gate and is then not covered"
  },
  {
   "property": "C52",
   "status": "proved",
   "theorems": [
    "Verif.C52_energy",
    "Verif.C52_finite",
    "Verif.C52_level",
    "Verif.C52_windows"
   ],
   "note": "IEEE arithmetic, any target. Compared with the exact level of the K-weighted samples as computed by the code: the rounding of the filter itself is not covered. The error of log10 is a parameter; Demo.log6_within shows that the assumption can be met."
  },
  {
   "property": "C53",
   "status": "proved",
   "theorems": [
    "Verif.C53_itu",
    "Verif.C53_prototype",
    "Verif.C53_gain"
   ],
   "note": "exact arithmetic (real numbers, exact tan and pow, the decimal literals of the code). The table of BS.1770 is written out in the statement. C53_gain records that the numerator 1, -2, 1 of the high pass is not normalised, so that the gain depends on the rate."
  },
  {
   "property": "C54",
   "status": "proved",
   "theorems": [
    "Verif.C54_steady",
    "Verif.C54_power",
    "Verif.C54_windows",
    "Verif.C54_integrated",
    "Verif.C54_calibration"
   ],
   "note": "exact arithmetic (real numbers). The duration after which the statements hold exists but is not given explicitly. Integrated loudness in queue mode with any history limit; a histogram adds the width of a bin. An example runs an analyzer on a full-scale tone."
  },
  {
   "property": "C55",
   "status": "proved",
   "theorems": [
    "Verif.C55_exact",
    "Verif.C55_float",
    "Verif.C55_phase_zero",
    "Verif.C55_symmetric"
   ],
   "note": "C55_exact in real arithmetic, C55_float in IEEE arithmetic; the accuracy of sin and cos on [-64, 64] is a hypothesis (Demo.trig40 meets it)."
  },
  {
   "property": "C56",
   "status": "proved",
   "theorems": [
    "Verif.C56_interpolated",
    "Verif.C56_response",
    "Verif.C56_sinusoid",
    "Verif.C56_prev_true_peak",
    "Verif.C56_tolerance",
    "Verif.C56_true_peak"
   ],
   "note": "IEEE arithmetic, accuracy of sin and cos as in C55. Frequencies above a quarter of the rate are not covered: there the 12-tap phases lose level (about 18 % at 20 kHz and 48 kHz). An example runs an analyzer on a sinusoid whose samples are all 3 dB below its peak."
  },
  {
   "property": "C57",
   "status": "proved",
   "theorems": [
    "Verif.C57_gain",
    "Verif.C57_filter",
    "Verif.C57_signal",
    "Verif.C57_power",
    "Verif.C57_energy",
    "Verif.C57_windows",
    "Verif.C57_integer"
   ],
   "note": "IEEE arithmetic, every target; without SSE2 the bound for the samples is to be at least 2^-13 (it need not be attained), so that the software flush (C61) is below the rounding noise. The accuracy of log10, tan (on [0, 1]) and powf (on [1, 10] and exponents in [0, 1]) is a hypothesis (Demo.libm57 meets it). The error bound is a worst case. Integrated loudness is the subject of C58."
  },
  {
   "property": "C58",
   "status": "proved",
   "theorems": [
    "Verif.C58_gate",
    "Verif.C58_block",
    "Verif.C58_integrated"
   ],
   "note": "IEEE arithmetic, targets and hypotheses on libm as in C57 and on 10^-1 (TenthWithin). Queue mode, no block evicted (at most max blocks). The distance from the gates is a hypothesis: without it a block may fall on the other side of a gate and the loudness may jump. An example runs an analyzer on a block with a click."
  },
  {
   "property": "C59",
   "status": "proved",
   "theorems": [
    "Verif.C59_gate",
    "Verif.C59_range"
   ],
   "note": "IEEE arithmetic, targets and hypotheses on libm as in C57 and on 10^-2 (HundredthWithin). Queue mode, no block evicted. The distance from the gates is a hypothesis, as in C58. Examples: two blocks 6 dB apart, and an analyzer run on 3 s with a click."
  },
  {
   "property": "C60",
   "status": "proved",
   "theorems": [
    "Verif.C60_gate",
    "Verif.C60_range_gate",
    "Verif.C60_integrated",
    "Verif.C60_range"
   ],
   "note": "IEEE arithmetic, hypotheses as in C58 and C59; the analyzer starts with an empty histogram. Blocks above the top of the table are counted in the last bin and so excluded by hypothesis. An example runs the analyzer of C58 in histogram mode."
  },
  {
   "property": "C61",
   "status": "proved",
   "theorems": [
    "Verif.C61_blocks",
    "Verif.C61_shorts",
    "Verif.C61_windows",
    "Verif.C61_same",
    "Verif.C61_marks"
   ],
   "note": "Any arithmetic with the same zero inside and outside with_ftz (IEEE on every target, exact arithmetic). Same setting as C13. Demo.soft_signal: a sample of 2^-60 followed by silence, in one call and in two."
  },
  {
   "property": "C62",
   "status": "proved",
   "theorems": [
    "Verif.C62_block",
    "Verif.C62_filter",
    "Verif.C62_soft_differs",
    "Verif.C62_subnormal_differs"
   ],
   "note": "IEEE arithmetic, any libm (the same for both), every target; C compiled without fused multiply-add, as the crate is. C62_block: any arithmetic. Buffers are planar in the crate and interleaved in C (SameSamples). The two exceptions have concrete witnesses."
  },
  {
   "property": "C63",
   "status": "proved",
   "theorems": [
    "Verif.C63_histories",
    "Verif.C63_tables",
    "Verif.C63_set_max_size",
    "Verif.C63_nan_differs",
    "Verif.C63_no_room"
   ],
   "note": "IEEE arithmetic. C63_histories assumes that the C tables are the crate's (C63_tables bounds the difference) and that qsort permutes its input into ascending order; in histogram mode at most usize::MAX blocks. The logarithms of the two programs may differ and are parameters. Witnesses for the three departures are universally quantified over the states they apply to."
  },
  {
   "property": "C64",
   "status": "proved",
   "theorems": [
    "Verif.C64_interp",
    "Verif.C64_peaks",
    "Verif.C64_none",
    "Verif.C64_filter",
    "Verif.C64_gap"
   ],
   "note": "IEEE arithmetic, every target; the same libm for both programs, sin and cos within 2^-30 at the arguments used (satisfiable: Demo.trig40). Chunks of at most 0.4 s per call, the size of the C detector's buffer. Both are compared with the exact interpolation of the signal; the sine in the C taps, the taps it skips and the 49th tap are accounted for."
  },
  {
   "property": "C65",
   "status": "proved",
   "theorems": [
    "Verif.C65_values",
    "Verif.C65_leaks",
    "Verif.C65_independent",
    "Verif.C65_dangling",
    "Verif.C65_null"
   ],
   "note": "Any environment. Addresses are naturals, the allocator any function of the live addresses that returns a free one. Spec.valueRun, the program without pointers, uses the functions of Model/Capi (C48). Memory exhaustion is not modelled."
  },
  {
   "property": "C66",
   "status": "proved",
   "theorems": [
    "Verif.C66_runs",
    "Verif.C66_pieces",
    "Verif.C66_scale",
    "Verif.C66_level",
    "Verif.C66_gain",
    "Verif.C66_brief",
    "Verif.C66_track",
    "Verif.C66_replaygain",
    "Verif.C66_album"
   ],
   "note": "IEEE arithmetic, any libm, 64-bit usize. WAV decoding and printing are not modelled: a file is its channels, rate and samples. C66_brief and C66_replaygain are defects of the examples, Demo.album shows the per-file gates."
  },
  {
   "property": "C67",
   "status": "proved",
   "theorems": [
    "Verif.C67_readback",
    "Verif.C67_text",
    "Verif.C67_accurate",
    "Verif.C67_order",
    "Verif.C67_same"
   ],
   "note": "A printed number is its 36 decimals as an integer; the surrounding text of the file is not modelled. C67_text compares all 2001 entries in the kernel."
  },
  {
   "property": "C68",
   "status": "proved",
   "theorems": [
    "Verif.C68_session",
    "Verif.C68_windows",
    "Verif.C68_stale"
   ],
   "note": "Any environment with 64-bit usize whose two f64 zeros agree (every IEEE target). Spec.Fed: frames are fed only while the buffer holds a block, which C08 shows may fail below 146 Hz and fed_rates proves from 146 Hz on. The queries over recorded blocks are those of C32, C33, C37 and C38; peaks are C19 to C21, C24 and C43."
  },
  {
   "property": "C69",
   "status": "proved",
   "theorems": [
    "Verif.C69_integrated",
    "Verif.C69_between",
    "Verif.C69_threshold",
    "Verif.C69_order",
    "Verif.C69_more",
    "Verif.C69_together",
    "Verif.C69_histogram"
   ],
   "note": "Exact arithmetic except C69_histogram (IEEE). The counterexamples are Demo.louder_softer, Demo.softer_louder, Demo.album_louder and Demo.album_softer, on IEEE doubles."
  },
  {
   "property": "C70",
   "status": "proved",
   "theorems": [
    "Verif.C70_gate",
    "Verif.C70_album",
    "Verif.C70_range",
    "Verif.C70_range_histogram"
   ],
   "note": "IEEE arithmetic, every target; hypotheses on libm as in C58 to C60. C70_gate is the gating step over arbitrary histories. Mixed queues and histograms for the range are InvalidMode (C39_range_mode)."
  },
  {
   "property": "C71",
   "status": "proved",
   "theorems": [
    "Verif.C71_steps",
    "Verif.C71_poles",
    "Verif.C71_settled",
    "Verif.C71_window"
   ],
   "note": "Exact arithmetic; C57 and C58 relate it to IEEE arithmetic. C71_window is for 1 kHz at 48 kHz."
  },
  {
   "property": "C72",
   "status": "proved",
   "theorems": [
    "Verif.C72_steady",
    "Verif.C72_gated",
    "Verif.C72_mixed",
    "Verif.C72_surround",
    "Verif.C72_windows",
    "Verif.C72_files"
   ],
   "note": "Cases 1, 2, 3, 5 and 6; case 4 is C78. Cases 7 and 8 are recordings; cases 9 to 14 change level at other times than tenths of a second (C76, C77); 15 to 23 are about true peaks. Default channel maps."
  },
  {
   "property": "C73",
   "status": "proved",
   "theorems": [
    "Verif.C73_first",
    "Verif.C73_second",
    "Verif.C73_third",
    "Verif.C73_fourth",
    "Verif.C73_files"
   ],
   "note": "Cases 1 to 4; cases 5 and 6 are recordings."
  },
  {
   "property": "C74",
   "status": "proved",
   "theorems": [
    "Verif.C74_upper",
    "Verif.C74_lower",
    "Verif.C74_tolerance",
    "Verif.C74_files",
    "Verif.C74_cases"
   ],
   "note": "Rates below 192 kHz, where the code interpolates. Cases 20 to 23 (tones with an inter-sample peak of one sample) are not covered."
  },
  {
   "property": "C75",
   "status": "proved",
   "theorems": [
    "Verif.C75_steady",
    "Verif.C75_gated",
    "Verif.C75_mixed",
    "Verif.C75_surround",
    "Verif.C75_range",
    "Verif.C75_files"
   ],
   "note": "Same cases as C72 and C73. 16-bit files of the quiet cases of EBU Tech 3341 are not covered: the bound on the effect of rounding is too coarse beside the half bin."
  },
  {
   "property": "C76",
   "status": "proved",
   "theorems": [
    "Verif.C76_momentary",
    "Verif.C76_shortterm",
    "Verif.C76_files"
   ],
   "note": "Cases 9 and 12. Asked at multiples of 10 ms. Default channel map."
  },
  {
   "property": "C77",
   "status": "proved",
   "theorems": [
    "Verif.C77_momentary",
    "Verif.C77_shortterm",
    "Verif.C77_files"
   ],
   "note": "Asked at multiples of 10 ms, which tones begin at too. Default channel map."
  },
  {
   "property": "C78",
   "status": "proved",
   "theorems": [
    "Verif.C78_foreground",
    "Verif.C78_quiet",
    "Verif.C78_files"
   ],
   "note": "Without HISTOGRAM. Default channel map."
  }
 ]
}