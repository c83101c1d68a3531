# Formal model of sdroege/ebur128 in Lean 4

The code of the pinned commit in `/repo/src` is modelled function by function, and 78 properties
(`properties.jsonl`) are stated against it and proved. `MANIFEST.json` maps each property to its theorems.

## Trusted base

* Lean 4.33.0's kernel and the axioms `propext`, `Classical.choice`, `Quot.sound`. No theorem uses any other
  axiom. There is no `sorry`, `admit`, `native_decide`, `bv_decide`, `implemented_by`, `unsafe` or own axiom.
  The last section says which theorem uses which.
* Our reading of `/repo/src/*.rs`. Every model definition cites file and lines; simplifications are stated at
  the definition and collected below.
* Library code that is not in the repository, modelled from its documentation: `std` (slices, iterators,
  `Vec`, `VecDeque`, `binary_search_by`, float comparison, `as` casts, `sum`, `sort_unstable_by`, `f64::max`),
  `dasp_sample` (sample conversions), `dasp_frame` (frame arithmetic), `smallvec`, `bitflags`.
* The theorems about reals use Mathlib's `Real`, `Real.tan`, `Real.rpow`, `Real.log` as definitions of those functions.

## Layers

| module | content |
|---|---|
| `Model/SoftFloat` | IEEE-754 binary32/binary64, round to nearest even, as total computable functions on bit patterns; variants with flush-to-zero and with fused multiply-add |
| `Model/Env` | the environment of the code as a record `Env`: `f64` arithmetic outside and inside `ftz::with_ftz`, `f32` arithmetic, conversions, libm (`log10`, `tan`, `sin`, `cos`, `powf`) as parameters, binary search by its documented contract, `usize::MAX`, SSE2 or not. `ieeeEnv` is the concrete IEEE instance for any libm, any binary search and any target |
| `Model/Utils` | `utils.rs`: `Interleaved`, `Planar`, sample types, `energy_to_loudness`, `FrameAccumulator` |
| `Model/Interp` | `interp.rs`: rolling buffer with the unchecked accesses as explicit faults, polyphase FIR |
| `Model/TruePeak` | `true_peak.rs`: the 12 scanner variants and the dispatch on rate and channel count |
| `Model/Filter` | `filter.rs`: coefficients, `process`, `seed`, peaks, `calc_gating_block`, software flush |
| `Model/Mxcsr`, `Model/MxcsrCalls` | `filter.rs` mod `ftz`: the control register with unwinding, and `add_frames`/`seed_frames` with it |
| `Model/Tables` | `histogram_bins.rs`: both tables, digit for digit |
| `Model/History` | `history.rs`: bin search, histogram, queue, gating, thresholds, range, multi-instance versions |
| `Model/Ebur128`, `Model/Api` | `ebur128.rs`: the analyzer, all its public functions; `Op`/`step` collect the mutating ones |
| `Model/Capi` | `capi.rs`: the wrapper struct, error codes, casts |
| `Model/Heap` | `capi.rs` with its pointers: the two boxes behind a state, any allocator, C programs with variables |
| `Model/Examples` | `examples/normalize.rs` and `examples/replaygain.rs`, given the decoded file |
| `Model/Generator` | `examples/generate_histogram_bins.rs`: the numbers computed and their digits |
| `Model/CRef` | `tests/c/*.c`: the C functions of libebur128 the crate was ported from, line by line |
| `Spec/*` | what the statements talk about, written without the model: the meter of BS.1770 as a difference equation with windows and block times (`Meter`), buffer sizes (`Buffer`), peaks (`Peaks`), two-stage gating of a list (`Gate`) and of bins (`Bins`), EBU 3342 range (`Range`), values of floats (`Real`), the exact real environment (`Exact`), gating and range of exact block powers (`RealGate`, `RealRange`), the interpolation kernel (`Sinc`), programmes of tones and their 16-bit and 24-bit files (`Tones`, `File24`), faded tones (`Taper`), tones that change level every 10 ms (`Steps`), a computable libm and demo environments for examples (`Libm`, `Demo`) |
| `Proofs/*` | lemmas: rounding and float order (`Float*`, `Orders`, `Opposite`, `PeakFloat`, `Percentile*`), fault-free versions of the model functions and invariants (`Run`, `Samples`, `Interp`, `Process`, `FilterCore`, `Gating`, `Hist`, `Query`, `Config`, `Add`, `Good`, `Safe`, `Step`), refinement to the meter (`Tick`, `Meter`, `Tracks`, `Start`, `Feed`, `Soft`, `Session`, `Grown`), dependence on sample values only (`Values`, `Events`, `Same`, `Layout`, `Convert`), peaks (`Peak*`, `Pieces`, `Level`), the table (`Table`, `TableReal`, `Bins`), simulations between two analyzers (`Couple*`), rounding errors (`FloatErr`, `Near`, `Accuracy`, `Approx`, `Units`), the interpolation kernel (`Kernel`), numerical bounds (`Numeric`), the filter's gains and the rounding of its coefficients and states (`Noise`, `CoefErr`, `FilterErr`, `SoftErr`), gating, sorting and binning of inexact energies (`GateErr`, `RobustGate`, `Mixed`, `Rough`, `Album`), the response to tones that start and stop (`Onset`, `Tone1k`, `Profile`) and how fast it decays (`Settle`, `Settle48`, `FineProfile`, `Steps`, `Bursts`), upper bounds on the loudness of a window (`AtMost`), the loudness of programmes of tones from bounds on their blocks, computed with integers (`Tones`, `ToneGate`, `ToneLoudness`, `ToneRange`, `ToneBins`, `ToneFile`, `Long`, `StepFile`) |
| `Props/*` | the property theorems, each with concrete `example`s |

Two kinds of theorem:

* **structural**: for *every* `Env`, so for whatever rounding and libm the machine has, as long as the
  operations are functions of their operands;
* **arithmetic**: for `ieeeEnv` with any libm, or, where the property is about ideal numbers, for
  `exactEnv` (the same code over the reals). The latter are labelled "exact arithmetic".

Panics and non-termination are values: every function that can fault returns `Run` (`done`, `panic`, `hang`), and
unchecked accesses out of range are `panic` too. A theorem about a result states that the call is `done`.

## What is modelled and what is not

Modelled: every function of `src/ebur128.rs`, `filter.rs`, `true_peak.rs`, `interp.rs`, `history.rs`, `utils.rs`,
`histogram_bins.rs` and `capi.rs` outside `#[cfg(test)]` and `cfg(feature = "c-tests")`, except `fmt`/`Display`
implementations. Also the C functions in `tests/c` the crate was ported from (`Model/CRef`) and the examples.

Not modelled: memory exhaustion; null or dangling pointers to samples and results passed from C (pointers to states are, in
`Model/Heap`); data races
(the API needs `&mut`); compiler optimisations; the accuracy of the real libm; MXCSR sticky exception flags;
capacities (`with_capacity`, `try_reserve`); `tests/reference_tests.rs`, benches.

Simplifications, all stated in the code too:

* `u64` counters of blocks are natural numbers (2^64 blocks would take 10^10 years of audio). `usize` arithmetic is
  checked where the code can overflow it (`usizeMax` is a parameter); unchecked overflow counts as a panic.
* Sorting is `List.mergeSort` with the code's comparison; the code's behaviour on NaN
  (`partial_cmp().unwrap_or(Equal)`) is covered by the case split on NaN. The order in which an unstable sort leaves
  equal elements cannot be observed, because equal elements that are not NaN are the same number or zeros of either sign.
* Flush-to-zero is applied after rounding (as SSE does with its after-rounding tininess); denormals-are-zero is not
  set by the code and not modelled.
* `Iterator::sum` for floats starts at `0.0`. (Recent `std` starts at `-0.0`; the difference shows only for sums of
  negative zeros, which no energy is.)
* `c_ulong` is 64 bits in the C wrapper.
* The C code of `tests/c` runs on the same arithmetic and libm as the crate, without contraction to fused operations;
  its counters are unbounded; accesses outside an array are faults; `qsort` is any function with its contract.

## Validation of the model

* `SoftFloat` was compared with the hardware on random and boundary patterns (scratch program, not part of the build).
* `Spec/Libm` agrees with the hardware libm up to one unit in the last place.
* Running the model on the signal of the repository's test `sine_stereo_i16` gives that test's expected values.
* Wrong programs: `seeded/LOG.jsonl` records edits of the model like realistic bugs and the theorems that then failed.

## Properties

| property | status | theorems | scope |
|---|---|---|---|
| C01 Constructor accepts exactly the documented configurations | proved | `C01_new`, `C01_new_64`, `C01_new_32_panics`, `C01_flags` |  |
| C02 Default channel map | proved | `C02_new`, `C02_change` |  |
| C03 Channel map updates are validated and exact | proved | `C03_setChannel`, `C03_setChannelMap` |  |
| C04 Configuration invariants survive every call history | proved | `C04_invariants` |  |
| C05 Failed calls change nothing | proved | `C05_config_error`, `C05_add_error`, `C05_add_rejected`, `C05_add_error_low_rate` | Strong form: the whole state is unchanged. C05_add_error_low_rate is the documented exception (low rates with LRA, where add_frames fails midway). |
| C06 change_parameters restarts the signal path and keeps the programme history | proved | `C06_same`, `C06_change`, `C06_accepts`, `C06_rejects` |  |
| C07 set_max_window | proved | `C07_setMaxWindow`, `C07_accepts` |  |
| C08 set_max_history bounds the stored history | partial | `C08_partial`, `C08_content_partial`, `C08_after`, `C08_arrive`, `C08_reset`, `C08_padding`, `C08_no_truncation` | The code violates the claim once set_max_history is called; C08_padding and C08_no_truncation prove the two violations. C08_after and C08_arrive say exactly what the queues contain after a call; C08_partial and C08_content_partial hold for analyzers on which set_max_history was never called; C08_reset proves the full claim after a reset, until the limit is changed again. |
| C09 No panic and no hang in any call history | proved | `C09_call`, `C09_history`, `C09_plain`, `C09_query`, `C09_query_multiple`, `C09_low_rate`, `C09_wrong_width` | On 64-bit targets; the queries hold for every IEEE target. Memory exhaustion is not modelled. |
| C10 Buffer size suffices for the windows the mode promises | proved | `C10_momentary`, `C10_momentary_ok`, `C10_momentary_fails`, `C10_shortterm`, `C10_shortterm_ok`, `C10_shortterm_fails`, `C10_shortterm_without_S` |  |
| C11 Results do not depend on how the input is split into calls | proved | `C11_state`, `C11_queries`, `C11_after`, `C11_f64`, `C11_f32`, `C11_i16`, `C11_i32` | SSE2 targets; any two successful feeding histories from the same state delivering the same frames, in any mixture of chunk sizes, layouts and failed calls, agree in the whole state except the peaks of the last call. |
| C12 Software flush-to-zero makes results depend on the split (non-SSE2) | proved | `C12_differs`, `C12_aligned`, `C12_peaks` | C12_differs is the negation of chunk independence without SSE2, for every new or reset analyzer with finite coefficients and a first feedback coefficient of at least 2^-53 in magnitude (Demo.softCoef: true at the usual rates). C12_aligned and C12_peaks hold on every target. C12_aligned is about calls of add_frames after any feeding history. |
| C13 Gating blocks are exactly the overlapping 400 ms blocks of the K-weighted signal | proved | `C13_blocks` | Any feeding history (all sample types, seeding included) after new, reset or an effective change_parameters, with configuration calls in between; hardware flush-to-zero targets; rates/windows for which add_frames does not fail (Adequate, always true from 146 Hz). |
| C14 Short-term blocks are the 3 s blocks every second | proved | `C14_blocks` | Same setting as C13. |
| C15 Window queries look at exactly the last frames | proved | `C15_windows`, `C15_exactly` | Same setting as C13; the summation order inside the window is that of the ring buffer (a permutation, C15_exactly). |
| C16 Planar and interleaved input are equivalent | proved | `C16_planar` |  |
| C17 Integer and f32 input are equivalent to f64 input | proved | `C17_add`, `C17_seed`, `C17_subnormal` | Needs that no f32 sample is subnormal on targets with flush-to-zero; C17_subnormal is a witness that the equivalence fails otherwise. |
| C18 Input validation of frame counts | proved | `C18_rejects`, `C18_accepts`, `C18_empty` |  |
| C19 Sample peak is the exact maximum absolute sample | proved | `C19_sample_peak`, `C19_unique`, `C19_exact_int`, `C19_exact_float`, `C19_monotone` | All sample types; f64 subnormals count as zero on SSE2 (flush-to-zero), NaN is ignored. Failed add_frames calls (low-rate LRA defect) do not count. |
| C20 prev_sample_peak is the maximum of the last non-empty call | proved | `C20_prev_sample_peak` |  |
| C21 True peak bounds | proved | `C21_bounds`, `C21_overall`, `C21_monotone`, `C21_start`, `C21_high_rate_prev`, `C21_high_rate`, `C21_rate_change_keeps` | Equality of overall true and sample peak at >= 192 kHz needs a history at such rates: a rate-only change_parameters keeps the overall peaks (witness in the file). |
| C22 The true-peak interpolator is the documented polyphase FIR | proved | `C22_interpolator`, `C22_oversampling` |  |
| C23 Unsafe rolling buffer accesses are in bounds | proved | `C23_buffer`, `C23_indices` |  |
| C24 Channels do not influence each other's peaks and specialised scanners agree with the generic one | proved | `C24_true_peak`, `C24_prev_true_peak`, `C24_channels`, `C24_mono` | Histories in which well-formed add_frames calls succeed (fails only with the low-rate LRA defect). |
| C25 Unused channels never influence loudness | proved | `C25_unused`, `C25_multiple` | every target, any arithmetic, from any state; also over several analyzers, and including the histories the results are computed from |
| C26 Channel weights | proved | `C26_weights`, `C26_energy`, `C26_exact` | C26_energy: exact expression in code order, any arithmetic including rounding; C26_exact: in exact real arithmetic the reported values are 10*log10(sum of weight * mean square) - 0.691 |
| C27 Dual mono equals stereo with identical channels | proved | `C27_dual_mono`, `C27_new` | every target; any two weight-one channel types on the stereo side; also the peaks. Rates/windows where the analyzer works at all (Adequate; see C08) |
| C28 Swapping left and right does not change loudness | proved | `C28_swap`, `C28_new` | every target; any pair of channel types whose weights are exchanged too |
| C29 Polarity inversion does not change any measurement | proved | `C29_inversion` | every target and sample type; integer samples must not be the minimum, which has no opposite (Demo.invert_report) |
| C30 Histogram binning is correct | proved | `C30_search`, `C30_low`, `C30_tables`, `C30_values`, `C30_add` |  |
| C31 Absolute gate | proved | `C31_add`, `C31_ungated`, `C31_blocks`, `C31_silence`, `C31_windows`, `C31_nothing` | Every target (through C61). Silence theorems: finite filter coefficients (a fact about tan and powf), nothing stored before. After set_max_history has padded the queue the threshold of a silent analyzer is -inf (Demo.padded_report). |
| C32 Integrated loudness is two-stage gating | proved | `C32_integrated`, `C32_stored`, `C32_passes` | 0.1 is powf(10, -1) as the libm computes it; that one block passes needs this value to be non-negative and at most 1/4. |
| C33 Histogram gating equals list gating of the bin centres | proved | `C33_gating`, `C33_loudness`, `C33_gate`, `C33_counts`, `C33_run`, `C33_exact` | The relative gate has to be a number (C33_gate says when it is). Equality with gating a list of bin centres holds in exact arithmetic (C33_exact); in IEEE arithmetic the sum is formed bin by bin. |
| C34 Histogram quantisation error | proved | `C34_energy`, `C34_mean` | Bound 0.05 dB plus 1e-9 dB for the rounding of the tables. |
| C35 Gating count and energy are consistent with the loudness | proved | `C35_some`, `C35_none`, `C35_queue` |  |
| C36 Relative threshold | proved | `C36_threshold`, `C36_histogram` |  |
| C37 Loudness range is the EBU 3342 percentile difference | proved | `C37_range`, `C37_empty`, `C37_total`, `C37_order`, `C37_sign`, `C37_nonneg`, `C40_range` | percentile indices are exact nearest ranks up to 2^46 stored energies; the mean is the rounded sum over the ascending list. C37_sign and C37_nonneg assume a log10 that keeps the order; C37_nonneg also that stored energies are finite and not zero: the zeros set_max_history pads with make the range NaN (Demo.padded_range) |
| C38 Histogram loudness range equals the percentile difference of the bin centres | proved | `C38_range`, `C38_ascending`, `C38_sign`, `C37_total` | up to 2^46 stored blocks; the mean is formed bin by bin as in the code |
| C39 Multi-instance queries | proved | `C39_one`, `C39_none`, `C39_mode`, `C39_queues`, `C39_exact`, `C39_exact_loudness`, `C39_range_one`, `C39_range_none`, `C39_range_queues`, `C39_range_nan`, `C39_range_histograms`, `C39_range_mode` | Integrated loudness of several queues in IEEE arithmetic: each history is summed on its own for the gate (C39_queues). That any mixture of queues and histograms gives the gate over the concatenated blocks is proved in exact arithmetic (C39_exact). The ranges are exact in IEEE arithmetic up to 2^46 blocks |
| C40 NaN is reported, never hidden, in queue mode | proved | `C40_global`, `C40_range`, `C40_histogram` | For a history of a single NaN the range is NaN if the libm maps NaN to NaN. |
| C41 Mode gating of queries | proved | `C41_queries` |  |
| C42 reset returns to the initial measurement state | proved | `C42_reset`, `C42_public`, `C42_forgets` |  |
| C43 Seeding warms filters and nothing else | proved | `C43_nothing`, `C43_warm`, `C43_signal`, `C43_windows`, `C43_windows_exact`, `C43_peaks` | C43_nothing holds in any arithmetic and for any target. The others need hardware flush-to-zero. C43_windows is bit-identical when the seed fills the ring buffer a whole number of times; otherwise the same values are summed in another order, and C43_windows_exact is the exact-arithmetic statement. |
| C44 Chunked parallel analysis sees the same blocks | proved | `C44_windows`, `C44_energies`, `C44_energies_exact`, `C44_histories`, `C44_loudness`, `C44_peaks` | hardware flush-to-zero for the statements about analyzers. C44_windows: the blocks consist of the same values, any arithmetic, every list of split points. Their energies are bit-identical when the parts begin at multiples of the ring length (C44_energies, C44_histories); otherwise the same values are summed in another order, which Demo.chunk_report shows can change bits, and C44_energies_exact and C44_loudness are the exact-arithmetic statements. C44_peaks also covers true peaks and holds on every target. |
| C45 loudness_window argument handling | proved | `C45_accepts`, `C45_up_to_window`, `C45_short_window`, `C45_value` | NaN for empty windows assumes log10(NaN) = NaN. |
| C46 A gain shifts every loudness and leaves the range alone | proved | `C46_signal`, `C46_energy`, `C46_windows`, `C46_integrated`, `C46_range`, `C46_calls` | exact arithmetic (real numbers). The hypothesis relates the frames delivered, so the two histories of calls may be cut differently or use different sample types; C46_calls shows that multiplying the samples of every call is such a case. Queue mode: a histogram stores bin numbers, so there a gain acts only up to the width of a bin. C46_case is a concrete case. |
| C47 K-weighting filter: where it is stable, and that it blocks direct current | proved | `C47_poles`, `C47_stable`, `C47_unstable`, `C47_dc`, `C47_bounded`, `C47_constant`, `C47_unbounded`, `C47_signal` | exact arithmetic (real numbers, exact tan and pow, the decimal literals of the code). C47_poles characterises the stable rates; C47_unbounded also shows that no unstable pole is cancelled by the numerator. The numerical error of the f64 filter is not covered. |
| C48 C API error codes and state mirroring | proved | `C48_call`, `C48_mirror`, `C48_query`, `C48_multiple`, `C48_window`, `C48_header` |  |
| C49 C API narrows sample rates | proved | `C49_init`, `C49_rate` |  |
| C50 Floating-point control register is restored | proved | `C50_withFtz`, `C50_addFrames`, `C50_seedFrames` |  |
| C51 Loudness conversion is monotone | proved | `C51_loudness`, `C51_level`, `C51_gated`, `C51_global` | in the modelled binary64 arithmetic including rounding, overflow and infinities. log10 is external: C51_loudness asks for order only at the two energies compared, the others for a log10 that keeps the order of non-negative numbers. 'Louder set of gated blocks' is an equally long list, block by block not quieter; a louder signal may let more or fewer blocks through the gate and is then not covered |
| C52 Accuracy of measured energies and levels | proved | `C52_energy`, `C52_finite`, `C52_level`, `C52_windows` | IEEE arithmetic, any target. Compared with the exact level of the K-weighted samples as computed by the code: the rounding of the filter itself is not covered. The error of log10 is a parameter; Demo.log6_within shows that the assumption can be met. |
| C53 The K-weighting filter is that of ITU-R BS.1770 | proved | `C53_itu`, `C53_prototype`, `C53_gain` | exact arithmetic (real numbers, exact tan and pow, the decimal literals of the code). The table of BS.1770 is written out in the statement. C53_gain records that the numerator 1, -2, 1 of the high pass is not normalised, so that the gain depends on the rate. |
| C54 Response to a tone and calibration | proved | `C54_steady`, `C54_power`, `C54_windows`, `C54_integrated`, `C54_calibration` | exact arithmetic (real numbers). The duration after which the statements hold exists but is not given explicitly. Integrated loudness in queue mode with any history limit; a histogram adds the width of a bin. An example runs an analyzer on a full-scale tone. |
| C55 The coefficients of the interpolator are a Hann-windowed sinc | proved | `C55_exact`, `C55_float`, `C55_phase_zero`, `C55_symmetric` | C55_exact in real arithmetic, C55_float in IEEE arithmetic; the accuracy of sin and cos on [-64, 64] is a hypothesis (Demo.trig40 meets it). |
| C56 True peak of a sinusoid | proved | `C56_interpolated`, `C56_response`, `C56_sinusoid`, `C56_prev_true_peak`, `C56_tolerance`, `C56_true_peak` | IEEE arithmetic, accuracy of sin and cos as in C55. Frequencies above a quarter of the rate are not covered: there the 12-tap phases lose level (about 18 % at 20 kHz and 48 kHz). An example runs an analyzer on a sinusoid whose samples are all 3 dB below its peak. |
| C57 Accuracy of the whole chain, K-weighting filter included | proved | `C57_gain`, `C57_filter`, `C57_signal`, `C57_power`, `C57_energy`, `C57_windows`, `C57_integer` | IEEE arithmetic, every target; without SSE2 the bound for the samples is to be at least 2^-13 (it need not be attained), so that the software flush (C61) is below the rounding noise. The accuracy of log10, tan (on [0, 1]) and powf (on [1, 10] and exponents in [0, 1]) is a hypothesis (Demo.libm57 meets it). The error bound is a worst case. Integrated loudness is the subject of C58. |
| C58 Accuracy of the integrated loudness, gating included | proved | `C58_gate`, `C58_block`, `C58_integrated` | IEEE arithmetic, targets and hypotheses on libm as in C57 and on 10^-1 (TenthWithin). Queue mode, no block evicted (at most max blocks). The distance from the gates is a hypothesis: without it a block may fall on the other side of a gate and the loudness may jump. An example runs an analyzer on a block with a click. |
| C59 Accuracy of the loudness range, gating and percentiles included | proved | `C59_gate`, `C59_range` | IEEE arithmetic, targets and hypotheses on libm as in C57 and on 10^-2 (HundredthWithin). Queue mode, no block evicted. The distance from the gates is a hypothesis, as in C58. Examples: two blocks 6 dB apart, and an analyzer run on 3 s with a click. |
| C60 Accuracy in histogram mode | proved | `C60_gate`, `C60_range_gate`, `C60_integrated`, `C60_range` | IEEE arithmetic, hypotheses as in C58 and C59; the analyzer starts with an empty histogram. Blocks above the top of the table are counted in the last bin and so excluded by hypothesis. An example runs the analyzer of C58 in histogram mode. |
| C61 Blocks and windows on targets without hardware flush-to-zero | proved | `C61_blocks`, `C61_shorts`, `C61_windows`, `C61_same`, `C61_marks` | Any arithmetic with the same zero inside and outside with_ftz (IEEE on every target, exact arithmetic). Same setting as C13. Demo.soft_signal: a sample of 2^-60 followed by silence, in one call and in two. |
| C62 The K-weighting filter, the sample peak and the block energy are those of the C library | proved | `C62_block`, `C62_filter`, `C62_soft_differs`, `C62_subnormal_differs` | IEEE arithmetic, any libm (the same for both), every target; C compiled without fused multiply-add, as the crate is. C62_block: any arithmetic. Buffers are planar in the crate and interleaved in C (SameSamples). The two exceptions have concrete witnesses. |
| C63 Block histories, gating and loudness range are those of the C library | proved | `C63_histories`, `C63_tables`, `C63_set_max_size`, `C63_nan_differs`, `C63_no_room` | IEEE arithmetic. C63_histories assumes that the C tables are the crate's (C63_tables bounds the difference) and that qsort permutes its input into ascending order; in histogram mode at most usize::MAX blocks. The logarithms of the two programs may differ and are parameters. Witnesses for the three departures are universally quantified over the states they apply to. |
| C64 Interpolators and true peaks agree with the C library | proved | `C64_interp`, `C64_peaks`, `C64_none`, `C64_filter`, `C64_gap` | IEEE arithmetic, every target; the same libm for both programs, sin and cos within 2^-30 at the arguments used (satisfiable: Demo.trig40). Chunks of at most 0.4 s per call, the size of the C detector's buffer. Both are compared with the exact interpolation of the signal; the sine in the C taps, the taps it skips and the 49th tap are accounted for. |
| C65 C API: memory is managed correctly and analyzers are independent | proved | `C65_values`, `C65_leaks`, `C65_independent`, `C65_dangling`, `C65_null` | Any environment. Addresses are naturals, the allocator any function of the live addresses that returns a free one. Spec.valueRun, the program without pointers, uses the functions of Model/Capi (C48). Memory exhaustion is not modelled. |
| C66 The example programs: what normalize and replaygain compute, and where they fail | proved | `C66_runs`, `C66_pieces`, `C66_scale`, `C66_level`, `C66_gain`, `C66_brief`, `C66_track`, `C66_replaygain`, `C66_album` | IEEE arithmetic, any libm, 64-bit usize. WAV decoding and printing are not modelled: a file is its channels, rate and samples. C66_brief and C66_replaygain are defects of the examples, Demo.album shows the per-file gates. |
| C67 The generator of the histogram tables writes what the crate needs | proved | `C67_readback`, `C67_text`, `C67_accurate`, `C67_order`, `C67_same` | A printed number is its 36 decimals as an integer; the surrounding text of the file is not modelled. C67_text compares all 2001 entries in the kernel. |
| C68 Every session of calls measures what it should | proved | `C68_session`, `C68_windows`, `C68_stale` | Any environment with 64-bit usize whose two f64 zeros agree (every IEEE target). Spec.Fed: frames are fed only while the buffer holds a block, which C08 shows may fail below 146 Hz and fed_rates proves from 146 Hz on. The queries over recorded blocks are those of C32, C33, C37 and C38; peaks are C19 to C21, C24 and C43. |
| C69 How the blocks of a programme determine its integrated loudness | proved | `C69_integrated`, `C69_between`, `C69_threshold`, `C69_order`, `C69_more`, `C69_together`, `C69_histogram` | Exact arithmetic except C69_histogram (IEEE). The counterexamples are Demo.louder_softer, Demo.softer_louder, Demo.album_louder and Demo.album_softer, on IEEE doubles. |
| C70 Accuracy of the loudness and loudness range of an album | proved | `C70_gate`, `C70_album`, `C70_range`, `C70_range_histogram` | IEEE arithmetic, every target; hypotheses on libm as in C58 to C60. C70_gate is the gating step over arbitrary histories. Mixed queues and histograms for the range are InvalidMode (C39_range_mode). |
| C71 How fast the K-weighting filter settles on a tone | proved | `C71_steps`, `C71_poles`, `C71_settled`, `C71_window` | Exact arithmetic; C57 and C58 relate it to IEEE arithmetic. C71_window is for 1 kHz at 48 kHz. |
| C72 The synthetic test signals of EBU Tech 3341 | proved | `C72_steady`, `C72_gated`, `C72_mixed`, `C72_surround`, `C72_windows`, `C72_files` | Cases 1, 2, 3, 5 and 6; case 4 is C78. Cases 7 and 8 are recordings; cases 9 to 14 change level at other times than tenths of a second (C76, C77); 15 to 23 are about true peaks. Default channel maps. |
| C73 The synthetic test signals of EBU Tech 3342 | proved | `C73_first`, `C73_second`, `C73_third`, `C73_fourth`, `C73_files` | Cases 1 to 4; cases 5 and 6 are recordings. |
| C74 True peak of a whole programme: faded tones and the test signals of EBU Tech 3341 | proved | `C74_upper`, `C74_lower`, `C74_tolerance`, `C74_files`, `C74_cases` | Rates below 192 kHz, where the code interpolates. Cases 20 to 23 (tones with an inter-sample peak of one sample) are not covered. |
| C75 The synthetic test signals of EBU Tech 3341 and 3342 in HISTOGRAM mode | proved | `C75_steady`, `C75_gated`, `C75_mixed`, `C75_surround`, `C75_range`, `C75_files` | Same cases as C72 and C73. 16-bit files of the quiet cases of EBU Tech 3341 are not covered: the bound on the effect of rounding is too coarse beside the half bin. |
| C76 Momentary and short-term loudness of the test signals of EBU Tech 3341 whose level changes within the window | proved | `C76_momentary`, `C76_shortterm`, `C76_files` | Cases 9 and 12. Asked at multiples of 10 ms. Default channel map. |
| C77 The loudest momentary and short-term loudness of tones of 0.4 s and 3 s (EBU Tech 3341 cases 10, 11, 13 and 14) | proved | `C77_momentary`, `C77_shortterm`, `C77_files` | Asked at multiples of 10 ms, which tones begin at too. Default channel map. |
| C78 Quieter material does not change the integrated loudness of a tone (EBU Tech 3341 case 4) | proved | `C78_foreground`, `C78_quiet`, `C78_files` | Without HISTOGRAM. Default channel map. |

## Findings about the code

Points where the code departs from its documentation or from what one would expect. Each has a theorem or a
concrete evaluated case.

1. `Queue::set_max_size` (history.rs) has its condition inverted: with fewer entries than the new limit it pads the
   queue with zero energies, with more it does not truncate. Theorems `C08_padding`, `C08_no_truncation`. Afterwards a
   silent analyzer reports a relative threshold of `-inf` (`Demo.padded_report`) and the range of silence is NaN
   (`Demo.padded_range`). C08 therefore holds only in its `_partial` form; `C08_after`
   gives the exact content of the queues after such a call, and `C08_reset` shows that a `reset` makes the claim true again.
2. In histogram mode the history limit has no effect at all (`C08`).
3. At rates 16 and 17 without mode S the ring buffer is shorter than 400 ms and `add_frames` panics (`C09_low_rate`).
4. With LRA and 29·hop ≥ 3·rate (only at rates up to 145) the ring buffer is shorter than the 3 s window:
   `loudness_shortterm` is `InvalidMode` and `add_frames` fails midway, having changed the state (`C10_shortterm_fails`,
   `C05_add_error_low_rate`).
5. Planar input with the wrong number of channels panics instead of returning an error (`C09_wrong_width`).
6. `loudness_window` with a window shorter than one frame is `Ok(NaN)` (`C45_short_window`).
7. Without SSE2 the software flush after each internal step (C61) makes results depend on how the signal is cut into calls
   (`C12_differs`), and seeding differs from adding (`Demo.soft_report`).
8. With flush-to-zero, subnormal `f32` samples act differently from the same values fed as `f64`, if the target has
   fused multiply-add (`C17_subnormal`). Subnormal `f64` samples have sample peak zero on SSE2 (C19).
9. A rate-only `change_parameters` keeps the overall peaks (`C21_rate_change_keeps`), although the peak scanner restarts.
10. If the sum of block energies overflows to infinity, the relative gate lets nothing pass (C32, C35).
11. A NaN energy goes to bin 0 of a histogram, but makes a queue's results NaN (`C40_histogram`, `C40_global`).
12. If `powf` returned NaN, a histogram's gate would let everything pass and a queue's nothing (`C33_gate`).
13. C interface: `samplerate as u32` truncates (`C49_rate`); `mode as u8` truncates; a channel value outside 0..=31 in
    `ebur128_set_channel` is transmuted to an enum, undefined behaviour (fault in the model); NO_CHANGE compares the
    value before clamping; asking again for an unlimited history is `NoMem` rather than NO_CHANGE (C48).
14. The filter the code designs is stable exactly at rates with ⌊3363/rate⌋ and ⌊76/rate⌋ both even: always from
    3364 Hz on, never from 1682 to 3363 Hz (`C47_poles`, `C47_unbounded`).
15. On 32-bit targets `new` may return `NoMem` or panic with a capacity overflow (`C01_new_32_panics`).
16. The energy of the same window may be summed in another order, so may differ in the last bits, depending on where
    the ring buffer wraps (`Demo.chunk_report`; C43, C44 say when it is bit-identical).
17. `0.95` as a double is below 0.95, yet the percentile indices are exact nearest ranks up to 2^46 blocks (C37).
18. The numerator 1, -2, 1 of the high pass is the one BS.1770 prints for 48 kHz and is used at every rate, although the
    bilinear transform would divide it by a factor that depends on the rate. The same signal therefore reads higher at
    low rates: within 0.05 dB from 32 kHz up, more than 0.2 dB at 8 kHz (`C53_prototype`, `C53_gain`).
19. Departures from the C library: without SSE2 the crate flushes filter states below `f64::EPSILON`, C below `DBL_MIN`
    (`C62_soft_differs`); with SSE2 C takes subnormal `double` samples as zero (`C62_subnormal_differs`); C drops blocks of
    energy NaN, the crate keeps them (`C63_nan_differs`); `set_max_size` leaves different queues unless the queue holds
    exactly the new maximum (`C63_set_max_size`, see C08); with room for no block C faults (`C63_no_room`);
    interpolated samples and true peaks agree to 3.3e-6 of the largest sample, not exactly (C64).
20. `examples/normalize.rs`: a file shorter than a gating block has the loudness -inf, so the gain is infinite and every
    sample that is not 0 becomes +-32767 (`C66_brief`). The divisor 32767 makes the sample -32768 exceed full scale.
21. `examples/replaygain.rs`: `gating_block_count_and_energy()` is `None` for a file without a block above the gates, so
    the `expect` panics and no album gain is printed (`C66_replaygain`).
22. `examples/replaygain.rs`: the album gain adds the blocks that each file keeps under its own relative gate. It is not the
    loudness of all files together, which has one common gate (`C66_album`, `Demo.album`).
23. A channel that is set to `Unused` keeps its last ring-buffer contents, which are neither cleared nor overwritten. When it
    is measured again, audio of up to one buffer length before the mute counts as recent (`C68_stale`); the next frames
    overwrite it. C libebur128 does the same.

## Axioms of each theorem

From `#print axioms` for every theorem in `MANIFEST.json` (317 theorems).

* `propext`: `C26_weights`, `C67_text`
* `propext`, `Quot.sound`: `C05_add_rejected`, `C08_arrive`, `C08_no_truncation`, `C15_exactly`, `C18_empty`, `C36_threshold`, `C39_range_none`, `C48_query`, `C48_multiple`, `C48_window`, `C49_init`, `C50_withFtz`, `C50_addFrames`, `C50_seedFrames`, `C62_soft_differs`, `C62_subnormal_differs`, `C63_set_max_size`, `C64_none`, `C65_values`, `C65_leaks`, `C65_independent`, `C65_dangling`, `C65_null`, `C66_album`
* `propext`, `Classical.choice`, `Quot.sound`: `C01_new`, `C01_new_64`, `C01_new_32_panics`, `C01_flags`, `C02_new`, `C02_change`, `C03_setChannel`, `C03_setChannelMap`, `C04_invariants`, `C05_config_error`, `C05_add_error`, `C05_add_error_low_rate`, `C06_same`, `C06_change`, `C06_accepts`, `C06_rejects`, `C07_setMaxWindow`, `C07_accepts`, `C08_partial`, `C08_content_partial`, `C08_after`, `C08_reset`, `C08_padding`, `C09_call`, `C09_history`, `C09_plain`, `C09_query`, `C09_query_multiple`, `C09_low_rate`, `C09_wrong_width`, `C10_momentary`, `C10_momentary_ok`, `C10_momentary_fails`, `C10_shortterm`, `C10_shortterm_ok`, `C10_shortterm_fails`, `C10_shortterm_without_S`, `C11_state`, `C11_queries`, `C11_after`, `C11_f64`, `C11_f32`, `C11_i16`, `C11_i32`, `C12_differs`, `C12_aligned`, `C12_peaks`, `C13_blocks`, `C14_blocks`, `C15_windows`, `C16_planar`, `C17_add`, `C17_seed`, `C17_subnormal`, `C18_rejects`, `C18_accepts`, `C19_sample_peak`, `C19_unique`, `C19_exact_int`, `C19_exact_float`, `C19_monotone`, `C20_prev_sample_peak`, `C21_bounds`, `C21_overall`, `C21_monotone`, `C21_start`, `C21_high_rate_prev`, `C21_high_rate`, `C21_rate_change_keeps`, `C22_interpolator`, `C22_oversampling`, `C23_buffer`, `C23_indices`, `C24_true_peak`, `C24_prev_true_peak`, `C24_channels`, `C24_mono`, `C25_unused`, `C25_multiple`, `C26_energy`, `C26_exact`, `C27_dual_mono`, `C27_new`, `C28_swap`, `C28_new`, `C29_inversion`, `C30_search`, `C30_low`, `C30_tables`, `C30_values`, `C30_add`, `C31_add`, `C31_ungated`, `C31_blocks`, `C31_silence`, `C31_windows`, `C31_nothing`, `C32_integrated`, `C32_stored`, `C32_passes`, `C33_gating`, `C33_loudness`, `C33_gate`, `C33_counts`, `C33_run`, `C33_exact`, `C34_energy`, `C34_mean`, `C35_some`, `C35_none`, `C35_queue`, `C36_histogram`, `C37_range`, `C37_empty`, `C37_total`, `C37_order`, `C37_sign`, `C37_nonneg`, `C40_range`, `C38_range`, `C38_ascending`, `C38_sign`, `C39_one`, `C39_none`, `C39_mode`, `C39_queues`, `C39_exact`, `C39_exact_loudness`, `C39_range_one`, `C39_range_queues`, `C39_range_nan`, `C39_range_histograms`, `C39_range_mode`, `C40_global`, `C40_histogram`, `C41_queries`, `C42_reset`, `C42_public`, `C42_forgets`, `C43_nothing`, `C43_warm`, `C43_signal`, `C43_windows`, `C43_windows_exact`, `C43_peaks`, `C44_windows`, `C44_energies`, `C44_energies_exact`, `C44_histories`, `C44_loudness`, `C44_peaks`, `C45_accepts`, `C45_up_to_window`, `C45_short_window`, `C45_value`, `C46_signal`, `C46_energy`, `C46_windows`, `C46_integrated`, `C46_range`, `C46_calls`, `C47_poles`, `C47_stable`, `C47_unstable`, `C47_dc`, `C47_bounded`, `C47_constant`, `C47_unbounded`, `C47_signal`, `C48_call`, `C48_mirror`, `C48_header`, `C49_rate`, `C51_loudness`, `C51_level`, `C51_gated`, `C51_global`, `C52_energy`, `C52_finite`, `C52_level`, `C52_windows`, `C53_itu`, `C53_prototype`, `C53_gain`, `C54_steady`, `C54_power`, `C54_windows`, `C54_integrated`, `C54_calibration`, `C55_exact`, `C55_float`, `C55_phase_zero`, `C55_symmetric`, `C56_interpolated`, `C56_response`, `C56_sinusoid`, `C56_prev_true_peak`, `C56_tolerance`, `C56_true_peak`, `C57_gain`, `C57_filter`, `C57_signal`, `C57_power`, `C57_energy`, `C57_windows`, `C57_integer`, `C58_gate`, `C58_block`, `C58_integrated`, `C59_gate`, `C59_range`, `C60_gate`, `C60_range_gate`, `C60_integrated`, `C60_range`, `C61_blocks`, `C61_shorts`, `C61_windows`, `C61_same`, `C61_marks`, `C62_block`, `C62_filter`, `C63_histories`, `C63_tables`, `C63_nan_differs`, `C63_no_room`, `C64_interp`, `C64_peaks`, `C64_filter`, `C64_gap`, `C66_runs`, `C66_pieces`, `C66_scale`, `C66_level`, `C66_gain`, `C66_brief`, `C66_track`, `C66_replaygain`, `C67_readback`, `C67_accurate`, `C67_order`, `C67_same`, `C68_session`, `C68_windows`, `C68_stale`, `C69_integrated`, `C69_between`, `C69_threshold`, `C69_order`, `C69_more`, `C69_together`, `C69_histogram`, `C70_gate`, `C70_album`, `C70_range`, `C70_range_histogram`, `C71_steps`, `C71_poles`, `C71_settled`, `C71_window`, `C72_steady`, `C72_gated`, `C72_mixed`, `C72_surround`, `C72_windows`, `C72_files`, `C73_first`, `C73_second`, `C73_third`, `C73_fourth`, `C73_files`, `C74_upper`, `C74_lower`, `C74_tolerance`, `C74_files`, `C74_cases`, `C75_steady`, `C75_gated`, `C75_mixed`, `C75_surround`, `C75_range`, `C75_files`, `C76_momentary`, `C76_shortterm`, `C76_files`, `C77_momentary`, `C77_shortterm`, `C77_files`, `C78_foreground`, `C78_quiet`, `C78_files`

