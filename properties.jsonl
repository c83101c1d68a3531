{"id": "C01", "title": "Constructor accepts exactly the documented configurations", "statement": "On a 64-bit target EbuR128::new(channels, rate, mode) returns Ok exactly when 1 <= channels <= 64, 16 <= rate <= 2822400 and mode contains M, and never panics. Channel count and rate errors give NoMem, a missing M gives InvalidMode. On any target a buffer size overflowing usize gives NoMem, and a buffer beyond isize::MAX bytes (possible only with 32-bit usize, e.g. new(64, 1431655, S)) panics with a capacity overflow; every other valid configuration is Ok. On success the accessors return the arguments, max_window() is 3000 iff mode contains S and 400 otherwise, max_history() is usize::MAX.", "quantifier": "every u32 channel count, every u32 rate, every u8 mode bit pattern, every usize width", "why_tests_cant": "2^72 argument combinations; the overflow branches depend on the target word size", "anchors": [{"file": "src/ebur128.rs", "symbols": ["EbuR128::new", "EbuR128::allocate_audio_data", "MAX_RATE", "MAX_CHANNELS"]}]}
{"id": "C02", "title": "Default channel map", "statement": "A new analyzer (and one whose channel count was just changed) assigns Left, Right, Center, Unused, LeftSurround, RightSurround, Unused... by index, except that 4 channels give L R Ls Rs and 5 channels give L R C Ls Rs; the map always has exactly `channels` entries.", "quantifier": "every channel count, every index", "why_tests_cant": "the map must be right for every count and stay right after any history of parameter changes", "anchors": [{"file": "src/ebur128.rs", "symbols": ["default_channel_map", "EbuR128::channel_map"]}]}
{"id": "C03", "title": "Channel map updates are validated and exact", "statement": "set_channel(i,v) succeeds iff i < channels and (v is DualMono implies channels = 1 and i = 0); set_channel_map(m) succeeds iff m has one entry per channel and contains DualMono only as the single entry of a mono map. On success exactly the requested entries change and nothing else in the analyzer; on failure the error is InvalidChannelIndex and nothing changes.", "quantifier": "every analyzer state, index, channel type and map", "why_tests_cant": "unbounded states and maps", "anchors": [{"file": "src/ebur128.rs", "symbols": ["EbuR128::set_channel", "EbuR128::set_channel_map"]}]}
{"id": "C04", "title": "Configuration invariants survive every call history", "statement": "After any sequence of public calls: channels in 1..64, rate in 16..2822400, mode equal to the constructor's mode, one channel-map entry per channel, DualMono present only in a mono analyzer, max_window >= 400 (>= 3000 with S), one sample-peak and one true-peak value per channel.", "quantifier": "every finite sequence of public calls with arbitrary arguments", "why_tests_cant": "call histories are unbounded", "anchors": [{"file": "src/ebur128.rs", "symbols": ["EbuR128"]}]}
{"id": "C05", "title": "Failed calls change nothing", "statement": "Whenever set_channel, set_channel_map, change_parameters, set_max_window, set_max_history, add_frames_* (argument rejection) or seed_frames_* returns Err, every later observation is the same as if the call had not been made.", "quantifier": "every state and every argument", "why_tests_cant": "needs equality of complete states for every rejected argument", "anchors": [{"file": "src/ebur128.rs", "symbols": ["EbuR128::change_parameters", "EbuR128::set_max_window", "EbuR128::add_frames_f32", "EbuR128::seed_frames_f32"]}]}
{"id": "C06", "title": "change_parameters restarts the signal path and keeps the programme history", "statement": "change_parameters with the current values is a no-op; with new valid values the analyzer's ring buffer, filter, peak scanner, first-block countdown and short-term counter become those of a new analyzer with these values, while gating-block and short-term histories, max_window and max_history are kept; channel map and overall peaks are reset iff the channel count changed.", "quantifier": "every state, every channel count and rate", "why_tests_cant": "unbounded states and arguments", "anchors": [{"file": "src/ebur128.rs", "symbols": ["EbuR128::change_parameters"]}]}
{"id": "C07", "title": "set_max_window", "statement": "set_max_window(w) makes max_window() equal to max(w, 3000) with S and max(w, 400) otherwise; if that equals the current window nothing changes, otherwise audio content is dropped (momentary/short-term/window queries see silence) and histories, filter state, peaks and all other configuration are kept.", "quantifier": "every state, every u32 window", "why_tests_cant": "unbounded states", "anchors": [{"file": "src/ebur128.rs", "symbols": ["EbuR128::set_max_window"]}]}
{"id": "C08", "title": "set_max_history bounds the stored history", "statement": "After set_max_history(h) the number of gating blocks retained for integration is at most h/100 and of short-term blocks h/3000, the oldest being dropped first, and no energy that was never measured is ever included. (The code violates this when called: it pads with zero energies and does not truncate. The property holds for analyzers on which set_max_history was never called, and after a reset until it is called again.)", "quantifier": "every history of calls including set_max_history at any point", "why_tests_cant": "violations appear only at particular interleavings of calls and sizes", "anchors": [{"file": "src/ebur128.rs", "symbols": ["EbuR128::set_max_history"]}, {"file": "src/history.rs", "symbols": ["Queue::set_max_size", "Queue::add"]}]}
{"id": "C09", "title": "No panic and no hang in any call history", "statement": "For every analyzer obtained from new whose configuration satisfies the buffer condition (every rate >= 146 does), no sequence of public calls with arbitrary samples (including NaN, infinities, subnormals) panics, indexes out of bounds or loops forever, provided planar input has as many channels as the analyzer. The excluded points really fail: rates 16 and 17 without S panic in add_frames, planar input with a wrong channel count panics.", "quantifier": "every finite sequence of public calls, all sample values, all admissible rates", "why_tests_cant": "panics depend on rate arithmetic, ring positions and call history", "anchors": [{"file": "src/ebur128.rs", "symbols": ["EbuR128::add_frames"]}, {"file": "src/filter.rs", "symbols": ["Filter::process", "Filter::calc_gating_block"]}, {"file": "src/history.rs", "symbols": ["Histogram::loudness_range", "Queue::loudness_range"]}]}
{"id": "C10", "title": "Buffer size suffices for the windows the mode promises", "statement": "For every rate >= 18 and mode M, loudness_momentary() is Ok in every reachable state; for every rate >= 146 and mode S, loudness_shortterm() is Ok in every reachable state; the exact set of low rates for which this fails is characterised. Without S and without a larger max window loudness_shortterm() is InvalidMode.", "quantifier": "all rates, all windows, all call histories", "why_tests_cant": "2.8 million rates times all windows; failing rates are a thin set", "anchors": [{"file": "src/ebur128.rs", "symbols": ["EbuR128::allocate_audio_data", "EbuR128::energy_in_interval", "EbuR128::loudness_momentary", "EbuR128::loudness_shortterm"]}]}
{"id": "C11", "title": "Results do not depend on how the input is split into calls", "statement": "Feeding a signal in any partition into add_frames calls leaves the analyzer in the same state as feeding it in one call, except for the prev_* peaks, so every loudness, range, threshold and overall peak query returns the bit-identical value (on targets with hardware flush-to-zero, i.e. SSE2).", "quantifier": "every reachable state, every signal, every partition, every sample type", "why_tests_cant": "exponentially many partitions, bit-exact claim about rounding", "anchors": [{"file": "src/ebur128.rs", "symbols": ["EbuR128::add_frames"]}, {"file": "src/filter.rs", "symbols": ["Filter::process"]}, {"file": "src/true_peak.rs", "symbols": ["UpsamplingScanner::check_true_peak"]}]}
{"id": "C12", "title": "Software flush-to-zero makes results depend on the split (non-SSE2)", "statement": "On targets without SSE2 the filter state is flushed to zero below f64::EPSILON at the end of every internal processing step, so chunk-independence fails there: for every channel in use there are two frames that leave different filter states when delivered in one call and in two. What remains true on every target: two ways of cutting a sound into add_frames calls on 100 ms boundaries (past the first 400 ms) lead to the same state, and the overall sample and true peaks never depend on the cut.", "quantifier": "existence of a signal and partition for every new or reset analyzer whose coefficients are finite with a first feedback coefficient of at least 2^-53 in magnitude, and every channel in use; all block-aligned partitions after any feeding history; all partitions for the peaks", "why_tests_cant": "the affected target is not the one CI tests run on", "anchors": [{"file": "src/filter.rs", "symbols": ["Filter::process", "ftz::with_ftz"]}]}
{"id": "C13", "title": "Gating blocks are exactly the overlapping 400 ms blocks of the K-weighted signal", "statement": "After feeding n frames (in any chunks) to a new analyzer in mode I, the integration history has been offered exactly the energies of blocks ending at frame 4s, 5s, 6s, ... <= n where s is the number of samples in 100 ms, each the channel-weighted mean square of exactly the last 4s filtered frames.", "quantifier": "every signal, length, chunking, rate, window, channel map", "why_tests_cant": "ring-buffer wrap-around positions for every rate/window combination", "anchors": [{"file": "src/ebur128.rs", "symbols": ["EbuR128::add_frames"]}, {"file": "src/filter.rs", "symbols": ["Filter::process", "Filter::calc_gating_block"]}]}
{"id": "C14", "title": "Short-term blocks are the 3 s blocks every second", "statement": "In mode LRA the range history has been offered exactly the energies of the last 30s filtered frames at frames 30s, 40s, 50s, ... <= n.", "quantifier": "every signal, length, chunking, rate", "why_tests_cant": "counter arithmetic over unbounded signals and chunkings", "anchors": [{"file": "src/ebur128.rs", "symbols": ["EbuR128::add_frames", "EbuR128::energy_shortterm"]}]}
{"id": "C15", "title": "Window queries look at exactly the last frames", "statement": "loudness_momentary, loudness_shortterm and loudness_window(w) are computed from exactly the last 4s, 30s, rate*w/1000 filtered frames (silence before the start), wherever the ring buffer has wrapped.", "quantifier": "every signal, chunking, rate, max window and queried window", "why_tests_cant": "every wrap position must be right", "anchors": [{"file": "src/ebur128.rs", "symbols": ["EbuR128::energy_in_interval"]}, {"file": "src/filter.rs", "symbols": ["Filter::calc_gating_block"]}]}
{"id": "C16", "title": "Planar and interleaved input are equivalent", "statement": "add_frames_planar_* on per-channel slices has exactly the effect of add_frames_* on their interleaving, and likewise for seed_frames_*.", "quantifier": "every signal, channel count, sample type and analyzer state", "why_tests_cant": "must hold for every length, channel count and internal split position", "anchors": [{"file": "src/utils.rs", "symbols": ["Interleaved", "Planar", "Samples"]}, {"file": "src/ebur128.rs", "symbols": ["EbuR128::add_frames_planar_f32"]}]}
{"id": "C17", "title": "Integer and f32 input are equivalent to f64 input", "statement": "Feeding i16 samples x has bit-identically the same effect as feeding the f64 samples x/32768, i32 samples as x/2^31, and f32 samples as the same values in f64, for the whole state including sample and true peaks, for add_frames and seed_frames and for malformed input too. For f32 this needs that no sample is subnormal if the target sets flush-to-zero; with subnormal f32 samples, flush-to-zero and a fused mul_add the true peaks do differ.", "quantifier": "every signal of every integer/f32 sample type", "why_tests_cant": "2^16 and 2^32 sample values, unbounded signals, rounding in f32 and f64", "anchors": [{"file": "src/utils.rs", "symbols": ["Sample"]}, {"file": "src/filter.rs", "symbols": ["Filter::process"]}, {"file": "src/true_peak.rs", "symbols": ["UpsamplingScanner::check_true_peak"]}]}
{"id": "C18", "title": "Input validation of frame counts", "statement": "Interleaved input whose length is not a multiple of the channel count, and planar input with no channel or unequal channel lengths, is rejected with NoMem; everything else is accepted by the layout check; zero-length input changes nothing at all (not even prev peaks).", "quantifier": "every input slice shape", "why_tests_cant": "unbounded shapes", "anchors": [{"file": "src/utils.rs", "symbols": ["Interleaved::new", "Planar::new"]}, {"file": "src/ebur128.rs", "symbols": ["EbuR128::add_frames"]}]}
{"id": "C19", "title": "Sample peak is the exact maximum absolute sample", "statement": "sample_peak(c) equals the maximum of |x|/full-scale over all non-NaN samples of channel c since construction, reset or channel-count change (0 if none), exactly; it never decreases while frames are added, is never negative and never NaN.", "quantifier": "every signal including NaN and infinities, every chunking, sample type and channel", "why_tests_cant": "all sample values and call histories", "anchors": [{"file": "src/filter.rs", "symbols": ["Filter::process"]}, {"file": "src/ebur128.rs", "symbols": ["EbuR128::sample_peak", "EbuR128::add_frames"]}]}
{"id": "C20", "title": "prev_sample_peak is the maximum of the last non-empty call", "statement": "prev_sample_peak(c) equals the maximum absolute sample of channel c in the most recent add_frames call with at least one frame, independent of everything before it.", "quantifier": "every call history", "why_tests_cant": "unbounded history", "anchors": [{"file": "src/ebur128.rs", "symbols": ["EbuR128::prev_sample_peak"]}, {"file": "src/filter.rs", "symbols": ["Filter::reset_peaks", "Filter::process"]}]}
{"id": "C21", "title": "True peak bounds", "statement": "true_peak(c) >= sample_peak(c) >= 0 and prev_true_peak(c) >= prev_sample_peak(c); neither is ever NaN whatever the input; true_peak never decreases while frames are added; overall peaks are the maximum of the per-call peaks; at rates >= 192000 true_peak equals sample_peak.", "quantifier": "every call history and all sample values", "why_tests_cant": "all sample values and call histories", "anchors": [{"file": "src/ebur128.rs", "symbols": ["EbuR128::true_peak", "EbuR128::prev_true_peak"]}, {"file": "src/true_peak.rs", "symbols": ["UpsamplingScanner::check_true_peak"]}]}
{"id": "C22", "title": "The true-peak interpolator is the documented polyphase FIR", "statement": "For any number of frames pushed, the interpolator's k-th output phase is the dot product of its coefficients with the last 12 (4x) or 24 (2x) input frames, newest first, zeros before the start; oversampling is 4x below 96 kHz, 2x below 192 kHz, none at or above.", "quantifier": "every input sequence length", "why_tests_cant": "rolling-buffer wrap positions over unbounded sequences", "anchors": [{"file": "src/interp.rs", "symbols": ["InterpF::interpolate", "RollingBuffer"]}, {"file": "src/true_peak.rs", "symbols": ["UpsamplingScanner::new"]}]}
{"id": "C23", "title": "Unsafe rolling buffer accesses are in bounds", "statement": "For every sequence of pushes and resets every unchecked index used by the rolling buffer is below its 48-element storage and the returned view lies inside it.", "quantifier": "every sequence of operations, both tap counts", "why_tests_cant": "memory safety over unbounded sequences", "anchors": [{"file": "src/interp.rs", "symbols": ["RollingBuffer::push_front", "RollingBuffer::as_ref"]}]}
{"id": "C24", "title": "Channels do not influence each other's peaks and specialised scanners agree with the generic one", "statement": "The sample and true peak of channel c depend only on the samples of channel c: they equal those of a mono analyzer at the same rate fed with channel c, for every channel count including the specialised 1/2/4/6/8-channel code paths.", "quantifier": "every channel count, signal and chunking", "why_tests_cant": "12 code paths times all signals", "anchors": [{"file": "src/true_peak.rs", "symbols": ["UpsamplingScanner"]}, {"file": "src/filter.rs", "symbols": ["Filter::process"]}]}
{"id": "C25", "title": "Unused channels never influence loudness", "statement": "Changing the samples of channels mapped to Unused to anything (including NaN) changes no loudness, range, threshold or gating result.", "quantifier": "every pair of signals agreeing on used channels, every chunking", "why_tests_cant": "non-interference over all pairs of inputs", "anchors": [{"file": "src/filter.rs", "symbols": ["Filter::process", "Filter::calc_gating_block"]}]}
{"id": "C26", "title": "Channel weights", "statement": "The energy of a block is the sum over used channels of weight times mean square, with weight 1.41 for surround and +-60/+-90 degree channels, 2 for DualMono and 1 for every other type.", "quantifier": "all 32 channel types, all signals", "why_tests_cant": "all channel maps and signals", "anchors": [{"file": "src/filter.rs", "symbols": ["Filter::calc_gating_block"]}]}
{"id": "C27", "title": "Dual mono equals stereo with identical channels", "statement": "A mono analyzer with its channel set to DualMono reports bit-identically the same global, momentary, short-term, window loudness, threshold and range as a stereo analyzer fed the same samples on both channels.", "quantifier": "every signal, chunking and mode", "why_tests_cant": "bit-exactness over all signals", "anchors": [{"file": "src/filter.rs", "symbols": ["Filter::calc_gating_block"]}, {"file": "src/ebur128.rs", "symbols": ["EbuR128::set_channel"]}]}
{"id": "C28", "title": "Swapping left and right does not change loudness", "statement": "Exchanging the two channels of a stereo signal leaves every loudness result bit-identical and exchanges the peaks.", "quantifier": "every stereo signal", "why_tests_cant": "bit-exactness over all signals", "anchors": [{"file": "src/filter.rs", "symbols": ["Filter::calc_gating_block"]}]}
{"id": "C29", "title": "Polarity inversion does not change any measurement", "statement": "Negating all f32/f64 samples leaves every loudness and every peak bit-identical.", "quantifier": "every signal", "why_tests_cant": "needs sign symmetry of every rounding step over all signals", "anchors": [{"file": "src/filter.rs", "symbols": ["Filter::process"]}, {"file": "src/interp.rs", "symbols": ["InterpF::interpolate"]}]}
{"id": "C30", "title": "Histogram binning is correct", "statement": "For every energy at or above the -70 LUFS boundary the binary search terminates and returns the unique bin whose boundaries enclose it (the last bin for energies beyond the top boundary), always an index below 1000; each bin centre lies inside its bin and all tables are strictly increasing.", "quantifier": "every f64 including infinities and NaN", "why_tests_cant": "2^64 energies", "anchors": [{"file": "src/history.rs", "symbols": ["find_histogram_index"]}, {"file": "src/histogram_bins.rs", "symbols": ["ENERGIES", "BOUNDARIES"]}]}
{"id": "C31", "title": "Absolute gate", "statement": "A block with energy below the -70 LUFS boundary never affects integrated loudness, relative threshold, gating count or loudness range, in either storage mode; digital silence in any amount leaves loudness_global at -inf and relative_threshold at -70.", "quantifier": "every energy, every history", "why_tests_cant": "unbounded histories", "anchors": [{"file": "src/history.rs", "symbols": ["History::add"]}]}
{"id": "C32", "title": "Integrated loudness is two-stage gating", "statement": "In queue mode loudness_global() equals energy_to_loudness of the mean of the stored block energies that are at least powf(10,-1) times the mean of all stored energies, -inf when nothing is stored or nothing passes, NaN when the stored sum is NaN; at least one block always passes for fewer than 2^50 non-negative blocks with finite sum.", "quantifier": "every list of stored energies", "why_tests_cant": "unbounded lists, rounding", "anchors": [{"file": "src/history.rs", "symbols": ["History::iter_gating_block_count_and_energy", "History::gating_block_count_and_energy_multiple", "History::gated_loudness_multiple"]}]}
{"id": "C33", "title": "Histogram gating equals list gating of the bin centres", "statement": "In histogram mode the gating count, energy sum and loudness are those of the two-stage gate applied to the multiset in which every stored energy is replaced by its bin centre.", "quantifier": "every histogram", "why_tests_cant": "all 1000-bin contents and thresholds", "anchors": [{"file": "src/history.rs", "symbols": ["Histogram::calc_relative_threshold", "History::iter_gating_block_count_and_energy"]}]}
{"id": "C34", "title": "Histogram quantisation error", "statement": "Replacing energies by bin centres changes each energy by at most 0.05 dB plus 1e-9 dB of table rounding (for energies within the table range), hence the mean of any set of blocks by at most the same amount.", "quantifier": "every energy in range, every multiset of energies", "why_tests_cant": "continuum of energies", "anchors": [{"file": "src/histogram_bins.rs", "symbols": ["ENERGIES", "BOUNDARIES"]}, {"file": "src/history.rs", "symbols": ["Histogram::add"]}]}
{"id": "C35", "title": "Gating count and energy are consistent with the loudness", "statement": "If gating_block_count_and_energy() is Some((n,e)) then n >= 1, n is at most the number of stored blocks, and loudness_global() (mode I) is energy_to_loudness(e/n); if it is None then loudness_global() is -inf or NaN.", "quantifier": "every reachable state", "why_tests_cant": "unbounded states", "anchors": [{"file": "src/ebur128.rs", "symbols": ["EbuR128::gating_block_count_and_energy"]}, {"file": "src/history.rs", "symbols": ["History"]}]}
{"id": "C36", "title": "Relative threshold", "statement": "relative_threshold() is -70 when no block is stored and otherwise energy_to_loudness(0.1 * mean), NaN if the sum is NaN; it requires mode I.", "quantifier": "every stored history", "why_tests_cant": "unbounded histories", "anchors": [{"file": "src/history.rs", "symbols": ["History::relative_threshold"]}]}
{"id": "C37", "title": "Loudness range is the EBU 3342 percentile difference", "statement": "In queue mode loudness_range() is 0 for an empty history, NaN if any energy is NaN, and otherwise the loudness difference between the 95% and 10% nearest-rank percentiles of the stored energies not below 1% of their mean; every index used is in bounds; the result does not depend on the order in which energies were stored and is never negative for finite energies.", "quantifier": "every list of energies of any length", "why_tests_cant": "unbounded lists; float index arithmetic", "anchors": [{"file": "src/history.rs", "symbols": ["Queue::loudness_range", "History::loudness_range_multiple"]}]}
{"id": "C38", "title": "Histogram loudness range equals the percentile difference of the bin centres", "statement": "In histogram mode loudness_range() is the same nearest-rank percentile difference computed on the expanded sorted list of bin centres; it never indexes out of bounds.", "quantifier": "every histogram content", "why_tests_cant": "all bin contents; duplicate handling in binary search", "anchors": [{"file": "src/history.rs", "symbols": ["Histogram::loudness_range"]}]}
{"id": "C39", "title": "Multi-instance queries", "statement": "loudness_global_multiple of one analyzer equals its loudness_global; of several analyzers it gates over the concatenation of their histories; of none it is -inf. loudness_range_multiple likewise (0 for none). InvalidMode is returned iff some analyzer lacks the mode (or, for the range, histogram and queue analyzers are mixed).", "quantifier": "every finite list of analyzers", "why_tests_cant": "unbounded lists and states", "anchors": [{"file": "src/ebur128.rs", "symbols": ["EbuR128::loudness_global_multiple", "EbuR128::loudness_range_multiple"]}, {"file": "src/history.rs", "symbols": ["History::gated_loudness_multiple", "History::loudness_range_multiple"]}]}
{"id": "C40", "title": "NaN is reported, never hidden, in queue mode", "statement": "Once a NaN block energy has been stored in queue mode and not evicted, loudness_global and relative_threshold are NaN; in histogram mode NaN energies are counted in the lowest bin; loudness_range is NaN when any stored energy is NaN.", "quantifier": "every history containing a NaN at any position", "why_tests_cant": "all positions and lengths", "anchors": [{"file": "src/history.rs", "symbols": ["History::add", "History::gated_loudness_multiple", "History::loudness_range_multiple"]}]}
{"id": "C41", "title": "Mode gating of queries", "statement": "loudness_global, relative_threshold need I; loudness_range needs LRA; sample_peak/prev_sample_peak need SAMPLE_PEAK; true_peak/prev_true_peak need TRUE_PEAK: each returns InvalidMode exactly when the bits are missing, InvalidChannelIndex exactly when the mode is present and the channel index is out of range, and Ok otherwise, in every reachable state.", "quantifier": "every mode bit pattern, channel index and reachable state", "why_tests_cant": "2^7 modes times all histories", "anchors": [{"file": "src/ebur128.rs", "symbols": ["Mode", "EbuR128::loudness_global", "EbuR128::sample_peak", "EbuR128::true_peak"]}]}
{"id": "C42", "title": "reset returns to the initial measurement state", "statement": "After reset() the analyzer is identical to a freshly constructed analyzer with the same channel map, max window and history limit applied, so every later observation agrees.", "quantifier": "every reachable state", "why_tests_cant": "unbounded histories before the reset", "anchors": [{"file": "src/ebur128.rs", "symbols": ["EbuR128::reset"]}, {"file": "src/filter.rs", "symbols": ["Filter::reset"]}, {"file": "src/history.rs", "symbols": ["History::reset"]}]}
{"id": "C43", "title": "Seeding warms filters and nothing else", "statement": "seed_frames_* changes no current query result and no history, counter or peak; the filter and interpolator state afterwards equals the state after add_frames of the same samples, so subsequently added frames are filtered exactly as if the seed had been part of the stream.", "quantifier": "every state, every seed signal", "why_tests_cant": "unbounded signals", "anchors": [{"file": "src/ebur128.rs", "symbols": ["EbuR128::seed_frames"]}, {"file": "src/filter.rs", "symbols": ["Filter::seed"]}, {"file": "src/true_peak.rs", "symbols": ["TruePeak::seed"]}]}
{"id": "C44", "title": "Chunked parallel analysis sees the same blocks", "statement": "Splitting a signal at multiples of 100 ms with 300 ms of overlap and giving each later analyzer the preceding samples as seed, the gating blocks of all analyzers together are exactly the gating blocks of one analyzer over the whole signal (same frames summed), and the maximum of their sample peaks is the overall one.", "quantifier": "every signal, every list of split points", "why_tests_cant": "unbounded signals and splits", "anchors": [{"file": "src/ebur128.rs", "symbols": ["EbuR128::loudness_global_multiple", "EbuR128::seed_frames"]}]}
{"id": "C45", "title": "loudness_window argument handling", "statement": "loudness_window(w) is InvalidMode exactly when rate*w/1000 exceeds the buffer or overflows usize, otherwise Ok; for windows shorter than one frame the value is NaN; non-positive energy gives -inf.", "quantifier": "every u32 window and state", "why_tests_cant": "2^32 windows times states", "anchors": [{"file": "src/ebur128.rs", "symbols": ["EbuR128::loudness_window", "EbuR128::energy_in_interval"]}]}
{"id": "C46", "title": "A gain shifts every loudness and leaves the range alone", "statement": "In exact arithmetic, multiplying every sample fed by g > 0 multiplies the K-weighted signal of every channel by g and the energy of every window by g^2. It adds 20*log10(g) to the momentary, short-term and windowed loudness of every window that is not silent. In queue mode, if every gating block is above the absolute gate before and after, it adds 20*log10(g) to the integrated loudness and to the relative threshold; if every short-term block is, the loudness range does not change. This holds for every length of signal and every limit of the history.", "quantifier": "every signal and gain", "why_tests_cant": "continuum of gains and signals", "anchors": [{"file": "src/filter.rs", "symbols": ["Filter::process"]}, {"file": "src/history.rs", "symbols": ["History"]}]}
{"id": "C47", "title": "K-weighting filter: where it is stable, and that it blocks direct current", "statement": "In exact arithmetic, at every sample rate >= 1 all poles of the filter the code designs are strictly inside the unit circle if and only if floor(3363/rate) and floor(76/rate) are both even; so it is stable at every rate >= 3364, and at the rates 1682..3363 it has a pole strictly outside. At a stable rate a signal bounded by M leaves the filter bounded by one constant times M, and a constant input, after any signal, leaves it as a signal dying out geometrically. At an unstable rate a single sample followed by silence leaves it as an unbounded signal. At every rate the numerator has a double zero at z = 1.", "quantifier": "every sample rate from 1, every input signal of any length", "why_tests_cant": "analytic statement over a continuum", "anchors": [{"file": "src/filter.rs", "symbols": ["filter_coefficients"]}]}
{"id": "C48", "title": "C API error codes and state mirroring", "statement": "Every ebur128_* function returns 0 exactly when the Rust call returns Ok and 1/2/3 for NoMem/InvalidMode/InvalidChannelIndex, writes *out only on success; sizes that do not fit (a window or history beyond 32 bits, frames*channels overflowing) are NoMem without any effect; otherwise 4 (NO_CHANGE) is reported, without any effect, exactly when the requested setting equals the current one; the channels field of the C state always equals the analyzer's channel count; channel types, mode bits and version have the numbers of the C header.", "quantifier": "every state and argument", "why_tests_cant": "unbounded states and arguments", "anchors": [{"file": "src/capi.rs", "symbols": ["ebur128_change_parameters", "ebur128_set_max_window", "ebur128_set_max_history", "ebur128_add_frames_short", "ebur128_init"]}]}
{"id": "C49", "title": "C API narrows sample rates", "statement": "ebur128_init and ebur128_change_parameters pass the low 32 bits of the unsigned long sample rate on; the recorded samplerate field equals the analyzer's rate exactly when the caller's value is below 2^32.", "quantifier": "every unsigned long", "why_tests_cant": "2^64 values", "anchors": [{"file": "src/capi.rs", "symbols": ["ebur128_init", "ebur128_change_parameters"]}]}
{"id": "C50", "title": "Floating-point control register is restored", "statement": "After every add_frames/seed_frames call, whether it returns normally or panics, the SSE control register has its previous value; inside, flush-to-zero is set.", "quantifier": "every initial register value, every outcome of the closure", "why_tests_cant": "all register values and panic points", "anchors": [{"file": "src/filter.rs", "symbols": ["ftz::with_ftz", "ftz::Ftz"]}]}
{"id": "C51", "title": "Loudness conversion is monotone", "statement": "energy_to_loudness is monotone (given a monotone log10), so louder energies never report lower loudness, and the loudness of a louder set of gated blocks is not lower.", "quantifier": "every pair of energies", "why_tests_cant": "2^128 pairs", "anchors": [{"file": "src/utils.rs", "symbols": ["energy_to_loudness"]}]}
{"id": "C52", "title": "Accuracy of measured energies and levels", "statement": "In IEEE arithmetic the energy of a window of N frames and C channels is within a relative error of (N + C + 5) 2^-52 of the exact weighted mean square of the same K-weighted samples, does not overflow for samples below 2^64, and momentary, short-term and window loudness are within 10 d + (N + C + 5) 2^-48 + 1e-12 dB of the exact level, where d is the absolute error of the platform's log10.", "quantifier": "every history of add_frames/seed_frames calls, window length and channel layout", "why_tests_cant": "worst-case rounding over all sample values", "anchors": [{"file": "src/filter.rs", "symbols": ["Filter::calc_gating_block"]}, {"file": "src/utils.rs", "symbols": ["energy_to_loudness"]}]}
{"id": "C53", "title": "The K-weighting filter is that of ITU-R BS.1770", "statement": "In exact arithmetic the 48 kHz coefficients are the cascade of the two sections of ITU-R BS.1770, equal to the printed tables in all fourteen digits; at every rate the filter is the bilinear transform of the same analogue filter times a gain that depends on the rate, within 0.05 dB of the 48 kHz gain from 32 kHz up, but more than 0.2 dB higher at 8 kHz.", "quantifier": "every sample rate, every frequency", "why_tests_cant": "a continuum of frequencies and all rates; tests compare a few signals with a tolerance", "anchors": [{"file": "src/filter.rs", "symbols": ["filter_coefficients"]}]}
{"id": "C54", "title": "Response to a tone and calibration", "statement": "In exact arithmetic, whatever was measured before, a sinusoid in every channel leaves the K-weighting filter multiplied by its transfer function up to a transient that dies out exponentially, and momentary, short-term, window and integrated loudness tend to the level of the filtered sinusoids; at 48 kHz a 997 Hz tone of peak amplitude a in one front channel reads 20 log10 a - 3.01 within 0.005 (the calibration of BS.1770).", "quantifier": "every stable rate, frequency, amplitude and phase per channel, channel layout, earlier history", "why_tests_cant": "all frequencies and all earlier histories, unbounded duration", "anchors": [{"file": "src/filter.rs", "symbols": ["filter_coefficients", "Filter::process", "Filter::calc_gating_block"]}, {"file": "src/utils.rs", "symbols": ["energy_to_loudness"]}, {"file": "src/ebur128.rs", "symbols": ["EbuR128::loudness_momentary", "EbuR128::loudness_global"]}]}
{"id": "C55", "title": "The coefficients of the interpolator are a Hann-windowed sinc", "statement": "Coefficient j of the true-peak interpolator is the 49-point Hann window times sinc((j - 24) / factor): up to the digits of the constant PI in exact arithmetic, and within 2^-22 as a finite f32 for any sin and cos accurate to 2^-30. The kernel is symmetric and its phase 0 is a pure delay of 24 / factor samples.", "quantifier": "every coefficient, both oversampling factors, every libm of that accuracy", "why_tests_cant": "all platform libraries; the tests compare with a C implementation compiled with the same libm", "anchors": [{"file": "src/interp.rs", "symbols": ["InterpF::new"]}]}
{"id": "C56", "title": "True peak of a sinusoid", "statement": "Every interpolated sample is a finite number within M/10000 + 2^-118 of the convolution of the samples (bounded by M) with the windowed sinc, with or without fused multiply-add and flush to zero. The kernel reproduces any sinusoid up to a quarter of the sampling rate to 0.4 % (0.05 % with factor 2). Hence prev_true_peak of a call following such a sinusoid is at most its amplitude plus a small margin and, if the call spans half a period, at least the amplitude times cos(\u03c9 / (2 factor)) minus the margin; up to 12 kHz at 48 or 96 kHz this is within the -0.4/+0.2 dB tolerance of EBU Tech 3341. true_peak is never below that bound whatever came before or after.", "quantifier": "every amplitude, phase, frequency up to a quarter of the rate, perturbation, history, chunking and target", "why_tests_cant": "a continuum of frequencies, phases and amplitudes", "anchors": [{"file": "src/interp.rs", "symbols": ["InterpF::new", "InterpF::interpolate"]}, {"file": "src/true_peak.rs", "symbols": ["UpsamplingScanner"]}, {"file": "src/ebur128.rs", "symbols": ["EbuR128::prev_true_peak", "EbuR128::true_peak"]}]}
{"id": "C57", "title": "Accuracy of the whole chain, K-weighting filter included", "statement": "From 8 kHz to 400 kHz, with tan and powf accurate to 2^-50, every K-weighted value the code computes is finite and within stateGain(rate)/2^38 times the peak of the input of the value exact arithmetic gives with exact coefficients, however long the signal is (stateGain(rate) = (rate/7400 + 2)^2 (rate/239 + 2)^2, about 1e-5 of the peak at 48 kHz). The exact filter amplifies peaks at most thirteenfold. Hence momentary, short-term and window loudness, and the energy of every block, are within explicit bounds of the exact values computed from the input samples. Integer input needs no assumption about the samples.", "quantifier": "every signal of any length and chunking, seeded or added, every channel layout, every libm of that accuracy", "why_tests_cant": "rounding errors accumulate in a recursive filter over unbounded time", "anchors": [{"file": "src/filter.rs", "symbols": ["Filter::new", "Filter::process", "filter_coefficients"]}, {"file": "src/ebur128.rs", "symbols": ["EbuR128::loudness_momentary", "EbuR128::loudness_shortterm", "EbuR128::loudness_window"]}]}
{"id": "C58", "title": "Accuracy of the integrated loudness, gating included", "statement": "Take the exact powers of the gating blocks, computed from the input samples in exact arithmetic. If no block is within twice its uncertainty of the absolute gate (-70 LUFS) or of the relative gate (10 dB below the mean of the blocks above the absolute gate), the code's gates keep exactly the blocks BS.1770 keeps. The integrated loudness it reports is then minus infinity exactly if no block reaches the absolute gate, and otherwise a number within 20 (eta + theta / mean power) dB of the exact integrated loudness, plus the error of log10. eta and theta are explicit: relative rounding of sums and means, and the noise of the filter.", "quantifier": "every signal of any length, chunking and channel layout whose blocks keep that distance from the gates, rates from 8 to 400 kHz, every libm of the accuracy of C57", "why_tests_cant": "a gate is a discontinuity: no finite set of signals shows that rounding never moves a block across it", "anchors": [{"file": "src/history.rs", "symbols": ["History::iter_gating_block_count_and_energy", "History::gated_loudness_multiple", "History::add"]}, {"file": "src/ebur128.rs", "symbols": ["EbuR128::loudness_global", "EbuR128::add_frames"]}]}
{"id": "C59", "title": "Accuracy of the loudness range, gating and percentiles included", "statement": "Take the exact powers of the short-term (3 s) blocks, computed from the input samples in exact arithmetic. If no block is within its uncertainty of the absolute gate (-70 LUFS) or of the gate of the range (20 dB below the mean of the blocks above the absolute gate), the code's gates keep exactly the blocks EBU Tech 3342 keeps. The loudness range it reports is then zero exactly if no block reaches the absolute gate, and otherwise within 12 eta + 21 theta / P10 LU, plus 20 times the error of log10, of the exact difference of the nearest-rank 95th and 10th percentiles; P10 is the lower percentile. Sorting computed energies instead of exact powers may change the order, but not the percentiles by more than that.", "quantifier": "every signal of any length, chunking and channel layout whose blocks keep that distance from the gates, rates from 8 to 400 kHz, every libm of the accuracy of C57", "why_tests_cant": "rounding may swap blocks in the sort and move them across a gate; no finite set of signals rules this out", "anchors": [{"file": "src/history.rs", "symbols": ["Queue::loudness_range", "History::loudness_range_multiple"]}, {"file": "src/ebur128.rs", "symbols": ["EbuR128::loudness_range", "EbuR128::energy_shortterm"]}]}
{"id": "C60", "title": "Accuracy in histogram mode", "statement": "In histogram mode, where only the number of blocks in each of 1000 bins of 0.1 dB is kept, integrated loudness and loudness range are compared with exact arithmetic from the input samples on. If no block is near the absolute gate, none is within a bin (plus uncertainty) of the relative gate, and none is above 1000 (about +29 LUFS, the top of the table), the blocks counted above each gate are the ones BS.1770 and EBU Tech 3342 keep. The integrated loudness is then within half a bin (0.05 dB), and the loudness range within one bin (0.1 LU), of the exact value, plus the errors of C58 and C59.", "quantifier": "every signal of any length, chunking and channel layout whose blocks keep that distance from the gates, rates from 8 to 400 kHz, every libm of the accuracy of C57", "why_tests_cant": "every bin, every distribution of blocks over the bins and every position inside a bin would have to be tried", "anchors": [{"file": "src/history.rs", "symbols": ["find_histogram_index", "Histogram::calc_relative_threshold", "Histogram::loudness_range", "History::iter_gating_block_count_and_energy"]}, {"file": "src/histogram_bins.rs", "symbols": ["ENERGIES", "BOUNDARIES"]}]}
{"id": "C61", "title": "Blocks and windows on targets without hardware flush-to-zero", "statement": "C13, C14 and C15 hold on every target with one change: without SSE2 the K-weighting filter sets its states below f64::EPSILON to zero after the last frame of every add_frames or seed_frames call and after every frame that completes a gating block, and at no other time. The gating blocks, the short-term blocks and the momentary, short-term and window loudness are those of the signal filtered this way, over exactly the frames C13 to C15 name. With SSE2, and on any target as long as no state falls below f64::EPSILON, this is the plain K-weighted signal.", "quantifier": "every feeding history, chunking, sample type, rate and channel layout, every target, generic arithmetic", "why_tests_cant": "the flush points depend on the chunking and the position of the block grid, the tests run on SSE2 targets only", "anchors": [{"file": "src/filter.rs", "symbols": ["Filter::process", "Filter::seed", "ftz::with_ftz"]}, {"file": "src/ebur128.rs", "symbols": ["EbuR128::add_frames", "EbuR128::seed_frames"]}]}
{"id": "C62", "title": "The K-weighting filter, the sample peak and the block energy are those of the C library", "statement": "The crate ports libebur128; tests/c holds the C functions. With hardware flush-to-zero, after any sequence of process and reset-peaks calls with samples of any of the four types, both filters have written the same doubles, bit for bit, hold the same states and report the same sample peaks, and for every block length, position and channel map the energies of the block are the same double. Without hardware flush-to-zero this holds as long as the C filter holds no state that is smaller than f64::EPSILON and not zero; otherwise the two differ, because C flushes below DBL_MIN and the crate below f64::EPSILON. The C functions never access memory out of bounds. Samples of type double must not be subnormal: with flush-to-zero C takes them as zero (it divides by 1.0) and the crate takes them as they are.", "quantifier": "every sequence of calls of any chunking, sample type, buffer position, channel map, rate and channel count; the block energy in any arithmetic", "why_tests_cant": "the c-tests feature compares the two on random signals within a tolerance; it cannot show equality for all, nor find the two exceptions", "anchors": [{"file": "src/filter.rs", "symbols": ["Filter::new", "Filter::process", "Filter::calc_gating_block", "Filter::reset_peaks", "ftz::with_ftz"]}, {"file": "tests/c/filter.c", "symbols": ["filter_create_c", "filter_process_*_c", "filter_reset_peaks_c"]}, {"file": "tests/c/calc_gating_block.c", "symbols": ["calc_gating_block_c"]}]}
{"id": "C63", "title": "Block histories, gating and loudness range are those of the C library", "statement": "Given the same tables, a history of the crate and one of tests/c/history.c, created alike and fed the same block energies, hold the same blocks, as a histogram and as a queue. The integrated loudness, the relative threshold and the loudness range are then conversions of the same energies: the same doubles go into the logarithm, with the same answer where there is nothing to convert. No C function accesses a table, histogram or list out of bounds. The tables that C computes with pow agree with the crate's constants to within 1e-13 and the gate factors are equal. The two differ in three cases: C drops a block of energy NaN and the crate keeps it; after a change of the maximum number of blocks they agree exactly if the queue holds that many blocks (or in histogram mode); and with room for no block C dereferences a null pointer where the crate keeps a block.", "quantifier": "every sequence of block energies without NaN, both modes, every queue length above 0, every target with a usize below 2^64; any libm for the histories, one accurate to 2^-50 for the tables", "why_tests_cant": "the c-tests feature compares the two on random energies within a tolerance and changes no maximum; equality for all sequences, and the three exceptions, are beyond it", "anchors": [{"file": "src/history.rs", "symbols": ["History::new", "History::add", "History::set_max_size", "History::gated_loudness_multiple", "History::relative_threshold", "History::loudness_range_multiple", "History::gated_loudness"]}, {"file": "tests/c/history.c", "symbols": ["history_create_c", "history_add_c", "history_set_max_size_c", "history_gated_loudness_c", "history_relative_threshold_c", "history_loudness_range_c", "history_init_c"]}]}
{"id": "C64", "title": "Interpolators and true peaks agree with the C library", "statement": "The crate interpolates in f32 with 48 taps in fixed phases, tests/c/interp.c in double with 49 taps over a circular delay line, skipping the tiny ones. After any frames, every output sample of the two interpolators differs by at most 3.3e-6 times the largest sample, so by less than the 4e-6 that the crate's tests accept at full scale; the same holds for the true peaks of the two detectors after any chunks in any of the four sample formats and any resets of the peaks, and for those the two filters keep. At 192 kHz and above neither has a detector. No C function accesses its delay line, taps or buffers out of bounds.", "quantifier": "every signal of finite samples up to 2^100, every sequence of calls, channel count and rate, both oversampling factors, the four sample formats, every target; sin and cos accurate to 2^-30", "why_tests_cant": "the c-tests feature compares the two on random signals against a tolerance found by trial; a bound for all signals needs the error of both computations against the exact interpolation", "anchors": [{"file": "src/interp.rs", "symbols": ["InterpF::new", "InterpF::interpolate"]}, {"file": "src/true_peak.rs", "symbols": ["UpsamplingScanner::new", "UpsamplingScanner::check_true_peak"]}, {"file": "src/filter.rs", "symbols": ["Filter::process", "Filter::reset_peaks"]}, {"file": "tests/c/interp.c", "symbols": ["interp_create_c", "interp_process_c"]}, {"file": "tests/c/true_peak.c", "symbols": ["true_peak_create_c", "true_peak_check_##type##_c"]}]}
{"id": "C65", "title": "C API: memory is managed correctly and analyzers are independent", "statement": "A C program that keeps the pointers from ebur128_init in variables of its own, without copying them, sees exactly what it would see if every variable held an analyzer by value, whatever addresses the allocator hands out, freed ones included. No block is freed twice or used after it was freed. If it never overwrites a variable holding an analyzer, every live block belongs to such a variable, and after the last ebur128_destroy nothing is left. ebur128_destroy of NULL or of a null variable does nothing. What is seen of one variable does not depend on what is done with the others. Through a copy of a destroyed pointer, every function faults.", "quantifier": "every program (sequence of calls of the interface on any variables), every allocator that returns addresses not in use, any arithmetic", "why_tests_cant": "capi-test.c creates and destroys one analyzer; use after free depends on the interleaving of calls and on the addresses the allocator chooses", "anchors": [{"file": "src/capi.rs", "symbols": ["State", "ebur128_init", "ebur128_destroy", "ebur128_change_parameters", "ebur128_set_max_window", "ebur128_add_frames_short", "ebur128_loudness_global_multiple"]}]}
{"id": "C66", "title": "The example programs: what normalize and replaygain compute, and where they fail", "statement": "On every 16-bit file with whole frames, an accepted number of channels and an accepted rate of at least 146 Hz, normalize finishes and writes as many samples as it read, each scaled by the gain from the integrated loudness to -23 LUFS, and the loudness both examples use does not depend on the pieces of one second they feed. What normalize writes stays within -32767..32767, keeps the order of the samples for any gain of at least 0, is the exact product with the gain, clipped and truncated, up to a hundredth of the last bit, and is the sample itself at unity gain (-32768 becomes -32767). analyze_file of replaygain panics on the files without a block above the gates and reports loudness, gated blocks and a peak no channel exceeds on the others; the album gain is then -18 minus the loudness of the added energies of the files divided by the added number of their blocks, where each file is gated by its own relative threshold, so it may differ from the loudness of the album taken together. On a file shorter than a gating block normalize multiplies by infinity and writes +-32767 for every sample that is not 0, and replaygain panics.", "quantifier": "every file (samples, channels, rate), any libm, every 64-bit target; for the independence of the pieces one with SSE2; for short files powf(10, inf) = inf", "why_tests_cant": "the examples have no tests; they are only compiled", "anchors": [{"file": "examples/normalize.rs", "symbols": ["main"]}, {"file": "examples/replaygain.rs", "symbols": ["main", "analyze_file", "TrackData"]}, {"file": "src/ebur128.rs", "symbols": ["EbuR128::gating_block_count_and_energy", "EbuR128::loudness_global", "EbuR128::sample_peak", "energy_to_loudness"]}]}
{"id": "C67", "title": "The generator of the histogram tables writes what the crate needs", "statement": "Every double from 2^-66 up that examples/generate_histogram_bins.rs prints with 36 decimals is read back by the compiler as the same double. The file src/histogram_bins.rs is what the program prints for the doubles its literals stand for, in every digit. With a powf accurate to four units in the last place, the program writes 1000 energies and 1001 boundaries that are read back as computed, lie within 4.2e-14 of the energies of the middles and edges of bins of 0.1 LU from -70 LUFS up and within 1e-13 of the crate's, and are strictly ordered boundary, energy, boundary; it reproduces the digits of the file if and only if it computes the crate's doubles.", "quantifier": "every finite double from 2^-66 up; all 2001 entries; every libm whose powf(10, y) is accurate to 2^-50 on [-7, 4]", "why_tests_cant": "the program is run by hand and its output is not compared with anything; that regeneration on another machine keeps the tables usable depends on every accurate powf", "anchors": [{"file": "examples/generate_histogram_bins.rs", "symbols": ["main"]}, {"file": "src/histogram_bins.rs", "symbols": ["ENERGIES", "BOUNDARIES"]}]}
{"id": "C68", "title": "Every session of calls measures what it should", "statement": "Whatever sequence of add_frames, seed_frames, set_channel, set_channel_map, change_parameters, set_max_window, set_max_history and reset calls is made, accepted or refused, the analyzer afterwards has exactly the configuration, recorded gating blocks, recorded short-term blocks, and momentary, short-term and window loudness of an abstract session without ring buffer, counters and pieces: frames are filtered and measured one by one on a block grid that starts anew with set_max_window, change_parameters and reset; new windows keep the filter and the recorded blocks, new parameters clear the filter and keep the recorded blocks, reset clears both; the filter of an unused channel rests, and its signal repeats what it had one buffer length ago. So a channel that is set to Unused and back brings old audio back: after whole buffer lengths of anything while all channels are unused, restoring the channel map leaves the momentary, short-term and window loudness bit for bit as before the channels were muted.", "quantifier": "every sequence of calls from a new analyzer on which frames are fed only while the buffer holds a block (always from 146 Hz on), every environment with 64-bit usize and f64p.zero = f64.zero, with and without hardware flush-to-zero", "why_tests_cant": "the tests configure an analyzer once and feed it; reconfiguration between arbitrary feeds is a product of all call sequences, ring positions and window sizes", "anchors": [{"file": "src/ebur128.rs", "symbols": ["EbuR128::add_frames", "EbuR128::seed_frames", "EbuR128::set_channel", "EbuR128::set_channel_map", "EbuR128::change_parameters", "EbuR128::set_max_window", "EbuR128::set_max_history", "EbuR128::reset", "EbuR128::loudness_momentary", "EbuR128::loudness_shortterm", "EbuR128::loudness_window"]}, {"file": "src/filter.rs", "symbols": ["Filter::process", "Filter::seed"]}]}
{"id": "C69", "title": "How the blocks of a programme determine its integrated loudness", "statement": "In exact arithmetic, for any list of analyzers in any mixture of queue and histogram mode: the integrated loudness is the loudness of the mean of the recorded blocks at or above a tenth of their mean. It depends on the blocks alone, not on their order, on which analyzer recorded them, on the order of the analyzers or on how often the whole is repeated. It lies between a block at or above the gate and the loudest block, is at least the loudness of the mean of all blocks, and so is at least 10 LU above the relative threshold. A further block at least as loud as the programme never makes it softer; a further block no louder than the mean of all blocks never makes it louder. Two programmes together are at least as loud as the softer of their ungated means. In histogram mode the history does not depend on the order of the blocks in a single bit, on every IEEE target. What fails, with witnesses computed by the code: raising a block can lower the loudness, a block between the mean and the loudness can raise it, and an album can be louder or softer than each of its tracks.", "quantifier": "every list of reachable analyzers with mode I and a non-zero block, exact arithmetic; for the histogram every list of energies and every permutation of it, IEEE arithmetic", "why_tests_cant": "the tests measure fixed signals; statements comparing all programmes with all their extensions and permutations, and the borderline between them and their counterexamples, need proof", "anchors": [{"file": "src/history.rs", "symbols": ["History::gated_loudness_multiple", "History::gated_loudness", "History::relative_threshold", "History::calc_relative_threshold", "History::add"]}, {"file": "src/ebur128.rs", "symbols": ["EbuR128::loudness_global", "EbuR128::loudness_global_multiple", "EbuR128::relative_threshold"]}]}
{"id": "C70", "title": "Accuracy of the loudness and loudness range of an album", "statement": "Several analyzers are each started and fed, at their own rates, channel counts and channel maps, with samples up to X. If no block of any track is near a gate, then loudness_global_multiple returns the BS.1770 integrated loudness, in exact arithmetic from the samples on, of the blocks of all tracks together, to within 10 eta + 11 theta / mean + 10 delta + 1e-12 dB, and half a bin (0.05 dB) more if there are histograms among the analyzers, which may be mixed with queues; it returns minus infinity exactly when no block reaches the absolute gate. eta and theta are explicit: a chosen part r plus one unit of 2^-50 per frame of a block, per block and 2001 per analyzer, and 3 / r times the noise power of the filters. loudness_range_multiple returns in the same way the EBU 3342 loudness range of the short-term blocks of all tracks together, to within 12 eta + 21 theta / P10 + 20 delta + 1e-11 LU in queue mode and one bin more in histogram mode.", "quantifier": "every list of analyzers, created, reset or reconfigured, at rates from 8000 to 400000 Hz, every sequence of feeding calls, every IEEE target with a libm that is accurate to delta, every mixture of queues and histograms for the loudness, at most 2^40 blocks", "why_tests_cant": "the tests never combine analyzers; the sums over instances are added in two levels with different rounding in queues and histograms, and the claim is about all signals at once", "anchors": [{"file": "src/history.rs", "symbols": ["History::gated_loudness_multiple", "History::loudness_range_multiple", "History::calc_relative_threshold", "History::add"]}, {"file": "src/ebur128.rs", "symbols": ["EbuR128::loudness_global_multiple", "EbuR128::loudness_range_multiple"]}]}
{"id": "C71", "title": "How fast the K-weighting filter settles on a tone", "statement": "The filter of the code, in exact arithmetic, is fed any number of samples within eps of a sinusoid of any frequency whose amplitude and phase change in any number of steps at any times. Each output is the current amplitude multiplied by the transfer function, up to 13 eps and, for each step up to then, the size of the step times delta of the time since. The sequence delta depends only on the rate and the frequency; if the frequency is at a distance of at least 1 / M from the poles, its sum is at most 21 M, and at most 71 M with weights that grow by a factor e about every 10 ms. M = rate / 239 + 2 is enough for every frequency. From q samples after the last step on the transients are thus at most 71 M times the steps divided by (1 + 1 / (rate / 100 + 10))^q. For a tone of 1 kHz at 48 kHz whose level changes at multiples of 100 ms, the mean square over a window of whole tenths of a second is half the squared gain 1.174277 times the mean of the squared amplitudes, up to an explicit error.", "quantifier": "every rate of at least 8000 Hz, every frequency, every list of steps, every list of samples and every eps", "why_tests_cant": "the tests run the filter on finitely many signals; the claim bounds the transient after every step of every tone at every rate, for ever", "anchors": [{"file": "src/filter.rs", "symbols": ["filter_coefficients", "Filter::process"]}]}
{"id": "C72", "title": "The synthetic test signals of EBU Tech 3341", "statement": "At 48 kHz, in IEEE arithmetic and without HISTOGRAM, the signals of cases 1, 2, 3, 5 and 6 of EBU Tech 3341 are measured within the required 0.1 LU: a steady stereo tone of 1 kHz of any level L from -60 to 0 dBFS and of any duration from 2 s to 27 hours has the integrated loudness L; a tone at level L for 60 s, with 10 s at 13 dB less before and after, has L (the quiet parts are gated); 20 s at L - 6, 20.1 s at L and 20 s at L - 6 have L - 3; five channels with left and right 4 dB and the surrounds 6 dB below the centre have L + 1, where L is the level of the centre. For the steady tone the momentary loudness is L from 0.5 s on and the short-term loudness is L from 3.1 s on. The 16-bit files of cases 1, 3 and 5, rounded to the nearest and read in any number of calls, are measured at -23 LUFS.", "quantifier": "every phase of every channel, every rounding of the samples up to 1/4000 of the reference amplitude, every format, every division of the signal into calls, every binary search, every target with usize of at least 10^8, every libm with errors as stated in GoodLibm, every level in the range stated", "why_tests_cant": "the reference tests need files that are not part of the repository and try one phase, one rounding, one platform and one call; here the result is derived from the filter, the windows and the gates", "anchors": [{"file": "src/ebur128.rs", "symbols": ["EbuR128::new", "EbuR128::add_frames_i16", "EbuR128::loudness_global", "EbuR128::loudness_momentary", "EbuR128::loudness_shortterm"]}, {"file": "src/filter.rs", "symbols": ["filter_coefficients", "Filter::process", "Filter::calc_gating_block"]}, {"file": "src/history.rs", "symbols": ["History::gated_loudness"]}, {"file": "tests/reference_tests.rs", "symbols": ["seq_3341_1", "seq_3341_2", "seq_3341_3", "seq_3341_5", "seq_3341_6"]}]}
{"id": "C73", "title": "The synthetic test signals of EBU Tech 3342", "statement": "At 48 kHz, in IEEE arithmetic and without HISTOGRAM, the loudness range of the signals of cases 1 to 4 of EBU Tech 3342 is within 0.5 LU (1 LU is allowed) of the specified one: stereo tones of 1 kHz, 20 s each at 0 and -10 dB (10 LU), at -5 and 0 dB (5 LU), at -20 and 0 dB (20 LU), and at -30, -15, 0, -15, -30 dB (15 LU, the quietest parts being gated), all relative to any level from -30 to 0 dBFS. The 16-bit files, rounded to the nearest and read in any number of calls, have these ranges.", "quantifier": "every phase of every channel, every rounding of the samples up to 1/6000 of the reference amplitude, every format, every division of the signal into calls, every target with usize between 10^8 and 2^64, every libm with errors as stated in GoodLibm", "why_tests_cant": "the reference tests need files that are not part of the repository and try one phase, one rounding, one platform and one call", "anchors": [{"file": "src/ebur128.rs", "symbols": ["EbuR128::new", "EbuR128::add_frames_i16", "EbuR128::loudness_range", "EbuR128::energy_shortterm"]}, {"file": "src/filter.rs", "symbols": ["filter_coefficients", "Filter::process"]}, {"file": "src/history.rs", "symbols": ["History::loudness_range"]}, {"file": "tests/reference_tests.rs", "symbols": ["seq_3342_1", "seq_3342_2", "seq_3342_3", "seq_3342_4"]}]}
{"id": "C74", "title": "True peak of a whole programme: faded tones and the test signals of EBU Tech 3341", "statement": "If a channel gets a tone of up to a quarter of the sampling rate (an eighth with 2x oversampling) whose amplitude starts from silence, changes slowly and stays at its largest value A for half a period and the length of the filter, then the true peak reported for the whole programme is within -0.4 dB and +0.2 dB of A, the tolerance of EBU Tech 3341; the upper bound needs no steady part and holds with seeding too. In particular the stereo 16-bit files at 48 kHz of the cases 15 to 19 of EBU Tech 3341 (a quarter, a sixth and an eighth of the sampling rate at half of full scale; a quarter, 45 degrees off, at +3 dBTP), with fades of at least 0.125 s and read in any number of calls, pass.", "quantifier": "every envelope, frequency up to the limit, phase, channel count, division into calls, format, sample values within a bound of the tone, target, fused or separate multiply-add, every libm whose sin and cos are accurate to 2^-30", "why_tests_cant": "the reference tests need files that are not part of the repository; the true peak at the start of the programme depends on the interaction of the rolling buffer with the fade; the claim is about all phases and envelopes", "anchors": [{"file": "src/interp.rs", "symbols": ["Interp::new", "Interp::interpolate"]}, {"file": "src/true_peak.rs", "symbols": ["TruePeak::new", "TruePeak::check_true_peak"]}, {"file": "src/ebur128.rs", "symbols": ["EbuR128::true_peak", "EbuR128::add_frames_i16"]}, {"file": "tests/reference_tests.rs", "symbols": ["seq_3341_15", "seq_3341_16", "seq_3341_17", "seq_3341_18", "seq_3341_19"]}]}
{"id": "C75", "title": "The synthetic test signals of EBU Tech 3341 and 3342 in HISTOGRAM mode", "statement": "At 48 kHz, in IEEE arithmetic and with HISTOGRAM (only the number of blocks in every 0.1 LU is kept), the integrated loudness of the signals of the cases 1, 2, 3, 5 and 6 of EBU Tech 3341 is within 0.1 LU of the specified one, for every reference level from -60 (cases 3 and 5: -40) to 0 dBFS and, for steady tones, every duration of 2 s or more; the loudness range of the cases 1 to 4 of EBU Tech 3342 is within 0.65 LU of the specified one (1 LU is allowed). The 24-bit files of the cases 1, 3 and 5, passed as i32 in any number of calls, measure -23 LUFS to 0.1 LU.", "quantifier": "every phase of every channel, every rounding of the samples up to 1/20000 (range: 1/6000) of the reference amplitude, every format, every division of the signal into calls, every target, every libm with errors as stated in GoodLibm", "why_tests_cant": "the reference tests need files that are not part of the repository and try one phase, one rounding, one platform and one call; the error of the bins takes half of the tolerance, so a test that passes says little about other phases or levels", "anchors": [{"file": "src/ebur128.rs", "symbols": ["EbuR128::new", "EbuR128::add_frames_i32", "EbuR128::loudness_global", "EbuR128::loudness_range"]}, {"file": "src/history.rs", "symbols": ["Histogram::calc_relative_threshold", "Histogram::loudness_range", "History::add", "History::gated_loudness"]}, {"file": "tests/reference_tests.rs", "symbols": ["seq_3341_1", "seq_3341_3", "seq_3341_5"]}]}
{"id": "C76", "title": "Momentary and short-term loudness of the test signals of EBU Tech 3341 whose level changes within the window", "statement": "At 48 kHz, in IEEE arithmetic: while a stereo tone of 1 kHz is at -20 dBFS for 0.18 s and at -30 dBFS for 0.22 s in turn (EBU Tech 3341 case 12), the momentary loudness is within 0.1 LU of -23 LUFS at each multiple of 10 ms from 0.4 s to 10 s; while it is at -20 dBFS for 1.34 s and at -30 dBFS for 1.66 s in turn (case 9), the short-term loudness is within 0.1 LU of -23 LUFS at each multiple of 10 ms from 3 s to 15 s. The 24-bit files of both cases, passed as i32 in any number of calls, meet this.", "quantifier": "every mode that allows the query (HISTOGRAM or not), every moment, every phase of both channels, every deviation of the samples up to 2^-22, every format, every division into calls, every target, every libm with errors as stated in GoodLibm", "why_tests_cant": "the reference tests need files that are not part of the repository and ask every 100 ms for one phase and one division into calls; the reading moves with the position of the window relative to the steps, and the filter rings at each of them", "anchors": [{"file": "src/ebur128.rs", "symbols": ["EbuR128::add_frames_i32", "EbuR128::loudness_momentary", "EbuR128::loudness_shortterm", "EbuR128::energy_in_interval"]}, {"file": "src/filter.rs", "symbols": ["Filter::process", "Filter::calc_gating_block"]}, {"file": "tests/reference_tests.rs", "symbols": ["seq_3341_9", "seq_3341_12"]}]}
{"id": "C77", "title": "The loudest momentary and short-term loudness of tones of 0.4 s and 3 s (EBU Tech 3341 cases 10, 11, 13 and 14)", "statement": "At 48 kHz, in IEEE arithmetic, stereo tones of 1 kHz of 0.4 s (momentary) or 3 s (short-term) are played in silence, beginning at any multiples of 10 ms, each at least 1 dB louder than the one before it and at least 0.5 s (3.1 s) after its beginning. At each multiple of 10 ms before the next tone begins, the loudness is minus infinity or at most 0.1 LU above the level of the tone. At the end of the tone (for short-term: within 50 ms of it) it is within 0.1 LU of that level. So the maximum the reference tests compute from the 24-bit files, asking every 10 ms (momentary) or 100 ms (short-term), is the specified one to 0.1 LU.", "quantifier": "every number of tones, every start, every rising levels from -40 to 0 dBFS, every moment, every mode that allows the query, every phase of both channels, every deviation of the samples up to 2^-22, every format and division into calls, every target, every libm with errors as stated in GoodLibm", "why_tests_cant": "the reference tests need files that are not part of the repository and try twenty starts at one phase; the windows begin before the signal and the filter rings after each tone, so the maximum depends on the position of the window", "anchors": [{"file": "src/ebur128.rs", "symbols": ["EbuR128::add_frames_i32", "EbuR128::loudness_momentary", "EbuR128::loudness_shortterm", "EbuR128::energy_in_interval"]}, {"file": "src/filter.rs", "symbols": ["Filter::process", "Filter::calc_gating_block"]}, {"file": "tests/reference_tests.rs", "symbols": ["seq_3341_10", "seq_3341_11", "seq_3341_13", "seq_3341_14"]}]}
{"id": "C78", "title": "Quieter material does not change the integrated loudness of a tone (EBU Tech 3341 case 4)", "statement": "At 48 kHz, in IEEE arithmetic, a stereo programme contains a tone of 1 kHz at L dBFS, -40 <= L <= 0, which lasts at least 50 s and at least four sevenths of the programme and has 0.3 s or more on either side. Elsewhere the amplitude is any function of 10 ms steps, at most 9/40 of that of the tone (-13 dB), as long as all changes of amplitude together are at most twice the amplitude of the tone. The integrated loudness is within 0.1 LU of L LUFS. Case 4 of EBU Tech 3341 (tones at -72, -36, -23, -36 and -72 dBFS) is such a programme; its 16-bit file, passed as i16 in any number of calls, measures -23 LUFS to 0.1 LU.", "quantifier": "every level, start and duration of the tone, every amplitude of the rest, every phase of both channels, every deviation of the samples up to 1/4600 of the amplitude of the tone, every format and division into calls, every target, every libm with errors as stated in GoodLibm; blocks of the quiet parts may be on either side of the absolute gate", "why_tests_cant": "the reference test needs a file that is not part of the repository and tries one programme; where quiet blocks fall relative to the absolute gate moves the relative gate, and blocks at -36 LUFS are only 0.8 dB below it in the worst case", "anchors": [{"file": "src/ebur128.rs", "symbols": ["EbuR128::new", "EbuR128::add_frames_i16", "EbuR128::loudness_global"]}, {"file": "src/history.rs", "symbols": ["Queue::calc_relative_threshold", "History::add", "History::gated_loudness"]}, {"file": "src/filter.rs", "symbols": ["Filter::process", "Filter::calc_gating_block"]}, {"file": "tests/reference_tests.rs", "symbols": ["seq_3341_4"]}]}
