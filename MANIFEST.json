{
 "claims": [
  {
   "property": "C01",
   "status": "proved",
   "theorems": [
    "Rawdio.Processor.C01_stopped_silent",
    "Rawdio.Processor.C01_stopped_returns"
   ],
   "note": "For every history of process calls, with the whole graph behind the engine."
  },
  {
   "property": "C02",
   "status": "proved",
   "theorems": [
    "Rawdio.Processor.C02_clock",
    "Rawdio.Processor.C02_schedule_independent",
    "Rawdio.Processor.C02_monotone"
   ],
   "note": "Exact rational arithmetic stands for the f64 quotient."
  },
  {
   "property": "C03",
   "status": "partial",
   "theorems": [
    "Rawdio.Processor.C03_blocks_partial",
    "Rawdio.Processor.C03_graph_writes_slice",
    "Rawdio.Processor.C03_blocks_violated",
    "Rawdio.Processor.C03_zero_maximum_violated"
   ],
   "note": "Proved for a positive maximum and any graph that writes only its slice (which the modelled graph does); refuted for maximum 0, where the loop does not end."
  },
  {
   "property": "C04",
   "status": "proved",
   "theorems": [
    "Rawdio.Processor.C04_channel_order",
    "Rawdio.Processor.C04_thread_order",
    "Rawdio.Processor.C04_interleavings",
    "Rawdio.Processor.C04_refines",
    "Rawdio.Processor.C04_batching"
   ],
   "note": "Any interleaving of any number of senders with the audio thread; the channel is a linearizable FIFO."
  },
  {
   "property": "C05",
   "status": "proved",
   "theorems": [
    "Rawdio.Processor.C05_last_endpoint"
   ],
   "note": "For every history of commands: the rendered call takes the system input to the last connect-to-input node and its output from the last connect-to-output node."
  },
  {
   "property": "C06",
   "status": "proved",
   "theorems": [
    "Rawdio.Processor.C06_split_blocks",
    "Rawdio.Processor.C06_split_sound"
   ],
   "note": "The sound is shown equal for nodes that do not look at the clock; block boundaries and times are shown for all."
  },
  {
   "property": "C07",
   "status": "proved",
   "theorems": [
    "Rawdio.Graph.C07_walk"
   ],
   "note": "For every edit history that does not abort and every hash-map iteration order; generated connection ids are assumed distinct (C57)."
  },
  {
   "property": "C08",
   "status": "proved",
   "theorems": [
    "Rawdio.Graph.C08_disconnect",
    "Rawdio.Graph.C08_disconnect_absent"
   ],
   "note": "For every reachable graph and every iteration order."
  },
  {
   "property": "C09",
   "status": "proved",
   "theorems": [
    "Rawdio.Processor.C09_engine_aborts_iff",
    "Rawdio.Processor.C09_engine_drop_aborts",
    "Rawdio.Graph.C09_connect_aborts_iff",
    "Rawdio.Graph.C09_add_node_aborts_iff",
    "Rawdio.Graph.C09_remove_node_aborts_iff"
   ],
   "note": "At graph level; the engine-level consequence is stated with C05/C12's engine model."
  },
  {
   "property": "C10",
   "status": "proved",
   "theorems": [
    "Rawdio.TopologicalSort.C10_sort_valid"
   ],
   "note": "For every reachable acyclic graph without parallel connections and every iteration order."
  },
  {
   "property": "C11",
   "status": "partial",
   "theorems": [
    "Rawdio.TopologicalSort.C11_sort_terminates",
    "Rawdio.TopologicalSort.C11_sort_aborts_iff",
    "Rawdio.TopologicalSort.C11_acyclic_sorts_violated",
    "Rawdio.TopologicalSort.C11_acyclic_sorts_partial"
   ],
   "note": "Termination and the exact abort condition are proved; the claim that acyclic graphs never abort is refuted by two parallel connections and proved without parallel connections."
  },
  {
   "property": "C12",
   "status": "proved",
   "theorems": [
    "Rawdio.DspGraph.C12_buffers_conserved"
   ],
   "note": "After every process call of every reachable graph all 1024 buffers are in the free pool with zero content and nothing is assigned."
  },
  {
   "property": "C13",
   "status": "proved",
   "theorems": [
    "Rawdio.Processor.C13_engine_call_returns",
    "Rawdio.DspGraph.C13_enough_buffers",
    "Rawdio.DspGraph.C13_too_many_nodes"
   ],
   "note": "Success for at most 1022 nodes (given that the nodes themselves succeed and channel counts fit), failure above 1024."
  },
  {
   "property": "C14",
   "status": "partial",
   "theorems": [
    "Rawdio.DspGraph.C14_block_rendered",
    "Rawdio.DspGraph.C14_inputs_are_sums_partial",
    "Rawdio.DspGraph.C14_inputs_are_sums_violated"
   ],
   "note": "C14_block_rendered gives the exact rendering of every block, C14_inputs_are_sums_partial the sum rule off the single-connection fast path, C14_inputs_are_sums_violated a one-channel connection that passes two channels."
  },
  {
   "property": "C15",
   "status": "proved",
   "theorems": [
    "Rawdio.DspGraph.C15_order_independent",
    "Rawdio.DspGraph.C15_order_independent_success"
   ],
   "note": "Two environments (hash orders, alignments) give the same output, node states and success."
  },
  {
   "property": "C16",
   "status": "proved",
   "theorems": [
    "Rawdio.Processor.C16_engine_silence",
    "Rawdio.DspGraph.C16_output"
   ],
   "note": "Per block of the graph; the process call of the whole engine is C16_engine_output."
  },
  {
   "property": "C17",
   "status": "partial",
   "theorems": [
    "Rawdio.DspGraph.C17_system_input_partial",
    "Rawdio.DspGraph.C17_system_input_violated"
   ],
   "note": "Partial: holds when the node has no incoming connection; the violation is shown on a graph with one connection."
  },
  {
   "property": "C18",
   "status": "partial",
   "theorems": [
    "Rawdio.RealtimeParameter.C18_one_per_frame",
    "Rawdio.RealtimeParameter.C18_immediate_partial",
    "Rawdio.RealtimeParameter.C18_immediate_violated"
   ],
   "note": "Holds with at most one change due per frame; in general exactly one is taken up per frame. No law of arithmetic is used."
  },
  {
   "property": "C19",
   "status": "partial",
   "theorems": [
    "Rawdio.RealtimeParameter.C19_linear_ramp_partial",
    "Rawdio.RealtimeParameter.C19_whole_ramp_between",
    "Rawdio.RealtimeParameter.C19_overshoot_bound",
    "Rawdio.RealtimeParameter.C19_between_violated",
    "Rawdio.RealtimeParameter.C19_spike_violated"
   ],
   "note": "Exact real arithmetic. Steps and target proved for any blocks; betweenness refuted in general, proved for whole-sample ramps within their first block, and overshoot bounded there."
  },
  {
   "property": "C20",
   "status": "partial",
   "theorems": [
    "Rawdio.RealtimeParameter.C20_range_partial",
    "Rawdio.RealtimeParameter.C20_ramp_partial",
    "Rawdio.RealtimeParameter.C20_range_violated"
   ],
   "note": "Exact real arithmetic. Refuted by a ramp; proved for all histories of immediate changes."
  },
  {
   "property": "C21",
   "status": "partial",
   "theorems": [
    "Rawdio.RealtimeParameter.C21_immediate",
    "Rawdio.RealtimeParameter.C21_split_partial",
    "Rawdio.RealtimeParameter.C21_split_violated"
   ],
   "note": "Refuted by a ramp in steps below the tolerance; proved without them. Immediate histories without any law of arithmetic."
  },
  {
   "property": "C22",
   "status": "partial",
   "theorems": [
    "Rawdio.RealtimeParameter.C22_cancel_after_violated",
    "Rawdio.RealtimeParameter.C22_cancel_after_observed_violated",
    "Rawdio.RealtimeParameter.C22_cancel_after_partial",
    "Rawdio.RealtimeParameter.C22_cancel_all",
    "Rawdio.RealtimeParameter.C22_cancel_ramp_goes_on"
   ],
   "note": "The comparison in the code is the wrong way round; cancelling everything is proved."
  },
  {
   "property": "C23",
   "status": "proved",
   "theorems": [
    "Rawdio.RealtimeParameter.C23_queue",
    "Rawdio.RealtimeParameter.C23_sorted"
   ],
   "note": "For every sequence of requests, including those at equal times."
  },
  {
   "property": "C24",
   "status": "proved",
   "theorems": [
    "Rawdio.RealtimeParameter.C24_settles"
   ],
   "note": "No law of arithmetic is used; any kinds of changes."
  },
  {
   "property": "C25",
   "status": "proved",
   "theorems": [
    "Rawdio.Timestamp.C25_round_trip_error",
    "Rawdio.Timestamp.C25_round_trip",
    "Rawdio.Timestamp.C25_from_samples_monotone",
    "Rawdio.Timestamp.C25_from_samples_strict",
    "Rawdio.Timestamp.C25_increment_exact_sum",
    "Rawdio.Timestamp.C25_beats_round_trip",
    "Rawdio.Timestamp.C25_increment_error"
   ],
   "note": "Exact rational arithmetic stands for f64; overflow of the 32-bit whole part is not modelled."
  },
  {
   "property": "C26",
   "status": "partial",
   "theorems": [
    "Rawdio.EventProcessor.C26_event_frame_partial",
    "Rawdio.EventProcessor.C26_event_frame_violated"
   ],
   "note": "At most one frame early is proved for rates up to 2^31; exactly on the frame is false (48 kHz, sample 1)."
  },
  {
   "property": "C27",
   "status": "proved",
   "theorems": [
    "Rawdio.EventProcessor.C27_schedule",
    "Rawdio.EventProcessor.C27_positions",
    "Rawdio.EventProcessor.C27_returns",
    "Rawdio.EventProcessor.C27_exactly_once"
   ],
   "note": "Blocks of at least one frame with frames * rate at most 2^33 (178956 frames at 48 kHz); rendering and event handling are arbitrary."
  },
  {
   "property": "C28",
   "status": "proved",
   "theorems": [
    "Rawdio.Sampler.C28_earlier_events_dropped",
    "Rawdio.Sampler.C28_later_events_kept",
    "Rawdio.Sampler.C28_silences"
   ],
   "note": "Any positions of cancel-all among the events of a block; silence after the fade for all later blocks that start nothing."
  },
  {
   "property": "C29",
   "status": "proved",
   "theorems": [
    "Rawdio.Buf.C29_get_sample",
    "Rawdio.Buf.C29_write_one_sample",
    "Rawdio.Buf.C29_add_sample",
    "Rawdio.Buf.C29_channel_is_silent",
    "Rawdio.Buf.C29_write_through_slice"
   ],
   "note": "For every owned buffer and every nesting of slices."
  },
  {
   "property": "C30",
   "status": "proved",
   "theorems": [
    "Rawdio.Buf.C30_copy_from",
    "Rawdio.Buf.C30_add_from",
    "Rawdio.Buf.C30_add_from_with_gain",
    "Rawdio.Buf.C30_copy_outside_aborts"
   ],
   "note": "Regions and buffers of all sizes, owned or borrowed; regions outside a buffer panic."
  },
  {
   "property": "C31",
   "status": "partial",
   "theorems": [
    "Rawdio.Buf.C31_fill_from_interleaved_violated",
    "Rawdio.Buf.C31_fill_from_interleaved_partial",
    "Rawdio.Buf.C31_copy_to_interleaved_violated",
    "Rawdio.Buf.C31_copy_to_interleaved_partial",
    "Rawdio.Buf.C31_interleaved_round_trip"
   ],
   "note": "Negation proved for buffers with fewer channels than the data; the claim holds otherwise (partial theorems) and the round trip is proved when the counts agree."
  },
  {
   "property": "C32",
   "status": "partial",
   "theorems": [
    "Rawdio.Buf.C32_slice_created_iff",
    "Rawdio.Buf.C32_slice_is_window",
    "Rawdio.Buf.C32_slices_compose",
    "Rawdio.Buf.C32_slice_frames",
    "Rawdio.Buf.C32_slice_channels_mut",
    "Rawdio.Buf.C32_slice_channels_violated",
    "Rawdio.Buf.C32_slice_channels_partial",
    "Rawdio.Buf.C32_slice_channel_bound_violated"
   ],
   "note": "Negations: slice_channels swaps its counts; slices do not bound channel access. All other slice operations are proved."
  },
  {
   "property": "C33",
   "status": "partial",
   "theorems": [
    "Rawdio.Buf.C33_from_buffer",
    "Rawdio.Buf.C33_extended_with_buffer",
    "Rawdio.Buf.C33_extended_mismatch_aborts",
    "Rawdio.Buf.C33_padded_to_length",
    "Rawdio.Buf.C33_padded_shorter_aborts",
    "Rawdio.Buf.C33_from_slice_violated",
    "Rawdio.Buf.C33_from_slice_aborts",
    "Rawdio.Buf.C33_from_slice_partial",
    "Rawdio.Buf.C33_duplicate_channel",
    "Rawdio.Buf.C33_copy_within"
   ],
   "note": "from_buffer, extended_with_buffer, padded_to_length, duplicate_channel, copy_within proved; from_slice is refuted for more than one channel; padding to a shorter length is proved to abort."
  },
  {
   "property": "C34",
   "status": "proved",
   "theorems": [
    "Rawdio.Buf.C34_frame_iter"
   ],
   "note": "For all channel and frame counts, by induction over the remaining locations."
  },
  {
   "property": "C35",
   "status": "proved",
   "theorems": [
    "Rawdio.Kernels.C35_mix_into",
    "Rawdio.Kernels.C35_mix_into_with_gain",
    "Rawdio.Kernels.C35_subtract_from",
    "Rawdio.Kernels.C35_multiply",
    "Rawdio.Kernels.C35_multiply_by_value",
    "Rawdio.Kernels.C35_mix_into_with_gains",
    "Rawdio.Kernels.C35_mix"
   ],
   "note": "For every split of the arguments into unaligned head, vector body and tail."
  },
  {
   "property": "C36",
   "status": "partial",
   "theorems": [
    "Rawdio.Buf.C36_apply_gain_value_violated",
    "Rawdio.Buf.C36_apply_gain_value_partial",
    "Rawdio.Buf.C36_clear",
    "Rawdio.Buf.C36_clear_range",
    "Rawdio.Buf.C36_apply_gain"
   ],
   "note": "apply_gain, clear and clear_range proved; apply_gain_value refuted for gain 0 on several channels and proved otherwise."
  },
  {
   "property": "C37",
   "status": "proved",
   "theorems": [
    "Rawdio.C37_effective_gain",
    "Rawdio.C37_matrix",
    "Rawdio.C37_silent_at_first",
    "Rawdio.C37_unity",
    "Rawdio.C37_splitter"
   ],
   "note": "Levels and samples are exact reals. A level within relative 2^-52 of 0 or 1 is treated as 0 or 1 by the code; C37_effective_gain bounds the difference."
  },
  {
   "property": "C38",
   "status": "partial",
   "theorems": [
    "Rawdio.C38_set_level_returns_partial",
    "Rawdio.C38_waits_iff",
    "Rawdio.C38_set_level_returns_violated"
   ],
   "note": "C38_set_level_returns_violated is the negation: setting each level of an 8x8 mixer once waits forever. C38_waits_iff says exactly which histories wait."
  },
  {
   "property": "C39",
   "status": "proved",
   "theorems": [
    "Rawdio.Pan.C39_gains",
    "Rawdio.Pan.C39_monotone",
    "Rawdio.Pan.C39_block",
    "Rawdio.Pan.C39_never_amplifies"
   ],
   "note": "Samples and pan values are exact reals; the values of the pan parameter per frame are given (C18-C24 are about how they come about)."
  },
  {
   "property": "C40",
   "status": "partial",
   "theorems": [
    "Rawdio.Sampler.C40_start_is_heard_partial",
    "Rawdio.Sampler.C40_start_is_heard_violated"
   ],
   "note": "Negation for every sample shorter than the fade and any distance between starts; the claim holds whenever a voice is free."
  },
  {
   "property": "C41",
   "status": "proved",
   "theorems": [
    "Rawdio.Voice.C41_render",
    "Rawdio.Voice.C41_split",
    "Rawdio.Voice.C41_verbatim",
    "Rawdio.Voice.C41_starts",
    "Rawdio.Voice.C41_stops",
    "Rawdio.Fade.C41_crossfade",
    "Rawdio.Fade.C41_fade_monotone"
   ],
   "note": "C41_crossfade and C41_fade_monotone are over the reals (raised-cosine table), the rest for any sample type."
  },
  {
   "property": "C42",
   "status": "partial",
   "theorems": [
    "Rawdio.Sampler.C42_processing_returns_partial",
    "Rawdio.Sampler.C42_processing_hangs",
    "Rawdio.Sampler.C42_processing_returns_violated"
   ],
   "note": "Termination of every history with proper loops; exact hang condition and the idle-sampler witness."
  },
  {
   "property": "C43",
   "status": "proved",
   "theorems": [
    "Rawdio.Recorder.C43_recording_exact",
    "Rawdio.Recorder.C43_collected",
    "Rawdio.Recorder.C43_taken",
    "Rawdio.Recorder.C43_start_to_stop",
    "Rawdio.Recorder.C43_keeps_up"
   ],
   "note": "Histories that do not fault give exactly the frames of the spec; C43_keeps_up shows that a pass of notifications after each block of at most 4096 frames is often enough. Event times use exact rational arithmetic."
  },
  {
   "property": "C44",
   "status": "partial",
   "theorems": [
    "Rawdio.Recorder.C44_never_waits_violated",
    "Rawdio.Recorder.C44_never_waits_partial"
   ],
   "note": "Violated from exactly 131072 uncollected frames on, for all blocks; below that, and with regular collection (C43_keeps_up), it holds."
  },
  {
   "property": "C45",
   "status": "partial",
   "theorems": [
    "Rawdio.Convolver.C45_direct_sum_partial",
    "Rawdio.Convolver.C45_more_inputs_violated",
    "Rawdio.Convolver.C45_fewer_inputs_violated",
    "Rawdio.Convolver.C45_empty_violated"
   ],
   "note": "For all impulses, signals, levels and block lengths (also longer than the maximum), over exact complex arithmetic with the transforms of rustfft taken as documented. Violated when the node has more or fewer inputs than the impulse response has channels, and for an impulse response without frames."
  },
  {
   "property": "C46",
   "status": "partial",
   "theorems": [
    "Rawdio.Oscillator.C46_whole_cycles_violated",
    "Rawdio.Oscillator.C46_375_hertz_violated",
    "Rawdio.Oscillator.C46_reads_partial"
   ],
   "note": "Complete case distinction: the run panics exactly when a whole number of cycles falls on a frame; concrete witness 375 Hz at 48 kHz, where the f64 phase is exact. Exact reals otherwise."
  },
  {
   "property": "C47",
   "status": "proved",
   "theorems": [
    "Rawdio.C47_gain_range",
    "Rawdio.C47_idle_silent"
   ],
   "note": "Node level: any history of calls and blocks with up to 32 calls between blocks. Envelope arithmetic over the reals."
  },
  {
   "property": "C48",
   "status": "partial",
   "theorems": [
    "Rawdio.C48_attack_decay",
    "Rawdio.C48_release_partial",
    "Rawdio.C48_release_time",
    "Rawdio.C48_release_never",
    "Rawdio.C48_release_violated",
    "Rawdio.C48_release_slow"
   ],
   "note": "C48_attack_decay is the full claim for attack and decay, exact to the frame. Release: exact when the note ends at a positive sustain level, within the time when it ends below; negation when it ends above, and for sustain level 0. C48_release_time says exactly when a note ended at any level is silent. Over the reals."
  },
  {
   "property": "C49",
   "status": "proved",
   "theorems": [
    "Rawdio.Follower.C49_bounds",
    "Rawdio.Follower.C49_no_overshoot",
    "Rawdio.Follower.C49_converges",
    "Rawdio.Follower.C49_time_constant"
   ],
   "note": "Exact reals; histories include changes of the attack and release time. C49_converges gives the closed form and the limit, C49_time_constant the meaning of the attack time."
  },
  {
   "property": "C50",
   "status": "proved",
   "theorems": [
    "Rawdio.Periodic.C50_no_drift"
   ],
   "note": "Exact rationals; the fuel bounds the rounds of the catch-up loop by the number of intervals in an advance."
  },
  {
   "property": "C51",
   "status": "partial",
   "theorems": [
    "Rawdio.EnvelopeNode.C51_what_is_inspected",
    "Rawdio.EnvelopeNode.C51_every_sample_partial",
    "Rawdio.EnvelopeNode.C51_skips_violated",
    "Rawdio.EnvelopeNode.C51_aborts_violated"
   ],
   "note": "C51_skips_violated and C51_aborts_violated are the negation; C51_what_is_inspected says what a block inspects, C51_every_sample_partial the blocks in which that is everything."
  },
  {
   "property": "C52",
   "status": "partial",
   "theorems": [
    "Rawdio.Compressor.C52_gain_partial",
    "Rawdio.Compressor.C52_number_iff",
    "Rawdio.Compressor.C52_gain_violated",
    "Rawdio.Compressor.C52_silence_violated",
    "Rawdio.Compressor.C52_antitone",
    "Rawdio.Compressor.C52_transparent",
    "Rawdio.Compressor.C52_never_amplifies_partial",
    "Rawdio.Compressor.C52_block_violated"
   ],
   "note": "Exact reals with an explicit not-a-number. C52_gain_violated, C52_silence_violated and C52_block_violated are the negation (gain 0/0 exactly at the threshold with knee 0, for example the default settings and a level of 1); C52_number_iff says that is the only point. The gain can be 0 (reductions of 128 dB and more), so the range is [0,1]."
  },
  {
   "property": "C53",
   "status": "partial",
   "theorems": [
    "Rawdio.Biquad.C53_stable",
    "Rawdio.Biquad.C53_response",
    "Rawdio.Biquad.C53_magnitude",
    "Rawdio.Biquad.C53_ends",
    "Rawdio.Biquad.C53_centre",
    "Rawdio.Biquad.C53_above_nyquist_violated",
    "Rawdio.Biquad.C53_shelf_gain_zero_violated",
    "Rawdio.Biquad.C53_small_signals_violated"
   ],
   "note": "Stability (bounded input gives bounded output), the frequency response as a limit for sinusoids, its magnitude in closed form, the ends and the centre, for all proper settings. Three violations: 20 kHz at rates below 40 kHz is unstable, a shelf gain of 0 is unstable, and the flush of values below 1e-8 swallows audible signals at low cutoffs and high rates."
  },
  {
   "property": "C54",
   "status": "partial",
   "theorems": [
    "Rawdio.Effect.C54_accessor_partial",
    "Rawdio.Effect.C54_shelf_gain_violated",
    "Rawdio.Effect.C54_accessor_violated",
    "Rawdio.Effect.C54_by_name"
   ],
   "note": "Violated for Biquad::shelf_gain only: the accessor panics on every biquad. The partial theorem covers every other accessor of every effect; by name all documented parameters (and no others) are there."
  },
  {
   "property": "C55",
   "status": "proved",
   "theorems": [
    "Rawdio.Waveshaper.C55_sample",
    "Rawdio.Waveshaper.C55_between",
    "Rawdio.Waveshaper.C55_monotone",
    "Rawdio.Waveshaper.C55_blocks",
    "Rawdio.Waveshaper.C55_limit",
    "Rawdio.Waveshaper.C55_hard_clip",
    "Rawdio.Waveshaper.C55_tanh"
   ],
   "note": "Exact reals, samples that are not numbers as none. C55_blocks is the whole node over any sequence of blocks: the two rate conversions cancel, so the output is a memoryless function of the input. Blocks are not empty and not longer than announced."
  },
  {
   "property": "C56",
   "status": "partial",
   "theorems": [
    "Rawdio.Level.C56_db_round_trip",
    "Rawdio.Level.C56_round_trip_partial",
    "Rawdio.Level.C56_quiet_lost",
    "Rawdio.Level.C56_round_trip_violated",
    "Rawdio.Level.C56_monotone_violated",
    "Rawdio.Level.C56_monotone_partial",
    "Rawdio.Level.C56_clamp"
   ],
   "note": "Over the reals: the exact set of levels that survive, and negations for the others."
  },
  {
   "property": "C57",
   "status": "proved",
   "theorems": [
    "Rawdio.IdState.C57_distinct",
    "Rawdio.IdState.C57_one_per_call",
    "Rawdio.IdState.C57_growing",
    "Rawdio.IdState.C57_wraps",
    "Rawdio.IdState.C57_needs_fetch_add"
   ],
   "note": "Any number of threads, any interleaving of their atomic accesses, any counter width; the bound 2^w is shown to be exact, and a load/store version is refuted."
  },
  {
   "property": "C58",
   "status": "proved",
   "theorems": [
    "Rawdio.Notifiers.C58_pass",
    "Rawdio.Notifiers.C58_order",
    "Rawdio.Notifiers.C58_called_iff",
    "Rawdio.Notifiers.C58_never_again"
   ],
   "note": "Any sequence of registrations and passes; notifiers are arbitrary functions on a shared world."
  },
  {
   "property": "C59",
   "status": "partial",
   "theorems": [
    "Rawdio.Processor.C59_waits_iff",
    "Rawdio.Processor.C59_no_wait_partial",
    "Rawdio.Processor.C59_no_wait_violated"
   ],
   "note": "Refuted by 513 removals with a sleeping collector; exact condition proved."
  },
  {
   "property": "C60",
   "status": "proved",
   "theorems": [
    "Rawdio.Processor.C60_too_wide"
   ],
   "note": "The process call ends in an error whatever the nodes do; which error depends on what runs first."
  },
  {
   "property": "C61",
   "status": "partial",
   "theorems": [
    "Rawdio.RealtimeParameter.C61_start_partial",
    "Rawdio.RealtimeParameter.C61_start_violated"
   ],
   "note": "Refuted by two overlapping ramps; proved when starts and ends are in the same order."
  },
  {
   "property": "C62",
   "status": "partial",
   "theorems": [
    "Rawdio.Sampler.C62_cancel_loop_partial",
    "Rawdio.Sampler.C62_cancel_loop_cuts_off",
    "Rawdio.Sampler.C62_cancel_loop_violated"
   ],
   "note": "Holds before the loop has wrapped around; negation with a witness family."
  },
  {
   "property": "C63",
   "status": "partial",
   "theorems": [
    "Rawdio.Sampler.C63_stop_partial",
    "Rawdio.Sampler.C63_stop_violated"
   ],
   "note": "Holds without a loop; negation with a witness family while looping."
  },
  {
   "property": "C64",
   "status": "proved",
   "theorems": [
    "Rawdio.Sampler.C64_plays_once"
   ],
   "note": "Timing of block boundaries uses exact rational arithmetic; the number of blocks is limited by the accumulated rounding (2^32 / sample rate blocks)."
  },
  {
   "property": "C65",
   "status": "proved",
   "theorems": [
    "Rawdio.Recorder.C65_is_recording"
   ],
   "note": "For every history that does not fault."
  },
  {
   "property": "C66",
   "status": "proved",
   "theorems": [
    "Rawdio.C66_events_on_frames"
   ],
   "note": "Refinement to a frame-by-frame machine; event times use exact rational arithmetic."
  },
  {
   "property": "C67",
   "status": "partial",
   "theorems": [
    "Rawdio.Pan.C67_mono_input_violated",
    "Rawdio.Pan.C67_mono_lost",
    "Rawdio.Pan.C67_mono_input_partial",
    "Rawdio.Pan.C67_mono_panics"
   ],
   "note": "C67_mono_input_violated, C67_mono_lost and C67_mono_panics are the negation. The left output is right (C67_mono_input_partial). In debug builds an assertion stops the node instead."
  },
  {
   "property": "C68",
   "status": "partial",
   "theorems": [
    "Rawdio.EnvelopeNode.C68_never_waits_partial",
    "Rawdio.EnvelopeNode.C68_waits",
    "Rawdio.EnvelopeNode.C68_never_waits_violated"
   ],
   "note": "C68_never_waits_violated is the negation, C68_waits the general case; with room in the channel nothing waits (C68_never_waits_partial)."
  },
  {
   "property": "C69",
   "status": "partial",
   "theorems": [
    "Rawdio.Compressor.C69_louder_in_louder_out_partial",
    "Rawdio.Compressor.C69_louder_in_louder_out_violated"
   ],
   "note": "C69_louder_in_louder_out_violated holds for every knee above 0 and ratio above 1; with knee 0 the claim holds for reductions below 128 dB."
  },
  {
   "property": "C70",
   "status": "partial",
   "theorems": [
    "Rawdio.Buf.C70_interpolates",
    "Rawdio.Buf.C70_between",
    "Rawdio.Buf.C70_ramp",
    "Rawdio.Buf.C70_same_rate",
    "Rawdio.Buf.C70_round_trip",
    "Rawdio.Buf.C70_empty_source_violated"
   ],
   "note": "C70_empty_source_violated is the negation for empty sources; everything else is proved for all buffers. Exact reals: the position index * ratio is an f32 in the code."
  },
  {
   "property": "C71",
   "status": "partial",
   "theorems": [
    "Rawdio.Waveshaper.C71_soft_saturator_partial",
    "Rawdio.Waveshaper.C71_quiet_unchanged",
    "Rawdio.Waveshaper.C71_soft_saturator_violated",
    "Rawdio.Waveshaper.C71_block_violated",
    "Rawdio.Waveshaper.C71_one_sided_violated"
   ],
   "note": "C71_soft_saturator_violated and C71_block_violated (threshold 1), C71_one_sided_violated (negative side); the partial theorems are for thresholds below 1."
  },
  {
   "property": "C72",
   "status": "partial",
   "theorems": [
    "Rawdio.Waveshaper.C72_quiet_unchanged_partial",
    "Rawdio.Waveshaper.C72_corner_violated",
    "Rawdio.Waveshaper.C72_high_threshold_violated"
   ],
   "note": "C72_high_threshold_violated and C72_corner_violated are the negation; partial for samples at least 1/255 below the threshold."
  },
  {
   "property": "C73",
   "status": "proved",
   "theorems": [
    "Rawdio.Effect.C73_create_iff",
    "Rawdio.Effect.C73_change_finds_parameter",
    "Rawdio.Effect.C73_reads_found"
   ],
   "note": "All effects with parameters; ranges over the extended reals."
  },
  {
   "property": "C74",
   "status": "proved",
   "theorems": [
    "Rawdio.Biquad.C74_blocks"
   ],
   "note": "All partitions into blocks and all parameter movements; over the reals, so f32 rounding is not covered."
  },
  {
   "property": "C75",
   "status": "partial",
   "theorems": [
    "Rawdio.Oscillator.C75_plays_table_partial",
    "Rawdio.Oscillator.C75_last_segment_violated"
   ],
   "note": "Proved for tables that start with 0 when no whole number of cycles falls on a frame; the last segment is wrong for other tables."
  },
  {
   "property": "C76",
   "status": "partial",
   "theorems": [
    "Rawdio.Oscillator.C76_harmonics_partial",
    "Rawdio.Oscillator.C76_sine_partial"
   ],
   "note": "Proved for all runs in which no whole number of cycles falls on a frame (then the node panics, C46); exact reals, the accumulated f64 error of the phase is in C102."
  },
  {
   "property": "C77",
   "status": "proved",
   "theorems": [
    "Rawdio.Timestamp.C77_round_trip",
    "Rawdio.Timestamp.C77_strict",
    "Rawdio.Timestamp.C77_clock"
   ],
   "note": "Rounding to nearest, ties to even, with 53 bits and subnormals, written out over the rationals; each operation of the conversions is rounded in the order of the code. Overflow is not modelled, and cannot happen in the range of the theorems."
  },
  {
   "property": "C78",
   "status": "proved",
   "theorems": [
    "Rawdio.EnvelopeNode.C78_same_reports",
    "Rawdio.EnvelopeNode.C78_taken_once",
    "Rawdio.EnvelopeNode.C78_whole_groups"
   ],
   "note": "For all histories that succeed; that a history can fail (full channel, abort) is C51 and C68."
  },
  {
   "property": "C79",
   "status": "partial",
   "theorems": [
    "Rawdio.Processor.C79_healthy_programs_run_partial",
    "Rawdio.Processor.C79_careful_programs_run_partial",
    "Rawdio.Processor.C79_engine_has_what_is_held",
    "Rawdio.Processor.C79_drop_connected_violated",
    "Rawdio.Processor.C79_loop_violated",
    "Rawdio.Processor.C79_twice_violated",
    "Rawdio.Processor.C79_wide_violated",
    "Rawdio.Processor.C79_typed_programs_violated"
   ],
   "note": "Violated for programs restricted only by ownership of handles (four ways shown); proved for careful programs, with what the engine then holds. C79_healthy_programs_run_partial allows nodes that abort in states or on requests that the program does not reach; multi-threaded programs are covered through the order of the command channel (C04)."
  },
  {
   "property": "C80",
   "status": "partial",
   "theorems": [
    "Rawdio.Gain.C80_processor",
    "Rawdio.Gain.C80_node",
    "Rawdio.Gain.C80_runs",
    "Rawdio.Gain.C80_stream",
    "Rawdio.Gain.C80_change_partial",
    "Rawdio.Gain.C80_on_frame_partial",
    "Rawdio.Gain.C80_first_frame",
    "Rawdio.Gain.C80_on_frame_violated"
   ],
   "note": "C80_processor and C80_node connect the buffer-level processor with the node used in the engine model. C80_stream covers every kind of change and request time. Violated for the frame itself when it is not the first of a call (one frame late at 48 kHz with calls of 1 and 2 frames); the partial theorems cover all other frames."
  },
  {
   "property": "C81",
   "status": "proved",
   "theorems": [
    "Rawdio.Chain.C81_arrows",
    "Rawdio.Chain.C81_connect_nodes",
    "Rawdio.Chain.C81_stream",
    "Rawdio.Chain.C81_session",
    "Rawdio.Chain.C81_gains",
    "Rawdio.Chain.C81_runs"
   ],
   "note": "connect_nodes! expands to the right connections (C81_connect_nodes); the output of a session is the input run through the nodes one after the other, for any node DSP (C81_stream); gains multiply (C81_gains); all process calls of such a session succeed for up to 1022 nodes that can be rendered in the states they reach (C81_runs)."
  },
  {
   "property": "C82",
   "status": "partial",
   "theorems": [
    "Rawdio.Sampler.C82_stream",
    "Rawdio.Sampler.C82_runs",
    "Rawdio.Sampler.C82_starts_now",
    "Rawdio.Sampler.C82_starts_on_the_frame_partial",
    "Rawdio.Sampler.C82_starts_on_the_frame_violated"
   ],
   "note": "C82_stream: what leaves the engine is what the sampler plays, for all events. C82_starts_now is exact. A start at the time of frame N is heard at frame N or N-1 (partial), and N-1 does happen: frame 1 at 48 kHz. The theorems on one start assume at most about 2^32 / sample rate blocks (the position of a voice drifts, C64). Runs exist: C82_runs."
  },
  {
   "property": "C83",
   "status": "partial",
   "theorems": [
    "Rawdio.Fx.C83_stream",
    "Rawdio.Fx.C83_runs",
    "Rawdio.Fx.C83_untouched",
    "Rawdio.Fx.C83_set_partial",
    "Rawdio.Fx.C83_set_now",
    "Rawdio.Fx.C83_cancel_all",
    "Rawdio.Fx.C83_cancel_after_drops_earlier",
    "Rawdio.Fx.C83_cancel_after_keeps_later",
    "Rawdio.Fx.C83_cancel_after_violated"
   ],
   "note": "Samples and parameter values are real numbers. The values of the parameters are those of the parameter model (C17 to C22); for an immediate change the frames within 1.5 units of 2^-32 s of its time are left open (C80), while a change at time zero is exact (C83_set_now). Cancelling all changes is proved to leave a parameter alone (C83_cancel_all); cancelling those after a time is violated (C83_cancel_after_violated, and in general C83_cancel_after_drops_earlier, C83_cancel_after_keeps_later), the comparison is the wrong way round (C22). C83_runs does not cover oscillators, which abort on whole cycles (C46); pans have at least two inputs (C67). Waveshapers need an overdrive that is not negative, and compressors are left open where a hard knee divides 0 by 0 (C52): FxKind.Sounding."
  },
  {
   "property": "C84",
   "status": "partial",
   "theorems": [
    "Rawdio.Wav.C84_in_range",
    "Rawdio.Wav.C84_sample_error",
    "Rawdio.Wav.C84_resave_sample",
    "Rawdio.Wav.C84_out_of_range",
    "Rawdio.Wav.C84_write",
    "Rawdio.Wav.C84_read",
    "Rawdio.Wav.C84_resave",
    "Rawdio.Wav.C84_length_violated",
    "Rawdio.Wav.C84_length_partial",
    "Rawdio.Wav.C84_render_calls",
    "Rawdio.Wav.C84_render"
   ],
   "note": "Violated for the length: the duration is truncated to whole seconds before it is multiplied by the sample rate, so half a second renders an empty file (C84_length_violated); C84_length_partial gives the length that is rendered. The rest is proved: the content of the file for any program (C84_render_calls) and for nodes in a row in terms of the signal (C84_render, through C81_session), the error of a sample in single precision, and that a file survives being read and written; the lowest 24 bit number becomes the next one."
  },
  {
   "property": "C85",
   "status": "partial",
   "theorems": [
    "Rawdio.LiveHost.C85_delay",
    "Rawdio.LiveHost.C85_calls",
    "Rawdio.LiveHost.C85_plays",
    "Rawdio.LiveHost.C85_callbacks_partial",
    "Rawdio.LiveHost.C85_more_inputs_abort",
    "Rawdio.LiveHost.C85_late_input_aborts",
    "Rawdio.LiveHost.C85_long_block_aborts",
    "Rawdio.LiveHost.C85_unplayed_input_waits",
    "Rawdio.LiveHost.C85_callbacks_violated"
   ],
   "note": "What is played is proved in full for every session that succeeds (C85_calls for any engine, C85_plays for nodes in a row, C85_delay for the delay in double precision). That no callback waits or aborts is violated (C85_callbacks_violated, with C85_more_inputs_abort, C85_late_input_aborts, C85_long_block_aborts and C85_unplayed_input_waits for all such sessions); C85_callbacks_partial proves it when the output has as many channels as the input, blocks are as announced, input is in time and the queue has room. Choosing and opening devices is not modelled."
  },
  {
   "property": "C86",
   "status": "proved",
   "theorems": [
    "Rawdio.Network.C86_network",
    "Rawdio.Network.C86_determined",
    "Rawdio.Network.C86_runs",
    "Rawdio.Network.C86_effects",
    "Rawdio.OfflineExample.C86_voices",
    "Rawdio.OfflineExample.C86_voices_runs",
    "Rawdio.C86_succeeds"
   ],
   "note": "Networks that a program builds until it starts the engine; later it only makes requests to the nodes. No node has both the system input and a connection, and a node with a single connection from first to first channel gets all channels of the source: otherwise C14_inputs_are_sums_violated. C86_network gives the signals and the equations they fulfil, C86_determined that these have one solution when there are no loops, C86_runs success, C86_effects the effects of C83 at every node. C86_voices is the whole of the example of offline_process.rs for any oscillators (sine tables) and any changes of the pan; C86_voices_runs that it never fails unless an oscillator comes to a whole number of cycles, which is the panic of C46 (in exact arithmetic 440 Hz at 44100 Hz does so at frame 2205). C86_succeeds: the process calls of such a session succeed if each node on its own can be run over the events of the session."
  },
  {
   "property": "C87",
   "status": "proved",
   "theorems": [
    "Rawdio.Mixed.C87_mixed",
    "Rawdio.Mixed.C87_set_now",
    "Rawdio.Mixed.C87_untouched",
    "Rawdio.Mixed.C87_levels",
    "Rawdio.Mixed.C87_runs"
   ],
   "note": "Networks as in C86. C87_mixed gives the equations at every node (NodeKind.Makes): C83's effects, the matrix of levels of C37, the gain of an ADSR envelope (adsrTrack, C88) and the run of a sampler (C82). C87_set_now and C87_untouched say what parameters are when other nodes get other requests, C87_levels what the levels of a mixer are in each call. C87_runs: everything succeeds when only parameters, channels and loops that exist are requested, and no oscillator comes to a whole number of cycles at a frame (C46). The maximum frame count times the rate is at most 2^33; channels of levels and events are never full (C38 says what happens then)."
  },
  {
   "property": "C88",
   "status": "proved",
   "theorems": [
    "Rawdio.AdsrExample.C88_example",
    "Rawdio.AdsrExample.C88_example_runs",
    "Rawdio.AdsrExample.C88_adsr_rs",
    "Rawdio.AdsrSchedule.C88_schedule",
    "Rawdio.AdsrSchedule.C88_notes"
   ],
   "note": "C88_schedule: the gains in a session are those of one envelope over all frames with each event at its frame (AdsrScheduled, times to 3/2 of 2^-32 s). C88_notes: the shape of notes (NotesShape), for notes that are requested with the times of the envelope before the first call and are held and spaced for long enough (C48 shows what happens otherwise). C88_example is the whole of adsr.rs up to the start, for any oscillators, times, levels and notes; C88_adsr_rs its own times (4410, 6615 and 8820 frames), level and notes; C88_example_runs that it never fails, unless an oscillator comes to a whole number of cycles (C46)."
  },
  {
   "property": "C89",
   "status": "proved",
   "theorems": [
    "Rawdio.Fx.C89_times",
    "Rawdio.Fx.C89_untouched_compressor_is_transparent",
    "Rawdio.Fx.C89_compressor_never_louder",
    "Rawdio.Fx.C89_compressor_settles",
    "Rawdio.Fx.C89_dry_waveshaper",
    "Rawdio.Fx.C89_waveshaper_limits"
   ],
   "note": "Sessions of an engine with the input, one compressor or waveshaper and the output (OneEffect), on C83_stream: the whole session goes through one level detector (Compressor.loudness, a recursion over frames) and one gain computer (Compressor.reduction). C89_untouched_compressor_is_transparent, C89_compressor_never_louder, C89_compressor_settles (for every precision a number of frames, before the session is chosen), C89_dry_waveshaper, C89_waveshaper_limits; C89_times bounds the rounding of times that the specification shares with the model. Frames where knee = 0 and the level is the threshold are excluded (Sounding), C52_block_violated shows what happens there."
  },
  {
   "property": "C90",
   "status": "proved",
   "theorems": [
    "Rawdio.Fx.C90_linear",
    "Rawdio.Fx.C90_exponential",
    "Rawdio.Fx.C90_fade"
   ],
   "note": "C90_linear, C90_exponential, C90_fade. The specification (Spec/Automation.curve) knows nothing of frames. Ramps have at least 9 frames, do not overlap, and two sets in a row are two frames apart; one kind of ramp per series. Real arithmetic (the f64 rounding of the increments is not modelled)."
  },
  {
   "property": "C91",
   "status": "proved",
   "theorems": [
    "Rawdio.OfflineExample.C91_sweep"
   ],
   "note": "OfflineExample.C91_sweep. Builds on C86 (what the network plays) and C90 (automation follows its curve). Real arithmetic."
  },
  {
   "property": "C92",
   "status": "partial",
   "theorems": [
    "Rawdio.Metronome.C92_beats_partial",
    "Rawdio.Metronome.C92_whole_beats",
    "Rawdio.Metronome.C92_missing",
    "Rawdio.Metronome.C92_beat_missing_violated"
   ],
   "note": "C92_whole_beats is the property at tempos whose beats are whole units apart; C92_beats_partial and C92_missing say for all tempos exactly which beats are scheduled; C92_beat_missing_violated is a concrete loss. Tempos and beat times are rational instead of f64."
  },
  {
   "property": "C93",
   "status": "partial",
   "theorems": [
    "Rawdio.RowExamples.C93_silent",
    "Rawdio.RowExamples.C93_row",
    "Rawdio.RowExamples.C93_runs",
    "Rawdio.RowExamples.C93_linear",
    "Rawdio.RowExamples.C93_compressor_silent_violated",
    "Rawdio.RowExamples.C93_pan",
    "Rawdio.RowExamples.C93_waveshaper"
   ],
   "note": "C93_row, C93_runs, C93_silent, C93_linear, C93_pan, C93_waveshaper; C93_compressor_silent_violated is the missing connection. The waveshaper claim gives the overdrive within 3/sample rate + 10^-6 and the tone within the error of the wavetable (C76), and the output exactly in terms of these."
  },
  {
   "property": "C94",
   "status": "proved",
   "theorems": [
    "Rawdio.Clicks.C94_clicks",
    "Rawdio.Clicks.C94_sets",
    "Rawdio.Metronome.C94_metronome",
    "Rawdio.Metronome.C94_metronome_runs",
    "Rawdio.RowExamples.C94_row",
    "Rawdio.RowExamples.C94_runs"
   ],
   "note": "RowExamples.C94_row and C94_runs (rows with requests during the session), Clicks.C94_clicks, Clicks.C94_sets, Metronome.C94_metronome; Metronome.C94_metronome_runs shows that all process calls succeed for frequencies that are multiples of an irrational number (with 440 and 880 Hz at 44.1 kHz the oscillator comes to a whole number of cycles in exact arithmetic, C46; C94_metronome is for all frequencies and for sessions whose calls succeed). Which beats are scheduled is C92."
  },
  {
   "property": "C95",
   "status": "partial",
   "theorems": [
    "Rawdio.RecordExample.C95_record_example",
    "Rawdio.RecordExample.C95_record_runs",
    "Rawdio.RecordExample.C95_record_example_violated",
    "Rawdio.C95_recorder",
    "Rawdio.C95_keeps_up",
    "Rawdio.C95_interval"
   ],
   "note": "C95_recorder (in any network), C95_interval (record now, stop at a time), C95_keeps_up (process calls succeed; its condition on notifications is sufficient, not necessary), RecordExample.C95_record_example and C95_record_runs. RecordExample.C95_record_example_violated: a process call between the last pass and the check of the time; the end of the recording is not written. What the control thread does with a recorder falls between process calls here; C43 and C44 treat full channels."
  },
  {
   "property": "C96",
   "status": "proved",
   "theorems": [
    "Rawdio.Network.C96_rewiring",
    "Rawdio.Network.C96_determined",
    "Rawdio.Network.C96_runs",
    "Rawdio.Network.C96_dropped",
    "Rawdio.Network.C96_mixed",
    "Rawdio.Network.C96_mixed_runs"
   ],
   "note": "C96_rewiring (what is heard), C96_determined (the equations leave no choice), C96_runs (process calls succeed, from C79), C96_dropped (silence after the node at the output is dropped), C96_mixed and C96_mixed_runs (effects, mixers, envelopes and samplers made at any time). Programs are careful as in C79 and connections plain as in C86, in every process call that is played."
  },
  {
   "property": "C97",
   "status": "partial",
   "theorems": [
    "Rawdio.Sampler.C97_loops_partial",
    "Rawdio.Sampler.C97_repeats_partial",
    "Rawdio.Sampler.C97_short_loop_gap",
    "Rawdio.Sampler.C97_short_loop_violated"
   ],
   "note": "C97_loops_partial (any loop not shorter than the fade), C97_repeats_partial (the whole sample); C97_short_loop_violated and C97_short_loop_gap: a sample shorter than the fade (50 ms) is silent in its third pass, because both voices are still fading out. Blocks and passes are limited as in C64 (89471 at 48 kHz), because times are rounded."
  },
  {
   "property": "C98",
   "status": "partial",
   "theorems": [
    "Rawdio.RowExamples.C98_loops",
    "Rawdio.RowExamples.C98_once",
    "Rawdio.RowExamples.C98_file_playback",
    "Rawdio.RowExamples.C98_exponential",
    "Rawdio.RowExamples.C98_biquad",
    "Rawdio.RowExamples.C98_row_file",
    "Rawdio.RowExamples.C98_convolution_partial",
    "Rawdio.RowExamples.C98_convolution_short_violated",
    "Rawdio.RowExamples.C98_playback_runs",
    "Rawdio.RowExamples.C98_biquad_runs"
   ],
   "note": "C98_file_playback, C98_biquad (files not shorter than the fade, see C97), C98_playback_runs, C98_biquad_runs; from C98_loops, C98_once (a sampler among any nodes) and C98_exponential. C98_row_file: what is written when any row of nodes is rendered into a file. C98_convolution_partial: the file of the convolution example; C98_convolution_short_violated: nothing is written if file and impulse last less than a second together; and what is beyond the last whole second is not written (C84). Number of blocks and passes is limited as in C64."
  },
  {
   "property": "C99",
   "status": "partial",
   "theorems": [
    "Rawdio.RowExamples.C99_row_runs_partial",
    "Rawdio.RowExamples.C99_oscillator",
    "Rawdio.RowExamples.C99_oscillator_runs_partial",
    "Rawdio.Mixed.C99_runs_partial",
    "Rawdio.Mixed.C99_whole_violated"
   ],
   "note": "C99_runs_partial (any network; Takes allows any requests to the parameters that a node has), C99_row_runs_partial, C99_oscillator_runs_partial: the session succeeds if no oscillator comes to a whole number of cycles at a frame. C99_whole_violated: otherwise it fails (the panic of C46), whatever the other nodes are. C99_oscillator: what the example plays. Whole numbers of cycles are those of exact arithmetic; for the rounding of f64 see C102."
  },
  {
   "property": "C100",
   "status": "partial",
   "theorems": [
    "Rawdio.C100_meter",
    "Rawdio.C100_keeps_up",
    "Rawdio.C100_short_blocks_violated",
    "Rawdio.C100_steady",
    "Rawdio.C100_loud_frames",
    "Rawdio.C100_no_louder",
    "Rawdio.C100_every_frame_partial",
    "Rawdio.C100_aligned_partial",
    "Rawdio.C100_every_frame_violated"
   ],
   "note": "C100_meter: the reports of a meter in any network (if no block is shorter than the meter has channels and no notification is due before so many frames of a block); C100_keeps_up: sessions succeed; C100_steady: when blocks are long enough. C100_loud_frames, C100_no_louder: what the reports say of the signal. C100_every_frame_partial, C100_aligned_partial: all frames are looked at if notifications are due at ends of blocks only. C100_every_frame_violated: otherwise the frames of a block after a notification is due are never looked at. C100_short_blocks_violated: a block with fewer frames than the meter has channels ends the session."
  },
  {
   "property": "C101",
   "status": "partial",
   "theorems": [
    "Rawdio.MeterExample.C101_meter_example",
    "Rawdio.MeterExample.C101_meter_runs",
    "Rawdio.MeterExample.C101_odd_call_violated"
   ],
   "note": "C101_meter_example: what is played and reported. C101_meter_runs: the session succeeds (sample rate a multiple of 4, even process calls, a pass every 15 s at least). C101_odd_call_violated: a process call with one frame more than a multiple of the maximum ends the session."
  },
  {
   "property": "C102",
   "status": "partial",
   "theorems": [
    "Rawdio.Oscillator64.C102_phase",
    "Rawdio.Oscillator64.C102_reads_partial",
    "Rawdio.Oscillator64.C102_exact_violated",
    "Rawdio.Oscillator64.C102_375_hertz_violated",
    "Rawdio.Oscillator64.C102_sine"
   ],
   "note": "C102_phase, C102_sine. C102_reads_partial: no panic unless the exact number of cycles is within the error of the phase of a whole number at some frame; the product with the length of the table is never rounded up to it (round_mul_lt, any length below 2^52). C102_exact_violated, C102_375_hertz_violated: for frequencies at which nothing rounds the panic happens exactly at whole numbers of cycles. Frequencies are rational numbers (f32 numbers are); the table of the sine is any table within 2^-50 of the samples of a sine. The gain is left out."
  },
  {
   "property": "C103",
   "status": "partial",
   "theorems": [
    "Rawdio.RealtimeParameter.C103_linear",
    "Rawdio.RealtimeParameter.C103_between_partial",
    "Rawdio.RealtimeParameter.C103_fade_violated",
    "Rawdio.RealtimeParameter.C103_between_violated"
   ],
   "note": "C103_linear: all lengths, blocks and times; in several blocks only ramps with steps above 2^-51, since flatter ones are frozen (C21). C103_fade_violated, C103_between_violated: the value beyond the target, which get_value shows; in the conversion to f32 for the nodes it is lost. C103_between_partial bounds how far beyond. The logarithm and the exponential function are left open, they do not matter for linear ramps."
  },
  {
   "property": "C104",
   "status": "proved",
   "theorems": [
    "Rawdio.RealtimeParameter.C104_exponential"
   ],
   "note": "C104_exponential: all lengths, blocks and times; in several blocks only ramps whose factor differs from 1 by more than 2^-45, since those within 2^-52 are frozen (C21). Accurate is a hypothesis about the platform; accurate_exists shows that it can be met."
  },
  {
   "property": "C105",
   "status": "partial",
   "theorems": [
    "Rawdio.Follower32.C105_bounds",
    "Rawdio.Follower32.C105_times",
    "Rawdio.Follower32.C105_converges_partial",
    "Rawdio.Follower32.C105_silence_violated",
    "Rawdio.Follower32.C105_attack_violated",
    "Rawdio.Follower32.C105_release_violated"
   ],
   "note": "C105_bounds: all histories. C105_converges_partial: how close the level comes, and how fast, for all settings. C105_attack_violated, C105_release_violated: levels that stall for ever. C105_silence_violated: for all settings with a release time of at least two samples and all histories. AccurateDecay is a hypothesis about the platform; accurateDecay_exists shows that it can be met."
  },
  {
   "property": "C106",
   "status": "proved",
   "theorems": [
    "Rawdio.Adsr64.C106_range",
    "Rawdio.Adsr64.C106_note",
    "Rawdio.Adsr64.C106_instant",
    "Rawdio.Adsr64.C106_rest"
   ],
   "note": "C106_range: all histories. C106_note: all histories that leave the envelope idle, followed by a note. C106_instant, C106_rest: all histories. Accurate and Contracting are hypotheses about the platform; contracting_exists shows that they can be met together. A stage may take a frame more than in exact arithmetic (C47), where it takes the time rounded up."
  },
  {
   "property": "C107",
   "status": "partial",
   "theorems": [
    "Rawdio.Periodic.C107_exact",
    "Rawdio.Periodic.C107_drift",
    "Rawdio.Periodic.C107_terminates_partial",
    "Rawdio.Periodic.C107_hang_violated"
   ],
   "note": "C107_exact: whole intervals, all series of blocks. C107_drift: all intervals, blocks shorter than the interval. C107_terminates_partial: a bound for the rounds of the loop. C107_hang_violated: all sample rates and all frequencies beyond the bound."
  },
  {
   "property": "C108",
   "status": "partial",
   "theorems": [
    "Rawdio.DspGraph.C108_mix",
    "Rawdio.DspGraph.C108_two",
    "Rawdio.DspGraph.C108_order_partial",
    "Rawdio.DspGraph.C108_unheard_partial",
    "Rawdio.DspGraph.C108_order_violated"
   ],
   "note": "C108_mix: all rendered blocks, by way of C14_inputs_are_sums_partial with the samples Sample32 and under its conditions. C108_two, C108_order_partial: all patches and signals, about the sum that C14 shows is delivered. C108_unheard_partial, C108_order_violated: two engines with the same nodes and connections. Overflow to infinity, NaN and the sign of zero are not modelled."
  },
  {
   "property": "C109",
   "status": "partial",
   "theorems": [
    "Rawdio.Gain.C109_near",
    "Rawdio.Gain.C109_apply_gain",
    "Rawdio.Gain.C109_bounded",
    "Rawdio.Gain.C109_local_partial",
    "Rawdio.Gain.C109_local_violated"
   ],
   "note": "All theorems: all valid blocks and all gains, for the channels that the input has. The values of the gain parameter are given as f32 numbers; their conversion from f64 is not modelled. Overflow, NaN and the sign of zero are not modelled. C36 and C80 assume tests that accept 0 and 1 only, which relative_eq! does not meet; this claim does without."
  },
  {
   "property": "C110",
   "status": "proved",
   "theorems": [
    "Rawdio.Pan.C110_near",
    "Rawdio.Pan.C110_monotone",
    "Rawdio.Pan.C110_mirror"
   ],
   "note": "All theorems: all stereo blocks. The values of the pan are given as f32 numbers; their conversion from f64 is not modelled. Overflow, NaN and the sign of zero are not modelled. Mono inputs are in C67."
  },
  {
   "property": "C111",
   "status": "proved",
   "theorems": [
    "Rawdio.Mixer32.C111_near",
    "Rawdio.Mixer32.C111_route"
   ],
   "note": "Both theorems: all valid blocks. What get_level gives is a parameter; the matrix and its events are in C37 and C38. Levels are any rational numbers. Overflow, NaN and the sign of zero are not modelled."
  },
  {
   "property": "C112",
   "status": "partial",
   "theorems": [
    "Rawdio.Convert32.C112_near",
    "Rawdio.Convert32.C112_same_rate_partial",
    "Rawdio.Convert32.C112_same_rate_violated"
   ],
   "note": "C112_near: all valid conversions. C112_same_rate_partial: frames up to 2^24; the full statement is SameRateCopies for all frames, refuted by C112_same_rate_violated. Conversions that start later in the buffers are in C70, over exact reals. Overflow, NaN and the sign of zero are not modelled. The waveshaper, the only caller in the crate, converts single blocks and does not reach 2^24 frames."
  },
  {
   "property": "C113",
   "status": "proved",
   "theorems": [
    "Rawdio.Shape32.C113_near",
    "Rawdio.Shape32.C113_ends",
    "Rawdio.Shape32.C113_bounded"
   ],
   "note": "One lookup; shape applies it to each sample in turn (C83 has whole blocks, over exact reals). Overflow, NaN and the sign of zero are not modelled. The oversampling around the lookup is in C55 over exact reals and its conversions are in C112 with rounding."
  },
  {
   "property": "C114",
   "status": "proved",
   "theorems": [
    "Rawdio.Shaper32.C114_exact",
    "Rawdio.Shaper32.C114_close",
    "Rawdio.Shaper32.C114_mix",
    "Rawdio.Shaper32.C114_overdrive"
   ],
   "note": "The lookup with the table, the overdrive and the mix apart from each other. The conversions of the oversampling are in C112. The gain of the overdrive is any function with values from 1 (overdrive_to_gain gives 0 to 12 dB for values of the parameter in its range). Overflow, NaN and the sign of zero are not modelled."
  },
  {
   "property": "C115",
   "status": "proved",
   "theorems": [
    "Rawdio.Fade.C115_near",
    "Rawdio.Fade.C115_level",
    "Rawdio.Fade.C115_voices"
   ],
   "note": "C115_near and C115_level: one frame of one channel, with both voices at the same position of their fades and other voices silent. C115_voices: the same for Voice::render of both voices over a stretch of frames that begins with the fades, the voice that fades out first; C97 has when that happens. That the table is within 2^-24 of the curve is a hypothesis: sin in f64 is not modelled. Overflow, NaN and the sign of zero are not modelled."
  }
 ]
}