{"id": "C01", "title": "A stopped engine is silent and its clock is frozen", "statement": "Whenever, after the commands queued before a process call have been taken, the most recent transport command is stop (or none was ever sent), that process call leaves every sample of the output buffer zero, whatever the buffer held before, whatever graph exists, and the time reported by the context is unchanged by the call.", "quantifier": "all command histories, all graphs, all previous buffer contents, all buffer shapes, all sequences of process calls", "why_tests_cant": "Tests start and stop a handful of times with a fixed graph; the claim is about every command history and every stale output buffer.", "anchors": ["src/realtime/processor.rs: Processor::process, process_commands", "src/engine/root.rs: Root::start, Root::stop"]}
{"id": "C02", "title": "The engine clock is a function of the number of frames rendered, without drift", "statement": "After any sequence of process calls the time reported by the context equals the nearest 2^-32 s timestamp to (frames rendered while running)/(sample rate); it depends on the total only and not on how the frames were divided between calls, never goes backwards, and its error never exceeds half a timestamp unit however long the engine runs.", "quantifier": "all sample rates > 0, all sequences of process calls of any frame counts interleaved with any start/stop commands", "why_tests_cant": "A test accumulates a few thousand frames; drift and schedule dependence only show over all call schedules and unbounded run time.", "anchors": ["src/realtime/processor.rs: update_position", "src/utility/timestamp.rs: from_seconds", "src/engine/root.rs: current_time"]}
{"id": "C03", "title": "Every requested frame is rendered exactly once, in order, in blocks no larger than the configured maximum", "statement": "A process call of n frames invokes the graph on consecutive blocks that cover frames 0..n-1 exactly once in order; every block is non-empty and at most the maximum frame count; a block at offset k is given the engine time advanced by k samples. Violated by the code when the configured maximum is 0: a non-empty call then never returns.", "quantifier": "all frame counts, all maximum frame counts, all engine times", "why_tests_cant": "Off-by-one splits and the divergence at 0 depend on n relative to the maximum for all n; tests use a few sizes.", "anchors": ["src/realtime/processor.rs: process_graph", "src/engine/root.rs: EngineOptions::with_maximum_frame_count"]}
{"id": "C04", "title": "Commands take effect in the order sent, once each, at the next process call, whatever the batching", "statement": "For any interleaving of several sender threads with the audio thread, each command sent before a process call is applied exactly once, in channel order, which preserves each thread's own order; the engine state used for rendering is the fold of all commands received so far, so distributing the same commands over different process calls gives the same graph state.", "quantifier": "all interleavings of any number of sender threads with process calls, all command sequences", "why_tests_cant": "Thread interleavings cannot be enumerated by tests.", "anchors": ["src/realtime/processor.rs: process_commands", "src/engine/root.rs: CommandTransmitter"]}
{"id": "C05", "title": "The last node connected to the system output (input) is the one that is used", "statement": "After any command history the block is taken from the node named by the last connect-to-output request and the system input is delivered to the node named by the last connect-to-input request; earlier requests have no effect on rendering.", "quantifier": "all command histories", "why_tests_cant": "Histories are unbounded; tests connect once or twice.", "anchors": ["src/realtime/dsp_graph.rs: connect_to_output, connect_to_input", "src/graph/graph_node.rs: connect_to_output docs"]}
{"id": "C06", "title": "Splitting one process call into two leaves the internal blocks unchanged when the split is at a block boundary", "statement": "Processing a+b frames in one call runs the graph on the same blocks as processing a then b frames when a is a multiple of the maximum frame count, and the block start times of the two schedules differ by at most one timestamp unit (2^-32 s).", "quantifier": "all a, b, maximum frame counts > 0, sample rates between 1 and 2^33 - 1, and starting positions", "why_tests_cant": "Quantifies over pairs of schedules at every engine position, including rounding of every position.", "anchors": ["src/realtime/processor.rs: process_graph, update_position", "src/utility/timestamp.rs: incremented_by_samples"]}
{"id": "C07", "title": "The stored connections are exactly those made and not yet removed, in the order they were made", "statement": "After any sequence of adding and removing nodes and connections that does not abort, walking a node's incoming (outgoing) connections terminates and yields exactly the connections into (out of) that node that were made and not removed, each once, in the order in which they were made.", "quantifier": "all operation sequences, all identifiers, any hash-map iteration order, parallel connections and self-connections included", "why_tests_cant": "The adjacency is kept in intrusive linked lists; a dangling or cyclic link needs a particular add/remove history.", "anchors": ["src/realtime/graph.rs: add_edge, remove_edge, replace_connections, EdgeIterator, NodeIterator"]}
{"id": "C08", "title": "Disconnecting two nodes removes one connection between that pair and nothing else", "statement": "Removing the connection from a to b removes exactly one connection between a and b if there is one, leaves every other connection with its channel data and relative order, and does nothing if there is none.", "quantifier": "all reachable graphs, all node pairs, any hash-map iteration order", "why_tests_cant": "Needs all graph shapes: first, middle and last positions in two linked lists simultaneously.", "anchors": ["src/realtime/graph.rs: remove_edge, find_edge_between_nodes", "src/graph/graph_node.rs: disconnect_from_node"]}
{"id": "C09", "title": "Graph edits abort the audio thread exactly when an endpoint is missing, an id is reused or a removed node is still connected", "statement": "Connecting aborts iff one of the two nodes is absent; adding a node aborts iff its id is present; removing a node aborts iff it is present and still has a connection. Consequently dropping a node that is still connected aborts the audio thread (the engine does not detach it first), while dropping a detached node never does.", "quantifier": "all reachable graphs and all operations", "why_tests_cant": "A test can show one abort, not that no other history aborts.", "anchors": ["src/realtime/graph.rs: add_edge, remove_node, add_node_with_id", "src/graph/graph_node.rs: Drop for GraphNode"]}
{"id": "C10", "title": "An acyclic patch with at most one connection per ordered pair of nodes always sorts to a valid processing order", "statement": "For every finite acyclic graph without parallel connections and for every iteration order of the hash maps, sorting succeeds, lists every node exactly once, and lists every connection's source before its destination.", "quantifier": "all finite graphs, all hash-map iteration orders", "why_tests_cant": "Hash iteration order is random per process; tests cannot quantify over it or over all DAGs.", "anchors": ["src/realtime/topological_sort.rs: TopologicalSort::sort, node_without_dependencies"]}
{"id": "C11", "title": "Sorting a patch aborts exactly when it has a cycle (including a self connection) or two connections between the same ordered pair", "statement": "Sorting always terminates; if the graph has a cycle it aborts instead of producing an order; an acyclic graph should never abort. Violated: two parallel connections (for example left->left and right->right made with two connect_channels_to calls) abort as if there were a cycle.", "quantifier": "all finite graphs, all hash-map iteration orders", "why_tests_cant": "Negative claims over all graphs; the parallel-edge abort depends on a count/decrement mismatch no existing test exercises.", "anchors": ["src/realtime/topological_sort.rs: sort", "src/graph/graph_node.rs: connect_channels_to"]}
{"id": "C12", "title": "Render buffers are conserved: after every block all of them are back in the pool and silent", "statement": "In every run that does not abort, after each block every one of the pool's buffers is free, none is held for a node, and every free buffer holds only zeros, so no audio can leak from one block, or one node, to another.", "quantifier": "all graphs, all node behaviours, all block sequences, all edit histories between blocks", "why_tests_cant": "A leak of one buffer per block or a dirty buffer shows only for particular topologies after long runs.", "anchors": ["src/realtime/dsp_graph.rs: process, process_dsp, prepare_input", "src/buffer/buffer_pool.rs", "src/graph/assigned_buffer_pool.rs"]}
{"id": "C13", "title": "The buffer pool never runs out below 1023 nodes and always does above 1024", "statement": "A graph of at most 1022 nodes is rendered without exhausting the buffer pool whatever its connections; a graph of more than 1024 nodes always aborts.", "quantifier": "all graphs, all routings", "why_tests_cant": "Requires the worst-case number of live buffers over all graphs and orders.", "anchors": ["src/realtime/dsp_graph.rs: MAXIMUM_BUFFER_COUNT, get_buffer_with_endpoint"]}
{"id": "C14", "title": "A node's input is the sum of what is connected to it, and silence elsewhere", "statement": "When a node is rendered its input channel c holds at each frame the sum, over the connections into that node in the order made, of the source node's output channel selected by the connection, and zero where nothing is connected. Violated when the node has exactly one connection with source and destination channel 0: the channel count of the connection is ignored and all source channels are passed.", "quantifier": "all graphs, all node behaviours, all channel maps, all block sizes", "why_tests_cant": "Depends on all combinations of fan-in, channel maps and buffer reuse.", "anchors": ["src/realtime/dsp_graph.rs: prepare_input, prepare_single_input_node, copy_output_from_dependencies, mix_endpoint", "src/graph/graph_node.rs: connect_channels_to"]}
{"id": "C15", "title": "What is rendered does not depend on the processing order chosen", "statement": "For a fixed graph, node states and input, two renderings of a block that use different valid processing orders (as chosen by the hash-map iteration order) give the same output samples and the same node states.", "quantifier": "all graphs, all pairs of valid orders, all node behaviours", "why_tests_cant": "The order is chosen by a randomised hash map; a test sees one order per run.", "anchors": ["src/realtime/dsp_graph.rs: process_dsps", "src/realtime/topological_sort.rs"]}
{"id": "C16", "title": "The system output is the output node's signal and silence otherwise", "statement": "Each block's output channels are the corresponding channels of the node connected to the output (up to the configured maximum channel count); channels the node does not produce are silent; if no node is connected, or the node has been removed, the whole block is silent.", "quantifier": "all graphs, routings, channel counts and block sizes", "why_tests_cant": "Depends on stale endpoints, channel-count mismatches and prior buffer contents for all histories.", "anchors": ["src/realtime/dsp_graph.rs: process", "src/realtime/processor.rs: process"]}
{"id": "C17", "title": "The system input reaches the node connected to it", "statement": "The node connected to the system input receives the input block's channels. Violated when that node also has an incoming connection: then the system input is dropped (single connection) or overwritten on the connected channels (several connections).", "quantifier": "all graphs, routings, channel counts and block sizes", "why_tests_cant": "Depends on fan-in of the node that receives the input.", "anchors": ["src/realtime/dsp_graph.rs: process, prepare_single_input_node, copy_output_from_dependencies"]}
{"id": "C18", "title": "An immediate parameter change applies from the first frame at or after its time and is then held", "statement": "If at most one pending change falls due per frame, each frame's value is the value of the latest immediate change whose time is not after the frame's time, or the initial value. Violated when several changes fall due at the same frame (for example two set_value_now calls before a block): only one change is consumed per frame, so the last one is late by one frame per extra change.", "quantifier": "all schedules of immediate changes, all block partitions, all values and times", "why_tests_cant": "All schedules and partitions; the existing tests use one change per time.", "anchors": ["src/parameter/realtime_parameter.rs: process, value_at_time", "src/parameter/audio_parameter.rs: set_value_at_time"]}
{"id": "C19", "title": "A linear ramp moves in equal steps, stays between its end points and holds the target from its end time on", "statement": "From the frame at which a linear ramp starts, successive frames differ by the same step and from the end time on the value is exactly the target. Values should stay between the starting value and the target. They do in the block in which the ramp begins if that block starts with it and the ramp lasts a whole number of samples; otherwise they exceed the target there by less than one step. Violated in general: frame times are rounded per block, so at 48 kHz a ramp over two samples split after the first frame takes a third step, to 150 % of the way, and a ramp shorter than a sample period multiplies the change by up to the ratio of the two (89478 at 48 kHz) for one frame.", "quantifier": "all start values, targets, start and end times, sample rates", "why_tests_cant": "Overshoot depends on the rounding of the frame times and the fractional part of the ramp length.", "anchors": ["src/parameter/realtime_parameter.rs: value_at_time"]}
{"id": "C20", "title": "Parameter values stay in the declared range", "statement": "Requests outside a parameter's range are clamped, so every frame's value should lie in the range. Violated: an overshooting linear ramp leaves it. It does hold for every history of immediate changes, cancellations and blocks at any times, and during the first block of a ramp that begins with the block and lasts a whole number of samples.", "quantifier": "all histories of requests with any requested values, all block partitions", "why_tests_cant": "Unbounded histories and all requested values.", "anchors": ["src/parameter/parameter_range.rs: clamp", "src/parameter/audio_parameter.rs", "src/parameter/realtime_parameter.rs: value_at_time"]}
{"id": "C21", "title": "Rendering parameters in smaller blocks gives the same values", "statement": "Two ways of cutting the same frames (with the same times) into blocks give the same parameter values and leave the parameter in the same state, although a block that starts while nothing is pending and the value does not move takes a constant-value fast path. Violated: the fast path compares with a tolerance, so a ramp with steps of at most 2^-52 stops at a block boundary and never reaches its target. It holds for histories of immediate changes, and for histories with linear ramps (or exponential ones in a range of positive values) if no block begins during such tiny steps.", "quantifier": "all histories of requests, cancellations and blocks, all pairs of block lists with the same frame times", "why_tests_cant": "Equivalence of a fast path and a slow path over all reachable states.", "anchors": ["src/parameter/realtime_parameter.rs: process, is_static"]}
{"id": "C22", "title": "Cancelling changes that end after a time keeps the earlier ones and drops the later ones", "statement": "After cancel_scheduled_changes_ending_after(t) the pending changes are those ending at or before t, in unchanged order. Violated: the code keeps the changes ending at or after t and drops the earlier ones. cancel_scheduled_changes drops all pending changes; a ramp that has begun still goes on to its target.", "quantifier": "all sets of pending changes and all cancel times", "why_tests_cant": "The existing behaviour is a sign error a test with one change can miss.", "anchors": ["src/parameter/realtime_parameter.rs: cancel_scheduled_changes_ending_after, cancel_scheduled_changes"]}
{"id": "C23", "title": "Pending changes are kept in time order, equal times in request order, and none is lost or duplicated", "statement": "After any sequence of change requests the pending changes are a permutation of the requested ones, sorted by end time, with equal end times in the order requested.", "quantifier": "all request sequences", "why_tests_cant": "Stability and permutation over all sequences.", "anchors": ["src/parameter/realtime_parameter.rs: add_parameter_change"]}
{"id": "C24", "title": "Once every scheduled change has ended, the parameter settles on the last one", "statement": "When k changes are pending and all have started and ended by some frame, then k frames later the value is that of the change with the latest end time, and stays there until a new request arrives.", "quantifier": "all finite sets of pending changes of any method, all block partitions", "why_tests_cant": "Convergence over all schedules.", "anchors": ["src/parameter/realtime_parameter.rs: value_at_time"]}
{"id": "C25", "title": "Converting samples to a timestamp and back is accurate to less than half a sample and monotone", "statement": "For sample rates below 2^32, from_samples followed by as_samples differs from the sample count by at most rate/2^33 < 1/2 sample, so rounding recovers the count; from_samples is monotone, and strictly so on whole samples for rates below 2^31; adding timestamps is exact.", "quantifier": "all sample counts and sample rates in range", "why_tests_cant": "Rounding of every sample position.", "anchors": ["src/utility/timestamp.rs: from_samples, as_samples, incremented_by_samples"]}
{"id": "C26", "title": "An event scheduled at a sample's timestamp is applied at that sample", "statement": "An event at Timestamp::from_samples(n) takes effect at frame n. Violated: the position is found by rounding down a timestamp that may itself have been rounded down, so many events are applied one frame early (for example sample 1 at 48 kHz). The event is never later than its frame and never more than one frame early.", "quantifier": "all sample positions, sample rates and block positions", "why_tests_cant": "Which samples are early depends on the binary expansion of every n/rate.", "anchors": ["src/effects/utility/event_processor.rs: next_event", "src/utility/timestamp.rs: from_samples, as_samples"]}
{"id": "C27", "title": "Scheduled node events are delivered exactly once, in time order, equal times in the order sent, at non-decreasing positions inside the block", "statement": "Within a block the events delivered are exactly those pending with time before the block's end, sorted by time then send order; the positions reported never decrease and never exceed the block length; the events not delivered remain pending. Blocks have at least one frame and frames times rate is at most 2^33.", "quantifier": "all event sets, block lengths in that range, block start times and sample rates", "why_tests_cant": "Rounding of positions could make a position go backwards (an underflow abort) for particular times only.", "anchors": ["src/effects/utility/event_processor.rs: receive_events, next_event, next_event_before"]}
{"id": "C28", "title": "Cancel-all on a sampler drops every event sent before it and none sent after it", "statement": "When a cancel-all event is received every event received earlier and still pending is discarded, events sent afterwards are kept, and playback is stopped and looping cleared.", "quantifier": "all event histories", "why_tests_cant": "All positions of the cancel in all histories.", "anchors": ["src/effects/utility/event_processor.rs: receive_events", "src/effects/sampler/sampler_event.rs: should_clear_queue", "src/effects/sampler/sampler_processor.rs: cancel_all"]}
{"id": "C29", "title": "A buffer behaves as a grid: writing one sample changes that sample only", "statement": "For every buffer and every valid location, reading after writing returns the value written, and every other valid location is unchanged; the same holds through any nesting of mutable slices. add_sample adds to one sample only, and channel_is_silent tells whether all samples of a channel are zero.", "quantifier": "all buffer shapes, locations, values and slice nestings", "why_tests_cant": "Flat index arithmetic over all shapes.", "anchors": ["src/buffer/owned_audio_buffer.rs: get_sample_location_range", "src/buffer/mutable_borrowed_audio_buffer.rs"]}
{"id": "C30", "title": "Copying and mixing a region touches exactly that region", "statement": "copy_from (add_from, add_from_with_gain) sets each destination sample in the region to the source sample (its sum with the previous value, scaled by the gain) and leaves every other sample unchanged, for every region inside both buffers; a region outside either buffer aborts.", "quantifier": "all shapes, regions, offsets and contents", "why_tests_cant": "Frame conditions over all shapes.", "anchors": ["src/buffer/audio_buffer.rs: copy_from, add_from, add_from_with_gain"]}
{"id": "C31", "title": "Interleaving round-trips", "statement": "Filling a buffer from interleaved data and copying it back reproduces the data when the channel counts agree. Violated when the buffer has fewer channels than the interleaved data: the wrong stride is used and the samples of different channels are mixed up.", "quantifier": "all shapes and contents", "why_tests_cant": "Depends on the relation between three counts.", "anchors": ["src/buffer/audio_buffer.rs: fill_from_interleaved, copy_to_interleaved"]}
{"id": "C32", "title": "A slice shows exactly its region of the parent", "statement": "Sample (c,f) of a slice is sample (c+channel offset, f+frame offset) of its parent; slices of slices compose; creating a slice outside the parent aborts. Violated: the immutable slice_channels swaps its channel and frame counts.", "quantifier": "all parents, ranges and nestings", "why_tests_cant": "All ranges; the existing test of slice_channels uses a shape that hides the swap.", "anchors": ["src/buffer/borrowed_audio_buffer.rs: slice, slice_channels, slice_frames", "src/buffer/mutable_borrowed_audio_buffer.rs"]}
{"id": "C33", "title": "Duplicating, extending, padding and copying buffers preserve content", "statement": "from_buffer gives an identical buffer; extended_with_buffer gives the concatenation per channel; padded_to_length gives the original followed by zeros; duplicate_channel copies one channel onto another and nothing else. Violated: padded_to_length aborts when the requested length is shorter, and from_slice aborts for more than one channel although it is documented to copy to all channels.", "quantifier": "all buffers, lengths and channels", "why_tests_cant": "All shapes.", "anchors": ["src/buffer/owned_audio_buffer.rs: from_buffer, extended_with_buffer, padded_to_length, from_slice, duplicate_channel"]}
{"id": "C34", "title": "Iterating a buffer visits every sample exactly once, channel by channel", "statement": "The sequence of locations produced by frame_iter is exactly (0,0),(0,1),...,(c-1,f-1) for a buffer of c channels and f frames, then it ends; for an empty buffer it is empty.", "quantifier": "all shapes", "why_tests_cant": "All shapes including degenerate ones.", "anchors": ["src/buffer/audio_buffer.rs: FrameIterator::next"]}
{"id": "C35", "title": "The vectorised sample kernels equal the plain element-by-element loops", "statement": "mix_into, mix_into_with_gain, mix_into_with_gains, mix, subtract_from, multiply and multiply_by_value give, for every memory alignment of their arguments, the same result as the obvious loop over elements.", "quantifier": "all lengths, all alignment splits of every argument, all contents, any arithmetic (including floating point)", "why_tests_cant": "Alignment is chosen by the allocator; tests see whatever they get.", "anchors": ["src/dsp/mod.rs"]}
{"id": "C36", "title": "Applying a gain value scales every channel of the range", "statement": "apply_gain_value multiplies every sample in the range by the gain and changes nothing else. Violated for gain 0: only the first channel is cleared. apply_gain scales every channel by the gain table; clear and clear_range silence what they name and nothing else.", "quantifier": "all buffers, ranges and gains", "why_tests_cant": "The early return is only visible for several channels and gain 0.", "anchors": ["src/buffer/audio_buffer.rs: apply_gain_value, apply_gain"]}
{"id": "C37", "title": "The mixer realises its gain matrix", "statement": "Each output sample is the sum over inputs of the level last set for that (input, output) pair times the input sample; setting one level changes no other level; the matrix used is the last one sent before the block, and before any level is set the output is silent.", "quantifier": "all channel counts up to 8x8, all sequences of level settings, all inputs", "why_tests_cant": "All matrices and update sequences.", "anchors": ["src/effects/mixer/mixer_matrix.rs", "src/effects/mixer/mixer_processor.rs"]}
{"id": "C38", "title": "Setting more than 32 mixer levels between blocks does not block the caller", "statement": "Setting a level should return without waiting for the audio thread. Violated: the 33rd level set without an intervening block waits forever when control and audio run on one thread, although an 8x8 matrix has 64 levels.", "quantifier": "all numbers of level settings between blocks", "why_tests_cant": "Needs the capacity bound for all counts; tests set two or four levels.", "anchors": ["src/effects/mixer/mixer_node.rs: set_level, EVENT_CHANNEL_CAPACITY"]}
{"id": "C39", "title": "Pan never amplifies and is transparent at the centre", "statement": "For pan in [-1,1] each channel's gain lies in [0,1], the louder side keeps gain 1, centre leaves the signal unchanged, hard left (right) silences the right (left) channel, and mirroring the pan mirrors the gains.", "quantifier": "all pan values and samples", "why_tests_cant": "Continuum of values.", "anchors": ["src/effects/pan/pan_processor.rs"]}
{"id": "C40", "title": "A sampler start request is audible unless superseded", "statement": "After a start request is applied a voice plays the sample from the requested position. Violated: when both voices are still fading out the request is dropped without notice and the sampler is silent. This happens for three starts within one fade length, and for every third start of a sample shorter than the 50 ms fade however far apart the starts are, because a fade-out does not progress past the end of the sample.", "quantifier": "all start/stop histories and fade lengths", "why_tests_cant": "Depends on the number of requests within a fade.", "anchors": ["src/effects/sampler/sampler_processor.rs: assign_voice, stop", "src/effects/sampler/sampler_voice.rs"]}
{"id": "C41", "title": "A sampler voice plays the sample verbatim, splitting into blocks does not matter", "statement": "Rendering n+m frames of a voice equals rendering n and then m; a playing voice adds exactly the sample frames from its position on and nothing past the end of the sample; every voice stops after at most the fade length once stopped.", "quantifier": "all samples, positions, fade lengths, block splits", "why_tests_cant": "All splits relative to fade and sample boundaries.", "anchors": ["src/effects/sampler/sampler_voice.rs: render, render_fade, render_playing"]}
{"id": "C42", "title": "A looping sampler with loop end at or before loop start does not hang", "statement": "Processing terminates for every pair of loop points. Violated: with loop end <= loop start the render loop never advances; enable_loop(a, 0) on an idle sampler already keeps the audio thread from ever returning.", "quantifier": "all loop points", "why_tests_cant": "Non-termination cannot be tested.", "anchors": ["src/effects/sampler/sampler_processor.rs: process_sample, finish_sample, next_loop_position"]}
{"id": "C43", "title": "A recording is exactly the input between start and stop", "statement": "The recording taken after stop is the concatenation, in order, with no gap or repetition, of the input frames processed from the block in which recording started up to the frame of the stop event, whatever the block sizes, as long as notifications are processed often enough to return buffers.", "quantifier": "all block partitions, start/stop schedules and inputs", "why_tests_cant": "Chunk boundaries (4096 frames) against all block sizes.", "anchors": ["src/effects/recorder/recorder_processor.rs: process, next_buffer, start, stop", "src/effects/recorder/recorder_node.rs: append_buffer"]}
{"id": "C44", "title": "Recording without collecting notifications does not stall the audio thread", "statement": "The audio thread should never wait on the control thread. Violated: after 32 undelivered notifications the audio thread waits.", "quantifier": "all block sequences without notification processing", "why_tests_cant": "Needs > 131072 frames without collection.", "anchors": ["src/effects/recorder/recorder_node.rs: NOTIFICATION_CHANNEL_CAPACITY", "src/effects/recorder/recorder_processor.rs: next_buffer"]}
{"id": "C45", "title": "Convolution equals the direct convolution sum across block boundaries", "statement": "For every impulse response and every division of the input into blocks not larger than the maximum, the wet output at frame t is sum_k h[k] x[t-k] over the whole input history.", "quantifier": "all impulses, inputs, block partitions", "why_tests_cant": "Overlap handling against all partitions.", "anchors": ["src/effects/convolution/convolution_processor.rs: new, consume_input, process"]}
{"id": "C46", "title": "The oscillator never reads outside its wavetable", "statement": "For every frequency in range the wavetable index stays inside the table. Violated: when the phase reaches exactly 1 (for example 375 Hz at 48 kHz at the 128th sample) the read is out of bounds and the audio thread aborts.", "quantifier": "all frequencies, sample rates, run lengths", "why_tests_cant": "Needs an exact phase coincidence.", "anchors": ["src/effects/oscillator/oscillator_processor.rs: increment_phase, get_value"]}
{"id": "C47", "title": "The ADSR envelope stays in [0,1]", "statement": "With sustain level in [0,1] the envelope stays in [0,1] for every sequence of note on, note off and setting changes, and is 0 while idle.", "quantifier": "all event histories, all times and levels", "why_tests_cant": "All histories.", "anchors": ["src/effects/adsr/adsr_envelope.rs"]}
{"id": "C48", "title": "ADSR stages complete in their configured times", "statement": "Attack from silence reaches unity within the attack time, louder with every frame, decay reaches sustain within the decay time, quieter with every frame, and release reaches zero within the release time, quieter with every frame. Violated for release when the note ends above the sustain level: from level l it takes log(10 l + 1) / log(10 s + 1) times the release time, where s is the sustain level. When the sustain level is 0 a note released during decay never ends.", "quantifier": "all times, levels, sample rates", "why_tests_cant": "Continuum of settings.", "anchors": ["src/effects/adsr/adsr_envelope.rs: calculate_*_coefficient, process"]}
{"id": "C49", "title": "The envelope follower never exceeds the loudest input and converges without overshoot", "statement": "The level always lies between 0 and the largest absolute input so far, and each step moves it towards the current input without passing it.", "quantifier": "all inputs and attack/release times", "why_tests_cant": "Unbounded signals.", "anchors": ["src/effects/utility/envelope_follower.rs"]}
{"id": "C50", "title": "Periodic notifications are neither lost nor drift", "statement": "After any sequence of advances, notifications have been raised exactly for the advances in which the running total crossed a multiple of the interval; the phase error never accumulates.", "quantifier": "all intervals and advance sequences", "why_tests_cant": "Drift over unbounded runs.", "anchors": ["src/effects/utility/periodic_notification.rs"]}
{"id": "C51", "title": "The envelope node inspects every input sample and never aborts", "statement": "Each block every frame of every channel contributes to the reported peak. Violated: when a notification falls due inside a block the rest of the block is skipped, and when it falls due before channel-count frames the node aborts.", "quantifier": "all block sizes, channel counts and notification rates", "why_tests_cant": "Depends on number-theoretic coincidence of interval and block size.", "anchors": ["src/effects/envelope/envelope_processor.rs: process_audio"]}
{"id": "C52", "title": "The compressor never amplifies and is transparent below threshold", "statement": "With ratio >= 1 the gain is in (0,1], equals 1 below the threshold, and is non-increasing in level above it. Violated: at exactly the threshold with knee 0 the gain is 0/0.", "quantifier": "all levels, thresholds, ratios, knees", "why_tests_cant": "Continuum; the 0/0 is at a single point.", "anchors": ["src/effects/compressor/compressor_processor.rs: calculate_gain_reduction"]}
{"id": "C53", "title": "The biquad filters are stable and have the documented response", "statement": "For centre frequency strictly between 0 and half the sample rate and q > 0 the low/high/band/notch filters are stable, low pass has unit gain at 0 Hz and zero at Nyquist, high pass the reverse, notch and band pass as documented; shelves have the configured gain on their side and unity on the other. Violated: the permitted range (up to 20 kHz) exceeds half the sample rate for rates below 40 kHz, where the filters are unstable.", "quantifier": "all frequencies, rates, q and gains", "why_tests_cant": "Continuum of settings.", "anchors": ["src/effects/biquad/biquad_coefficients.rs"]}
{"id": "C54", "title": "Every documented parameter of an effect is reachable through its accessor", "statement": "Each accessor returns a parameter of its effect. Violated: Biquad::shelf_gain looks up shelf_gain but the parameter is registered as shelf-gain, so the accessor always panics.", "quantifier": "all effects and accessors", "why_tests_cant": "No test calls every accessor.", "anchors": ["src/effects/biquad/biquad_node.rs: shelf_gain"]}
{"id": "C55", "title": "The waveshaper output lies between the smallest and largest value of its curve", "statement": "For every input sample, including those outside [-1,1], the shaped value is a convex combination of curve values, so a hard clip never exceeds its threshold.", "quantifier": "all samples and curves", "why_tests_cant": "Continuum of inputs.", "anchors": ["src/effects/waveshaper/shape.rs: shape_sample", "src/effects/waveshaper/waveshaper_node.rs: hard_clip"]}
{"id": "C56", "title": "Decibel conversion round-trips and is monotone", "statement": "Converting a linear level to decibels and back is the identity and a louder level has a higher decibel value. Violated between 1e-9 and 10^-6.4: such levels convert to less than -128 dB, below the value reported for silence, and come back as 0.", "quantifier": "all levels", "why_tests_cant": "Continuum of values.", "anchors": ["src/utility/level.rs: from_db, as_db"]}
{"id": "C57", "title": "Identifiers are never handed out twice", "statement": "Under every interleaving of threads generating identifiers, no two calls return the same identifier until the counter wraps.", "quantifier": "all interleavings, any number of threads", "why_tests_cant": "Interleavings.", "anchors": ["src/commands/id.rs: Id::generate"]}
{"id": "C58", "title": "A notifier is called on every notification pass until it asks to be removed, in registration order", "statement": "Each pass calls each registered notifier exactly once in registration order; a notifier that answers remove is never called again and no other notifier is affected.", "quantifier": "all sequences of registrations and passes, all notifier behaviours", "why_tests_cant": "All behaviours.", "anchors": ["src/engine/root.rs: add_notifier, process_notifications"]}
{"id": "C59", "title": "Taking commands never makes the audio thread wait", "statement": "Receiving and applying a command completes without waiting for another thread. Violated: disposing of a removed node is a send on a channel of capacity 512, so a control thread that creates and drops more than 512 nodes before the collector thread next runs makes the audio thread wait inside the process call. It holds while at most 512 requests to remove a node have been received or, exactly, for every command unless it disposes of a node while 512 disposed nodes have not been collected.", "quantifier": "all command histories, all collector schedules", "why_tests_cant": "Needs a history of more than 512 removals against a collector that sleeps; tests remove a few nodes.", "anchors": ["src/realtime/dsp_graph.rs: remove_dsp", "src/realtime/garbage_collector.rs: GARBAGE_COLLECTION_CAPACITY, run_garbage_collector"]}
{"id": "C60", "title": "A node with more channels than the configured maximum aborts the audio thread in the first running call", "statement": "If a node in the graph has more input or output channels than the engine's maximum channel count, connected or not, the next process call of at least one frame on a running engine aborts.", "quantifier": "all histories, graphs, channel counts and block sizes", "why_tests_cant": "Depends on the buffers of the pool having the maximum number of channels for every node in every patch; no test configures such a node.", "anchors": ["src/realtime/dsp_graph.rs: process_dsp", "src/realtime/processor.rs: process_graph"]}
{"id": "C61", "title": "A ramp begins at the first frame at or after its start time", "statement": "If at the time of a frame some pending linear ramp is between its start and end times, the value begins to move with that frame. Violated: only the pending change that ends first is looked at, so a ramp from 0 to 20 waits for a pending ramp from 5 to 10. It holds when changes that end earlier also start earlier.", "quantifier": "all sets of requested linear ramps, all times", "why_tests_cant": "Depends on overlapping ramps in all orders; tests schedule one ramp at a time.", "anchors": ["src/parameter/realtime_parameter.rs: value_at_time, add_parameter_change"]}
{"id": "C62", "title": "Cancelling the loop of a sampler lets it play on to the end of its sample", "statement": "After cancel_loop the sampler plays on from where it is to the end of the sample. Violated: the sampler counts the frames played since the start, loops included, so a sampler that has looped for longer than its sample is cut off at once by cancel_loop although it is in the middle of the sample. It holds when the loop has not wrapped around.", "quantifier": "all samples, loop points, times of the cancel, block partitions", "why_tests_cant": "Depends on how often the loop has wrapped around when it is cancelled.", "anchors": ["src/effects/sampler/sampler_processor.rs: cancel_loop, finish_sample, process_sample, next_loop_position"]}
{"id": "C63", "title": "A sampler that is told to stop becomes silent and stays silent until it is started again", "statement": "After stop_now nothing is heard once the fade-out has ended, for all later blocks without a start event. Violated while looping: stop does not clear the loop, so playback restarts by itself when the loop end is next reached. It holds without a loop.", "quantifier": "all states, pending events that start nothing, block partitions", "why_tests_cant": "Absence of sound over all later blocks.", "anchors": ["src/effects/sampler/sampler_processor.rs: stop, finish_sample"]}
{"id": "C64", "title": "An idle sampler that is started plays its sample exactly once", "statement": "With start_now on an idle sampler the output of this and all later blocks is the sample from its first frame to its last, frame by frame without gap or repetition whatever the block sizes, and then nothing.", "quantifier": "all samples, block partitions and block start times", "why_tests_cant": "All partitions of the stream into blocks.", "anchors": ["src/effects/sampler/sampler_processor.rs: process_audio, process_sample, start", "src/effects/sampler/sampler_voice.rs: render"]}
{"id": "C65", "title": "is_recording tells whether the recorder is recording", "statement": "After the notifications have been processed, is_recording is true exactly if the last start or stop request that has taken effect on the audio thread was a start, whatever the requests, times and blocks.", "quantifier": "all histories of requests, blocks and notification passes", "why_tests_cant": "Depends on the order in which notifications cross the channel for all interleavings of requests.", "anchors": ["src/effects/recorder/recorder_node.rs: process_notifications, is_recording", "src/effects/recorder/recorder_processor.rs: start, stop"]}
{"id": "C66", "title": "ADSR events take effect on their frames", "statement": "The gain of each frame of an ADSR node is that of an envelope advanced frame by frame, to which each event is applied just before the frame of its time, in the order of times and then of calls, whatever the block sizes; events after a block's end wait; no history of blocks with up to 32 calls between two blocks makes the node fault or a call wait.", "quantifier": "all histories of calls and blocks", "why_tests_cant": "All interleavings of event times and block boundaries.", "anchors": ["src/effects/adsr/adsr_processor.rs: prepare_envelope, process_audio", "src/effects/adsr/adsr_node.rs"]}
{"id": "C67", "title": "A mono signal can be panned", "statement": "A pan node with one input channel places that channel between the two outputs: the right output carries the input times the right gain. Violated: the right output carries whatever is in the second channel of the buffer behind the input (silence if it was cleared), and the audio thread aborts if there is none.", "quantifier": "all mono inputs, pan values and buffers behind the input", "why_tests_cant": "The node is documented to take any input count; tests only use two channels.", "anchors": ["src/effects/pan/pan_node.rs: Pan::new", "src/effects/pan/pan_processor.rs: process_audio", "src/realtime/dsp_graph.rs:208-220"]}
{"id": "C68", "title": "The envelope node never makes the audio thread wait", "statement": "Reporting peaks never waits for the control thread, however rarely it collects them. Violated: the audio thread waits on a full channel of 64 notifications, for example after 64 mono notifications that have not been collected, and always for nodes with more than 64 channels.", "quantifier": "all notification rates, channel counts and collection times", "why_tests_cant": "Needs the control thread to be late; tests collect after each block.", "anchors": ["src/effects/envelope/envelope_processor.rs: send_notifications", "src/effects/envelope/envelope_node.rs: NOTIFICATION_CHANNEL_CAPACITY"]}
{"id": "C69", "title": "Louder in is louder out through the compressor", "statement": "The level that comes out of the compressor never falls when the level of the envelope rises: the curve has no downward jump. Violated: for every knee above 0 and every ratio above 1 the output jumps down at threshold + knee/2, because the soft knee branch is reachable at a single point only.", "quantifier": "all levels, thresholds, ratios and knees in range", "why_tests_cant": "A jump at a single point between two continuous pieces.", "anchors": ["src/effects/compressor/compressor_processor.rs: calculate_gain_reduction"]}
{"id": "C70", "title": "Sample rate conversion interpolates between neighbouring samples", "statement": "Every converted sample is the value, at its time, of the polygon through the source samples (held after the last one): it never leaves their range, a ramp stays a ramp, the same rate copies, and a multiple of the rate and back gives the samples back. Violated: an empty source stops the audio thread.", "quantifier": "all buffers, slices, rates, offsets and lengths", "why_tests_cant": "Continuum of rates and positions.", "anchors": ["src/buffer/audio_buffer.rs: sample_rate_convert_from"]}
{"id": "C71", "title": "The soft saturator gives a number for every permitted threshold and limits both polarities", "statement": "For each threshold from 0 to 1 every sample comes out as a number, limited in both polarities. Violated: at threshold 1 loud samples become not a number (0/0 in the last point of the table), and negative samples are never limited.", "quantifier": "all thresholds in [0,1], all samples", "why_tests_cant": "One point of a continuum.", "anchors": ["src/effects/waveshaper/waveshaper_node.rs: soft_saturator"]}
{"id": "C72", "title": "A hard clip leaves samples that are not over the threshold alone", "statement": "A sample not over the threshold passes a hard clip unchanged. Violated: thresholds above 1 clip at 1, and samples closer to the threshold than the spacing of the table are attenuated.", "quantifier": "all thresholds, samples, overdrives and mixes", "why_tests_cant": "Continuum of samples and thresholds.", "anchors": ["src/effects/waveshaper/waveshaper_node.rs: hard_clip", "src/effects/waveshaper/shape.rs: shape_sample"]}
{"id": "C73", "title": "Every parameter handle reaches its parameter on the audio thread", "statement": "Constructing an effect succeeds whenever its arguments are in range (only the frequency of an oscillator can be out of range); each parameter handle it offers addresses a realtime parameter that exists, has the same name and starts at a default inside the allowed range; every parameter the processor reads in a block exists.", "quantifier": "all effects, all names, all oscillator frequencies", "why_tests_cant": "A missing name aborts the audio thread; tests use the names they know to be there.", "anchors": ["src/utility/create_parameters.rs: create_parameters", "src/graph/dsp_parameters.rs: get_parameter", "src/parameter/parameter_range.rs: new, is_valid"]}
{"id": "C74", "title": "The filter's output does not depend on how time is cut into blocks", "statement": "For every division of the input into blocks, every channel count and every movement of frequency, q, shelf gain and gain from frame to frame, the biquad processor does not panic, and its output at frame t of channel c is the gain at t times the second order difference equation run over the whole input history of channel c, with at each frame the coefficients of that frame's settings. Channels never leak into each other.", "quantifier": "all filter types, rates, channel counts, signals, parameter movements, block partitions", "why_tests_cant": "State carried across blocks and recomputation of coefficients on change, for all partitions.", "anchors": ["src/effects/biquad/biquad_processor.rs: process_audio, process_sample"]}
{"id": "C75", "title": "The oscillator plays its table at the rate of its frequency", "statement": "For every table, every movement of the frequency and every division into blocks, each frame is the gain times the table taken as one cycle of a periodic signal, read along straight lines between the two nearest samples at the number of cycles gone by, the same on every channel. Violated: after the last sample of the table comes 0 instead of the first sample, so tables that do not start with 0 click once per cycle.", "quantifier": "all tables, frequency movements, gains, block partitions", "why_tests_cant": "The last of the table's segments is only heard for particular phases.", "anchors": ["src/effects/oscillator/oscillator_processor.rs: get_value, process_audio", "src/effects/oscillator/oscillator_node.rs: new"]}
{"id": "C76", "title": "The sine and harmonic oscillators are accurate", "statement": "For every movement of the frequency, every choice of harmonic levels and every division into blocks, the output is within an explicit bound of the ideal sum of sines at the number of cycles gone by: for the plain sine within 1e-7 times the gain, however long it runs.", "quantifier": "all frequency movements, levels, gains, run lengths, block partitions", "why_tests_cant": "A bound over all phases and run lengths.", "anchors": ["src/effects/oscillator/oscillator_node.rs: make_sine_wavetable, sine, with_harmonics", "src/effects/oscillator/oscillator_processor.rs"]}
{"id": "C77", "title": "Time conversions survive the rounding of f64", "statement": "With f64 arithmetic as the code does it, the timestamp of a whole number of samples, converted back to samples and rounded, is that number; later samples have strictly later timestamps; and the clock of the engine read in samples is the number of frames rendered, for 68 years.", "quantifier": "all sample rates up to 2^19 and all sample counts within 2^31 - 1 seconds of zero", "why_tests_cant": "The error of f64 grows with the time and depends on the sample rate; tests look at a few small times.", "anchors": ["src/utility/timestamp.rs: from_samples, as_samples", "src/realtime/processor.rs: update_position"]}
{"id": "C78", "title": "Peak reports are delivered exactly once and in order", "statement": "Whatever the interleaving of audio blocks, notifier runs and take_notifications calls, what is taken over time is the same list of reports, each exactly once; it is made of one report for each channel, in the order of the channels, for each notification.", "quantifier": "all interleavings of blocks, notifier runs and take_notifications, all notification rates and channel counts", "why_tests_cant": "Needs interleavings of two threads; tests use one.", "anchors": ["src/effects/envelope/envelope_node.rs: process_notifications, take_notifications", "src/effects/envelope/envelope_processor.rs: send_notifications"]}
{"id": "C79", "title": "A program can do nothing with the nodes it holds that aborts or stalls the audio thread", "statement": "Whatever sequence of node creations, connections, disconnections, drops, parameter changes, starts and stops a program makes with handles it holds, no process call aborts or waits, however the calls are divided over process calls; and when they have been received the engine has exactly the nodes held and the connections made and not undone. Violated: by dropping a connected node, by connecting two nodes twice, by closing a loop, by a node wider than the engine. It holds for programs that avoid these, keep at most 1022 nodes and drop at most 512.", "quantifier": "all programs, all divisions of their calls over process calls, all block sizes, all node behaviours", "why_tests_cant": "The space of programs and of their interleavings with process calls is unbounded.", "anchors": ["src/graph/graph_node.rs", "src/engine/root.rs: Context for Root", "src/realtime/processor.rs: process_commands", "src/realtime/dsp_graph.rs"]}
{"id": "C80", "title": "A gain node scales the signal by its automated gain, at the right frame", "statement": "A program that makes a gain node, connects it between the system input and the system output and starts the engine hears every input frame multiplied by the gain of that frame: 1 until a change is due, the new value from then on. An immediate change at the timestamp of frame N leaves the frames before N alone and affects frame N and all later ones, however the host divides the frames into process calls and however the engine divides the calls into blocks, provided the change was requested before the call that contains frame N.", "quantifier": "all sample rates up to 2^30, all block sizes and channel counts, all sequences of process calls, all times, values and moments of requests", "why_tests_cant": "The frame at which a change is heard depends on the size of every earlier call through the rounding of the clock; tests use a single call or generous tolerances, and never sum up clock, block offset and frame offset.", "anchors": ["src/effects/gain/gain_processor.rs:11-32", "src/effects/gain/gain_node.rs:21-62", "src/parameter/realtime_parameter.rs:94-157", "src/realtime/processor.rs:38-122", "src/graph/dsp.rs:73-114"]}
{"id": "C81", "title": "Nodes connected in a row act one after the other", "statement": "connect_nodes! makes exactly the connections its arrows show. A program that makes nodes, connects them in a row to the system output (from the system input, or with the first node as the source) and starts the engine hears, frame by frame, the signal that has gone through the first node, then the second, and so on: no node is skipped, run twice or run before the node it listens to, no frame is lost or repeated between process calls, and requests for one node never reach another. In particular the gains of gain nodes in a row multiply, each with its own automation.", "quantifier": "all rows of nodes, whatever the nodes compute and whatever is requested of them; all block sizes, channel counts and sequences of process calls", "why_tests_cant": "The order of rendering comes from a topological sort of a hash map, buffers are pooled and reused, and every node is called once per block; tests run one or two nodes for one call.", "anchors": ["src/graph/connect_nodes.rs:9-22", "src/graph/dsp.rs:73-114", "src/realtime/processor.rs:38-122", "src/realtime/dsp_graph.rs"]}
{"id": "C82", "title": "A sampler in an engine starts on the frame it is told to", "statement": "A program that makes a sampler, connects it to the system output, starts the engine and tells the sampler to start at the time of frame N of the session, before that frame, hears the sample from frame N on: every frame of the sample once, in order, and silence before and after, however the host divides the session into process calls and the engine the calls into blocks. When told to start now it is heard from the first frame of the next process call on. No process call aborts or waits. Violated: it may be heard one frame early.", "quantifier": "all samples, sample rates, block sizes, channel counts, sequences of process calls, times N and moments of the request, and for the signal as a whole all sequences of events", "why_tests_cant": "The frame is found from a clock in 2^-32 s that is rounded once per call, per block and per event; tests use one block, and a start at 0.", "anchors": ["src/effects/sampler/sampler_node.rs", "src/effects/sampler/sampler_processor.rs", "src/effects/utility/event_processor.rs", "src/realtime/processor.rs:38-122", "src/graph/dsp.rs:73-114"]}
{"id": "C83", "title": "Effects in an engine keep their state across calls and follow their parameters", "statement": "A program that makes gain, pan, biquad, oscillator, convolution, waveshaper and compressor nodes, connects them in a row (from the system input or with an oscillator first) to the system output and starts the engine hears the session input through each effect as one unbroken signal: the pan law, the filter's difference equation from the first frame of the session with the settings of each frame, the oscillator's table at the cycles gone by since the first frame, the convolution with the whole impulse, the curve of the waveshaper at each sample, the compressor's gain at a level that has been followed since the first frame. Each effect's parameters have at each frame the value that the requests for that parameter of that node give, the documented default until then, and requests for one parameter never change another; changes that are cancelled before they are due are not made. Violated: cancelling the changes that end after a time cancels those that end before it. How the host divides the session into process calls does not matter. No process call aborts or waits, unless an oscillator completes a whole cycle on a frame (C46).", "quantifier": "all rows of such effects, wavetables, impulses, filter types, requests and cancellations at any time, block sizes, channel counts and sequences of process calls", "why_tests_cant": "State is carried across blocks, calls and nodes while parameters move; tests run a single processor for one block.", "anchors": ["src/graph/dsp.rs:73-114", "src/graph/dsp_parameters.rs", "src/effects/gain", "src/effects/pan", "src/effects/biquad", "src/effects/oscillator", "src/effects/convolution", "src/realtime/processor.rs:38-122"]}
{"id": "C84", "title": "A rendered file holds what the engine put out", "statement": "Rendering a context for a duration with the example host writes a 24 bit stereo file that holds, in order and once each, the frames the engine puts out on silent input, as many as there are in the duration. Every sample, also one that is out of range or not a number, is written, limited to -1..1, and is read back with an error of at most 2^-22. A 24 bit file that is read and written again is the same. Violated: only the whole seconds of the duration are rendered.", "quantifier": "all durations, programs, nodes, sample rates and buffers; all sample values; all files", "why_tests_cant": "Interleaving, the last short block, rounding in single precision and the largest value all depend on numbers a test would have to guess; the file helpers have no tests.", "anchors": ["examples/src/common/file_utils.rs"]}
{"id": "C85", "title": "The live host plays what is captured, a millisecond later, through the engine", "statement": "However the callbacks of the input and the output device are interleaved, the example host calls the engine once for every block the output device asks for, on the captured frames in order, each once, a millisecond late, and plays what the engine puts out; with nodes in a row this is the captured signal through the nodes. No callback waits or aborts. Violated for the latter: more input than output channels, a late input, a block longer than announced (abort), and an output that stops (the input callback waits).", "quantifier": "all devices, sample rates and schedules of the two callbacks; all engines, programs and nodes", "why_tests_cant": "Callbacks come from two device threads in any order with blocks of any size; a test has no devices and sees only some schedules.", "anchors": ["examples/src/common/audio_callback.rs:60-235"]}
{"id": "C86", "title": "A network plays, at every frame, what its nodes make of the sum of what is connected to them", "statement": "In a session of process calls, however they cut the frames into blocks and however many of them come before all of the program has arrived, the output is the signal of the node connected to the output, where the signal of every node is what the node makes of the sum of the signals connected to it (or of the input), from the frame at which the engine starts; without loops these signals are uniquely determined; a program that is careful (C79) and whose nodes can be rendered never fails. For effects, the equations of C83 hold at every node; the example of oscillators through a gain and a pan renders the sum of the oscillators at their frequencies and levels, times the gain, panned.", "quantifier": "all networks (where no node has both the input and another node connected to it), nodes, requests, blocks and sessions; all lists of voices", "why_tests_cant": "Paths of different length meet in a node and must not be shifted against each other at block borders, whatever order the nodes are processed in; tests have a few small graphs and one block.", "anchors": ["src/realtime/dsp_graph.rs: process, prepare_input, mix_endpoint", "src/realtime/processor.rs: process", "examples/src/bin/offline_process.rs:22-77"]}
{"id": "C87", "title": "Nodes of all kinds work together in one engine", "statement": "Effects with parameters, mixers, ADSR envelopes and samplers can be connected in any way in one engine: every node has one signal for the whole session, and what comes out of each is what a node of its kind makes of the sum of what is connected to it, with the parameters, levels and events that were requested of it and nothing of what was requested of others, wherever blocks and process calls end. A mixer has the levels that were set before a process call during all of it. If the program is careful and requests only what the nodes have, every process call succeeds.", "quantifier": "all networks of these nodes, requests, blocks and sessions", "why_tests_cant": "Each kind of node gets its requests through a channel of its own and keeps state of its own over blocks; unit tests run one processor alone on one block.", "anchors": ["src/graph/dsp.rs:73-114", "src/effects/mixer/mixer_node.rs:30-86", "src/effects/adsr/adsr_node.rs:19-96", "src/effects/sampler/sampler_node.rs:15-121"]}
{"id": "C88", "title": "Notes of an ADSR envelope are played at their times over a whole session", "statement": "Every event that is sent to an ADSR envelope takes effect once, at the frame of its time or at the next frame that is rendered if that has passed, in the order of times (and of sending for equal times), whatever the blocks and process calls are. Notes that leave time for the envelope rise to full level in the attack time, fall to the sustain level in the decay time, stay there until they end, fade to silence in the release time and are silent until the next note. The example adsr.rs plays on both channels the sum of its oscillators times this gain.", "quantifier": "all events, times, blocks and sessions; all oscillators, envelopes with a positive sustain level and spaced notes", "why_tests_cant": "Events are queued, sorted and split over blocks; tests look at single blocks with events at the block start, and nobody can test all ways to cut a session.", "anchors": ["src/effects/adsr/adsr_processor.rs:14-120", "src/effects/adsr/adsr_envelope.rs:1-200", "src/effects/utility/event_processor.rs", "examples/src/bin/adsr.rs:9-97"]}
{"id": "C89", "title": "Compressors and waveshapers in an engine do to a whole session what their settings say", "statement": "A compressor in an engine that nobody sets passes on signals below full scale unchanged, frame by frame. With a ratio of at least 1 it never makes a signal louder or turns it over. A signal of steady magnitude above the threshold comes out, after the attack, at the level threshold + (level - threshold) / ratio, to any precision, and the number of frames that takes depends on the settings only, not on blocks or process calls. Times in milliseconds are kept to half a nanosecond. A waveshaper that is all dry passes on its input; one that is all wet never exceeds the limit of its curve, however loud the input and the overdrive. (Except where a hard knee at exactly the threshold divides 0 by 0, C52.)", "quantifier": "all settings, requests, signals, blocks and sessions", "why_tests_cant": "The level detector carries its state over blocks and calls, and settling is a limit; tests process a block of one constant and look at a few samples.", "anchors": ["src/effects/compressor/compressor_processor.rs", "src/effects/compressor/compressor_node.rs", "src/effects/utility/envelope_follower.rs", "src/effects/waveshaper/waveshaper_processor.rs", "src/effects/waveshaper/waveshaper_node.rs"]}
{"id": "C90", "title": "A parameter in an engine follows the curve that the program drew with sets and ramps", "statement": "A program that asks, before some process call, for a series of sets and linear (or, between positive values, exponential) ramps of a parameter draws a curve over time. Until that call the node uses the default. From then on every frame uses the value of the curve at the time of that frame, up to 8R/(M-3) where R is the largest difference between two values and M the number of frames of the shortest ramp (for exponential ramps, of the logarithms), whatever the sizes of blocks and calls, however long the session; errors do not add up from ramp to ramp. While no ramp is under way the error is at most L/2^51 for ramps of at most L frames. Requests whose time has passed start at the first frame of the call. So a fade on a gain node is heard as the input times the curve.", "quantifier": "all series of spaced sets and ramps, all sample rates up to 2^28, all blocks and sessions", "why_tests_cant": "Ramps accumulate an increment or a factor per frame, start late by up to two frames, are cut off where they end, and stop altogether when a parameter counts as static; the total error over sessions of any length is an induction, tests look at the end points of one ramp.", "anchors": ["src/parameter/realtime_parameter.rs:52-172", "src/parameter/audio_parameter.rs:40-110", "src/graph/dsp.rs:75-95"]}
{"id": "C91", "title": "The offline example renders its chord moving from left to right and back", "statement": "Every frame that `offline_process` renders is the sum of sines at the frequencies and levels of its oscillators, times the gain, panned from left to right over the first two seconds and back over the next two: left and right channel are within 9/sample rate + 10^-6 (of the sum of the levels times the gain) of that function of time. The error does not grow with time and does not depend on how the render is cut into process calls. Channels beyond the second are silent, and so is everything before the program has started the engine.", "quantifier": "all numbers, frequencies and levels of oscillators, all gains, sample rates from 14 to 2^28, all sizes of process calls, renders of any length", "why_tests_cant": "The claim is about a whole program: wavetable lookup, set and ramp requests, sums over connections and panning, over unboundedly many frames; a test compares at most single values.", "anchors": ["examples/src/bin/offline_process.rs:14-77", "src/effects/pan/pan_processor.rs:1-60", "src/parameter/realtime_parameter.rs:52-172"]}
{"id": "C92", "title": "The metronome example schedules every beat once, at its time", "statement": "Whatever the times at which the loop of `metronome` gets to run, each beat k is scheduled once, in order, at round(k * 60/tempo * 2^32) units, high on one beat in four. Proved when beats are a whole number of units apart (120, 60, ...). Violated for other tempos: a beat that is at most half a unit before the end of an interval is rounded to that end, belongs to no interval and is never scheduled; only such beats can be missing, and none is ever scheduled twice or out of order.", "quantifier": "all positive tempos, all sequences of times of the loop that do not go back", "why_tests_cant": "The loss needs a beat within 2^-33 s of the end of an interval; random times never show it, and 'no beat twice' is a statement about all sequences of intervals.", "anchors": ["examples/src/bin/metronome.rs:13-104"]}
{"id": "C93", "title": "Programs that connect nodes in a row play what the nodes make of each other's output", "statement": "A program that makes nodes of any kinds, makes requests to them, connects them with `connect_nodes!` in a row that ends at the output and starts the engine plays what the first node makes of silence, passed on through the others, from the frame on which the engine is started. All its process calls succeed (unless an oscillator comes to a whole number of cycles at a frame). So `pan` plays a sine that goes from left to right in four seconds, within 5/sample rate + 10^-6, and `waveshaper` plays the shaped sum of its harmonics with the overdrive going up for five seconds and down for five. Nothing is heard of nodes that are not connected to the output. Violated: `compressor` connects its compressor to nothing, so the example is silent whatever file it is given.", "quantifier": "all rows of nodes of any kinds, all requests, all files, all sessions", "why_tests_cant": "Examples are never run by tests; that a row of any length and any nodes plays the composition is an induction over the row on top of the engine theorems.", "anchors": ["examples/src/bin/compressor.rs:17-55", "examples/src/bin/pan.rs:12-50", "examples/src/bin/waveshaper.rs:15-59", "src/graph/connect_nodes.rs:9-22"]}
{"id": "C94", "title": "The metronome example plays a click at every beat and silence between them", "statement": "A program that goes on making requests to a row of nodes while they play is heard as what the nodes make of those requests. A parameter that is set again and again has at each frame the value of the last set that has been requested and whose time has come. Notes of an envelope with sustain level 0 start at the frames of their times, rise to 1 in the attack time, fall to 0 in the decay time and are silent until the next. So `metronome`, at any tempo up to 1200 and as long as no turn of its loop comes later than the end of what it has scheduled, plays for each beat a click that starts at the frame in which the beat falls, rises in 5 ms and falls to silence in 25 ms, and is a sine that takes the frequency of the beat (880 for one in four, else 440) within two frames of the start, within 10^-7 of the gain; and silence in between.", "quantifier": "all sessions of any length, cut into process calls in any way, all times at which the loop runs, all tempos up to 1200, sample rates from 250 to 2^30", "why_tests_cant": "The requests race with the blocks in which they are applied; that no cut of the session into calls and no timing of the loop moves, drops or changes a click is a statement about all interleavings.", "anchors": ["examples/src/bin/metronome.rs:12-104", "src/effects/adsr/adsr_processor.rs:30-120", "src/parameter/realtime_parameter.rs:52-172"]}
{"id": "C95", "title": "A recorder in an engine gets exactly the frames between start and stop, and the example writes them if it looks once more", "statement": "With any nodes around it, a recorder in an engine has, at the end of any session, recorded the signal that went into it from each start to the next stop, each request taking effect at the frame of its time and not before it was made, wherever blocks and process calls end. What its program has got is a prefix of that, with nothing left out, doubled or changed; processing notifications leaves less than 4096 frames behind, and none when the recording has stopped. All process calls succeed if notifications are processed between process calls of at most 4096 frames, with at most eight requests each. So `record` writes the sum of the channels of the system input, from the start to the frame in which the duration ends, to both channels of its file, provided that notifications are processed after that frame. (They need not be: the loop checks the time after it has processed them, and the end of the recording is then lost.)", "quantifier": "all networks around the recorder, all sessions and cuts into process calls, all requests and all points at which notifications are processed", "why_tests_cant": "Buffers travel between two threads through channels of bounded size, and blocks end anywhere in them; that no frame is lost for any timing is a statement about all interleavings.", "anchors": ["src/effects/recorder/recorder_node.rs:27-105", "src/effects/recorder/recorder_processor.rs", "examples/src/bin/record.rs:12-89"]}
{"id": "C96", "title": "A network can be rebuilt while it plays, and each change takes effect at the next process call", "statement": "A careful program may make and drop nodes, connect and disconnect them, switch the input and the output, and start and stop the engine before any process call. In each process call that is played, what goes into each node is the sum of what the connections that there are then bring, nothing comes from nodes that are not there, and what is heard is the signal of the node that is connected to the output then. Every node keeps its own state through all changes around it: from the frame at which it is made to the last process call at which it is there, what comes out of it is what it makes of all that goes into it, beginning with the state in which it is made, and time does not advance while the engine is stopped. A process call is silent if the engine is stopped or the node at its output has been dropped. This determines everything that is heard, for nodes of all kinds, and all process calls succeed if the nodes can be rendered and at most 512 are dropped.", "quantifier": "all nodes, all careful programs, all points of the session at which they make their changes, all cuts into process calls and blocks, all inputs", "why_tests_cant": "Each test builds one network and then listens. That nothing is left behind by any sequence of changes (a stale order of nodes, a stale buffer, a state that is reset or shared) is a statement about all sequences of changes and all states in which they happen.", "anchors": ["src/realtime/dsp_graph.rs: add_dsp, remove_dsp, add_connection, remove_connection, process", "src/realtime/processor.rs: process, process_commands", "src/graph/graph_node.rs"]}
{"id": "C97", "title": "A sampler that loops plays its loop again and again without a gap", "statement": "A sampler that is idle and is told to start and to loop from frame a to frame b plays its sample up to frame b and then frames a to b again and again: each pass begins on the frame after the last one ended, fading in unless it begins at the start of the sample, while the pass before fades out into what comes after b in the sample. If the loop is the whole sample, frame F of the output is frame F modulo the length of the sample, with no gap and no overlap. This does not depend on how the stream is divided into blocks: loop boundaries fall on the exact frame in the middle of blocks, and one block may hold many passes.", "quantifier": "all samples, all loops, all levels of the fade, all divisions of the stream into blocks", "why_tests_cant": "Tests render one loop in one block. That no pass begins a frame early or late is a statement about rounded times, all lengths, all block sizes and any number of passes; that a voice is free for each pass depends on how long voices fade.", "anchors": ["src/effects/sampler/sampler_processor.rs:123-286", "src/effects/sampler/sampler_voice.rs:28-175", "src/effects/sampler/sampler_fade.rs:31-44"]}
{"id": "C98", "title": "What the examples that play files play and write", "statement": "The example that plays a file plays it again and again at the given level, without gap, from the process call in which the engine is started. The example that sweeps a filter puts the same signal through a low-pass filter whose frequency at time t is within a small factor of 20 Hz * 1000^(t/10) in the first ten seconds, of the same curve backwards in the next ten, and 20 Hz after that. The example that convolves a file with an impulse writes a file of as many whole seconds as the two last together, in which every frame is dry * the frame of the input + wet * the convolution of input and impulse. Nothing is heard on channels that the file does not have. The process calls succeed, however the stream is divided into calls and blocks.", "quantifier": "all files, all impulses, all levels, all sample rates up to 2^28, all divisions of the stream into process calls and blocks, all interleavings of the program with the audio thread before the engine starts", "why_tests_cant": "It is a statement about a whole program, a whole file and a whole session: scheduling of loops, times of automation, the blocks of the convolution and the file writer together. A test can compare a few rendered frames of one file.", "anchors": ["examples/src/bin/file_playback.rs:18-53", "examples/src/bin/biquad.rs:20-61", "examples/src/bin/convolution.rs:28-57", "examples/src/common/file_utils.rs:56-137", "src/effects/sampler/sampler_processor.rs:123-286"]}
{"id": "C99", "title": "Oscillators whose frequency is automated", "statement": "An oscillator in an engine can be swept: after any sets and ramps of its frequency, a session with any nodes succeeds as long as the frequency stays positive. The example that sweeps an oscillator plays, on two channels, the sum of the given harmonics at the number of cycles gone by; the frequency at time t is within a small factor of 20 Hz * 100^(t/4) in the first four seconds, and 2000 Hz after that, and the level goes up from 0 to 1 in a tenth of a second and down to 0 in the last tenth of the four seconds.", "quantifier": "all networks, all requests to the parameters, all frequencies and levels of harmonics, all sample rates from 1000 to 2^28, all divisions of the stream into process calls and blocks, all interleavings of the program with the audio thread before the engine starts", "why_tests_cant": "Whether a whole number of cycles is ever reached exactly at a frame depends on all frequencies since the start, and the failure is a panic on the audio thread; no set of tests covers the possible sweeps.", "anchors": ["examples/src/bin/oscillator.rs:5-85", "src/effects/oscillator/oscillator_processor.rs:18-79"]}
{"id": "C100", "title": "Meters in an engine", "statement": "A meter in an engine, with any nodes around it, reports the signal that arrives at it: at the end of every block in which a notification has become due, for each channel in turn, the highest level of its envelope since the last report. What the program has taken, together with what it could take and what is on the way, is all of these reports in order, none lost and none twice; what was reported before the program polls and takes has been taken. A meter is silent, and a session with meters succeeds if each is polled before more than 64 notifications have been sent. With an instant attack every frame is in a report that is at least as loud, and no report is louder than the signal has been.", "quantifier": "all networks, all numbers of meters and channels, all attack and release times, all notification frequencies, all sample rates, all signals, all divisions of the stream into process calls and blocks, all times of polling", "why_tests_cant": "What a report says depends on the whole signal since the last one, on how blocks fall between notifications and on when the program polls; tests look at single calls of a processor, not at a meter among the nodes of a running engine.", "anchors": ["src/effects/envelope/envelope_processor.rs:12-84", "src/effects/envelope/envelope_node.rs:14-88", "src/graph/dsp.rs:73-114"]}
{"id": "C101", "title": "The example with a meter", "statement": "The example that plays a file and meters it plays, on two channels, the file once, fading out linearly from its beginning to its end, to within a small factor. Its meter reports twice a second the highest level of what is played since the last report; what the program has taken, could take and what is on the way are all reports in order, and it has taken those made before its last pass. The session succeeds if process calls have an even number of frames and the program makes a pass at least every 15 seconds.", "quantifier": "all files of at least 100 frames, all sample rates up to 2^28 that are multiples of 4, all engine limits, all divisions of the stream into process calls with an even number of frames, all interleavings of the passes of the program with process calls", "why_tests_cant": "The reports depend on the whole file, on the fade, on how blocks fall between the notifications and on when the passes happen; the notifications that are lost or late, and the lengths of process calls that make the meter fail, do not show in a test of one call.", "anchors": ["examples/src/bin/meter.rs:16-84", "src/effects/envelope/envelope_processor.rs:12-84", "src/effects/sampler/sampler_node.rs:1-60"]}
{"id": "C102", "title": "The oscillator with the rounding of floating point", "statement": "With every operation rounded to f64, and the samples to f32, as the processor computes: however long an oscillator plays, whatever its frequencies up to the sample rate and however the frames are divided into blocks, its phase is the exact number of cycles gone by to within 3 * 2^-54 of a cycle per frame; the sine oscillator is within 10^-7 + 2^-24 + 2^-49 per frame of the sine of the exact number of cycles; the index stays inside the table, for tables of any length. Violated: when the frequencies are multiples of 2^-52 of the sample rate nothing rounds, and the audio thread panics exactly when a whole number of cycles is complete at a frame (375 Hz at 48 kHz: frame 128).", "quantifier": "all tables, all movements of the frequency up to the sample rate, all sample rates, all run lengths, all divisions into blocks", "why_tests_cant": "Errors of rounding add up over hours of frames; whether the phase becomes exactly 1, or the product with the length of the table is rounded up to that length, depends on the last bit.", "anchors": ["src/effects/oscillator/oscillator_processor.rs:18-66", "src/effects/oscillator/oscillator_node.rs:32-60"]}
{"id": "C103", "title": "Linear ramps of parameters with the rounding of floating point", "statement": "With every operation rounded to f64, as the processor computes: a linear ramp at least a sample long follows the straight line from its starting value to its target, after j + 1 frames to within 64 E / n + 11 (j + 1) units of M * 2^-53, where n is the length of the ramp and E the position of its end in samples since the start, and M the larger of the two values; and it has exactly the target value from its end time on, however the frames are divided into blocks. Violated: that ramps over a whole number of samples, which in exact arithmetic stay between start and target (C19), do so here: a fade from 0 to 1 over 375 samples at 48 kHz has 1 + 28 * 2^-52 in its last frame, above the target and above a maximum of 1.", "quantifier": "all starting values and targets, all sample rates, all times up to 2^46 samples, all lengths of ramps, all divisions into blocks", "why_tests_cant": "Errors of rounding add up over the frames and depend on the time since the start, through the cancellation in the length of the ramp; a test looks at a few values with a tolerance of 1e-3.", "anchors": ["src/parameter/realtime_parameter.rs:78-157", "src/utility/timestamp.rs:109-112", "src/parameter/audio_parameter.rs:50-52"]}
{"id": "C104", "title": "Exponential ramps of parameters with the rounding of floating point", "statement": "With every operation rounded to f64 and a logarithm and an exponential function with a relative error of at most 2^-50 (those of the usual libraries are better), an exponential ramp at least a sample long between values from 2^-100 to 2^100 stays positive and follows the exponential curve: after j + 1 frames the logarithm of the ratio of value and curve is at most 58 |ln(target / start)| E / n + 44 (j + 1) units of 2^-53, where n is the length of the ramp and E the position of its end in samples since the start; from its end time on the value is exactly the target, however the frames are divided into blocks.", "quantifier": "all starting values and targets in the range, all accurate libraries, all sample rates, all times up to 2^46 samples, all lengths of ramps, all divisions into blocks", "why_tests_cant": "An error of the factor is raised to the power of the number of frames, and depends on the time since the start and on the library of the platform; a test on one platform looks at three values with a tolerance of 1e-3.", "anchors": ["src/parameter/realtime_parameter.rs:78-157", "src/utility/timestamp.rs:109-112"]}
{"id": "C105", "title": "The envelope follower with the rounding of floating point", "statement": "With every operation rounded to f32 (level) and f64 (coefficients), as the code computes, and an exponential function with a relative error of at most 2^-50: after every history the level is not negative and exceeds the loudest sample by at most 3 N / 2^24 of it plus 5 N / 2^150, where N is the longest time in samples that has been set (64 to 2^20); after times have been set it goes on from its level exactly as a new follower with these times does; a steady input is approached by a factor 1 - 4 / (5 N) a sample, and reached. Violated: that it is reached. It is approached only to within the same error: with an attack of 1 s at 48 kHz the level for a steady full-scale input stays below 0.9986 for ever; with a release of 10 s, after full scale, the level for a steady input of 0.5 never falls below 0.5285; both times are in the range of the compressor. And with any release time of two samples or more the level does not return to 0 in silence but stays among the subnormal numbers for ever.", "quantifier": "all histories of samples and settings, all attack and release times up to 2^20 samples, all sample rates, all accurate exponential functions", "why_tests_cant": "Steps that are smaller than half a unit of the last place get lost, after hundreds of thousands of samples; tests use short times and a few samples with a tolerance.", "anchors": ["src/effects/utility/envelope_follower.rs", "src/effects/compressor/compressor_parameters.rs: attack, release"]}
{"id": "C106", "title": "The ADSR envelope with the rounding of floating point", "statement": "With every operation of the envelope rounded to f64, as the code computes: after every history of notes, settings and frames the value is between 0 and 1, whatever the precision of logarithm and exponential function, as long as they keep to their signs. If their relative error is at most 2^-50, a note played from silence after any history takes for attack, decay and release the times that were set, each stage ending less than one frame early and less than two frames late, for times of 1 to 2^19 samples and sustain levels of 0.01 to 0.99; it reaches exactly 1 at the end of the attack, holds exactly the sustain level, and ends at exactly 0, idle. Stages with a time of 0 take one frame. An idle envelope gives 0, and one that sustains gives the level that was set last.", "quantifier": "all histories of notes, settings and frames, all settings in these ranges, all sample rates, all accurate logarithms and exponential functions", "why_tests_cant": "The error of the coefficient is multiplied by the number of frames, hundreds of thousands; tests sample a few frames of a few settings with a tolerance.", "anchors": ["src/effects/adsr/adsr_envelope.rs"]}
{"id": "C107", "title": "Periodic notifications with the rounding of floating point", "statement": "With every operation rounded to f64, as the code computes: if the interval is a whole number of samples, notifications come exactly with the advances in which they are due, for ever. For other intervals and blocks that are shorter than the interval, the number of notifications after N blocks is the number of intervals that have gone by, rounded down, with an error of at most N / 2^50. Advancing returns for every positive frequency. Violated: if the interval is 2^-46 samples or less, advancing by a block of 512 frames never returns, because adding the interval changes nothing. It returns, for blocks of up to B frames, if the interval is at least B / 2^50.", "quantifier": "all series of blocks of all lengths, all sample rates, all frequencies", "why_tests_cant": "Rounding errors add up over the whole life of a node; tests advance a few times, by whole intervals.", "anchors": ["src/effects/utility/periodic_notification.rs"]}
{"id": "C108", "title": "Mixing connections in f32", "statement": "With samples that are f32 numbers, as in the program: what a node receives on a channel differs from the exact sum of the k samples that its connections bring by at most k (2^-23 A + 2^-149), where A is the sum of their sizes and k is at most a million. A single connection is passed on unchanged, two are rounded once, and two signals that cancel leave silence. The order in which connections are made changes the sum of given signals by at most twice that error. It cannot be heard, and leaves the nodes in the same states, if no node has more than two connections and the node connected to the system input has at most one. Violated: that the order cannot be heard. Three sources of 1, 3/2^26 and 3/2^26 play 1 if the loud one was connected first and 1 + 2^-23 if it was connected last.", "quantifier": "all patches, all node behaviours, all finite f32 samples whose sums do not overflow, all blocks", "why_tests_cant": "The error depends on all the samples that meet and on the order of the connections; a test mixes a few chosen signals, connected in one order.", "anchors": ["src/dsp/mod.rs", "src/buffer/audio_buffer.rs", "src/realtime/dsp_graph.rs"]}
{"id": "C109", "title": "Gain in f32, with the tolerance of its shortcuts", "statement": "With f32 samples, rounded products and the tests for gains of about 0 and about 1 as the program makes them: each sample that leaves a gain node is the sample that came in times the gain of its frame, with an error of at most 2^-22 max(1, |g|) |x| + 2^-150. The same bound holds for apply_gain on every buffer. Gains between -1 and 1 never make a sample larger, 0 gives silence and 1 gives the sample itself, whatever the gains of the other frames. Frames whose gain is exactly 0 or 1, or not within the tolerance of either, do not depend on the rest of their block. Violated: that no frame does. A gain of 2^-24 silences a block in which all gains are that small, and multiplies if one of them is not, so that what is heard depends on the division into blocks.", "quantifier": "all blocks, all finite f32 samples and gains whose products do not overflow, all alignments", "why_tests_cant": "The shortcuts depend on all the gains of a block together; a test uses a few gains in one division into blocks.", "anchors": ["src/effects/gain/gain_processor.rs", "src/buffer/audio_buffer.rs", "src/dsp/mod.rs"]}
{"id": "C110", "title": "Pan in f32", "statement": "With f32 samples and every operation rounded as in the program: with the pan in range each side of a stereo signal leaves the pan node as it came in, times 1 while the pan is on its side or in the centre and times one minus the distance beyond, with an error of at most 2^-22 |x| + 2^-150, and never louder than it came in. A side is passed on to the last digit while the pan is not beyond the centre, and is exactly silent when the pan is at the far end. Of the same sample, moving the pan away from a side never makes it louder, although gains and products are rounded. Mirroring the pan and swapping the sides swaps the outputs to the last digit, in range or not.", "quantifier": "all stereo blocks, all finite f32 samples, all automations of the pan", "why_tests_cant": "Tests compare a few pan positions with a tolerance; rounding could make a side louder, leak at the far end or tell the sides apart for positions that no test tries.", "anchors": ["src/effects/pan/pan_processor.rs"]}
{"id": "C111", "title": "Mixer in f32", "statement": "With f32 samples, f64 levels that are converted to f32, every operation rounded as in the program, and the tests for levels of about 0 and about 1 with their tolerance: each sample of an output of the mixer node is what was in the output and the sum of the inputs times their levels, with an error of at most n (2^-21 A + 2^-148) for n inputs, where A is the sum of the sizes of what is added up, levels below 1 counting as 1. An output that was silent and takes one input at level 1 and the others at level 0 is that input to the last digit.", "quantifier": "all blocks with up to 2^20 input channels, all finite f32 samples, all levels whose products do not overflow, all alignments", "why_tests_cant": "Tests mix a few constants that f32 holds exactly; errors depend on the samples, the levels and their number together.", "anchors": ["src/effects/mixer/mixer_processor.rs", "src/utility/level.rs", "src/buffer/audio_buffer.rs", "src/dsp/mod.rs"]}
{"id": "C112", "title": "Sample rate conversion in f32", "statement": "With the positions and samples rounded to f32 as in the program: frame i of the result of sample_rate_convert_from is the value of the polygon through the samples of the source at a position that is at most 2^-22 of itself from i times the ratio of the rates, with an error of the value of at most 2^-21 of the larger of the two samples around it, plus 2^-148. Conversion to the same rate copies the first 2^24 + 1 frames to the last digit. Violated: that conversion to the same rate copies. Frame 2^24 + 1, about six minutes into a recording at 48 kHz, is replaced by the frame before it, since indices are converted to f32.", "quantifier": "all buffers, all rates from 1 to 2^20 Hz, all finite f32 samples, conversions that start at the first frame and channel", "why_tests_cant": "The error grows with the length of the recording; tests convert a few samples, and none converts millions.", "anchors": ["src/buffer/audio_buffer.rs"]}
{"id": "C113", "title": "Waveshaper lookup in f32", "statement": "With every operation of the lookup of the waveshaper rounded as in the program: for a table of n points, each output sample is the value of the polygon through the points of the table at a place that is at most n 2^-50 points from where the input sample lies between the ends of the table, with an error of at most n 2^-22 of the step between the two points around it, plus 2^-21 of the larger of them, plus 2^-148. Samples at full scale or beyond give the first or the last point of the table to the last digit. No output sample is louder than the loudest point by more than 2^-21 of it plus 2^-148.", "quantifier": "all finite f32 samples, all tables of 1 to 2^20 finite f32 points", "why_tests_cant": "The rounding of the index decides between which points is interpolated; tests look up a few samples in tables of three points, where nothing is rounded.", "anchors": ["src/effects/waveshaper/shape.rs"]}
{"id": "C114", "title": "Waveshaper table and mix in f32", "statement": "With the table of 511 points, the lookup, the overdrive and the mix rounded as in the program: shaping a signal keeps its length, and silence, full scale and everything beyond full scale become what the shaper gives for 0, 1 and -1, to the last digit. For a shaper with slopes of at most K and values of at most B, every sample between -1 and 1 becomes what the shaper gives for it up to K/254 + 2^-21 B + 2^-148. With the mix at 0 a frame is the input and with the mix at 1 the shaped signal, to the last digit; in between it is their weighted mean up to 2^-21 of the louder of them plus 2^-148. Taking the overdrive back after applying it gives the samples up to 2^-22 of each plus 2^-148, and to the last digit where its gain is 1.", "quantifier": "all shapers on finite f32 numbers, all signals of any length, all values of the mix from 0 to 1, all gains of the overdrive from 1", "why_tests_cant": "The points of the table are rounded, and whether the middle one is exactly 0 and the outer ones exactly 1 and -1 depends on the number of points; tests look at a handful of samples.", "anchors": ["src/effects/waveshaper/waveshaper_processor.rs", "src/effects/waveshaper/shape.rs"]}
{"id": "C115", "title": "The crossfade of the sampler in f32", "statement": "With the sums and products rounded as in the program: while one voice of a sampler fades out and another fades in over the same frames, as at the end of each pass of a loop, the sum of both is the mean of their samples, weighted along half a sine wave from the old to the new, up to 2^-22 of both together plus 2^-148, whichever of the voices comes first. A signal that is the same on both sides of the loop keeps its level through the crossfade, up to 2^-21 of it plus 2^-148.", "quantifier": "all lengths of the fade, all positions, all finite f32 samples, both orders of the voices, all tables of the fade that are within 2^-24 of the curve", "why_tests_cant": "The two fades must add up to 1 at each position, the first included, where the voice that fades out reads beyond the end of its table; tests look at three values of the fade and never add two fades.", "anchors": ["src/effects/sampler/sampler_fade.rs", "src/effects/sampler/sampler_voice.rs"]}
