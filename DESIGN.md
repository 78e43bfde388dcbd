# Formal model of rawdio: design

This directory holds a Lean 4 model of the `rawdio` audio engine (`/repo/src`), a list of
semantic properties (`properties.jsonl`), and proofs (`lean/Verif`).  `MANIFEST.json` maps
properties to theorem names.  `seeded/LOG.jsonl` records mutation tests of the theorems.  The failed
theorems named there come from the lines of the errors of the build.  An error that Lean reports at the comment of a
theorem (a timeout) was counted for the declaration before it, except in the entries for C114 and later runs, so older
entries may name a neighbour in the same file besides or instead of the theorem that failed.

How to read the log: every attempt is listed, also those that came to nothing.  "property theorem failed" means that
a `Cxx_` theorem no longer compiled.  "helper lemma failed" means that the build stopped at a lemma on which the theorems
rest, so that the theorems themselves were not reached; most attempts end so.  It shows that the proof as written depends
on the edited line, and not that the theorem is false of the edited program: an edit that leaves the claim true can break
a helper lemma too (there is one under C106, with a note).  "survived" means that everything still compiled; these
attempts led to the theorems under `theorems_tightened`, or have a note that says why the claim is still true.

## 1. Layout

* `lean/Verif/Model/*` : the code, function by function; each definition cites file and lines.
* `lean/Verif/Spec/*` : small independent specifications the properties are stated against.
* `lean/Verif/Lemmas/*` : helper lemmas.
* `lean/Verif/Props/*` : the property theorems (`Cxx_...`), each followed by an `example` that
  shows its hypotheses are met by a concrete case.

Naming: `Cxx_name` is a theorem for property `Cxx`; `Cxx_name_violated` proves the negation of the
full statement with a concrete witness; `..._partial` is a theorem weaker than the full statement
(what is missing is said in its doc comment).

## 2. Modelling conventions

* **Faults.** A Rust panic, an endless wait and an endless loop are explicit outcomes
  (`Fault.panic`, `Fault.block`, `Fault.diverge`) of `Res α := Except Fault α`.  `unwrap`, `expect`,
  slice indexing and `usize` subtraction are modelled with their failure. `debug_assert!` is a no-op
  (release build) unless stated.
* **`&mut` arguments** become returned values.
* **Samples.** Structural properties (routing, buffers, SIMD kernels, block splitting, recording)
  are over an arbitrary type `S` with `Zero`, `Add`, `Mul` and **no algebraic laws**, so they hold of
  IEEE `f32` as it is.  Properties that need arithmetic facts (pan, ADSR, compressor, biquad,
  convolution, waveshaper, decibel) are over the reals or an ordered field: floating-point rounding is
  not modelled there.
* **Time.** `Timestamp` is an `Int` number of units of 2^-32 s (the bits of `I32F32`).
  `from_seconds`/`from_samples` is round-half-to-even of the exact rational.  Simplification: the
  intermediate `f64` quotient and the 32-bit overflow of whole seconds are not modelled.
* **Hash maps.** Maps are association lists or functions; wherever the code iterates over a hash
  map the iteration order is an explicit parameter and theorems quantify over all orders.
* **Channels.** FIFO lists; `crossbeam` delivery is assumed linearizable FIFO.  Bounded channels have
  an explicit capacity and a `send` on a full channel is `Fault.block`.
* **Node DSP.** In the engine model a node's processor is an arbitrary state machine
  `run : state -> input view -> time -> (output samples, state)` and is universally quantified; the
  assumption is that it writes only its output slice. The code does not enforce the channel bound of a
  slice (`C32_slice_channel_bound_violated`), so this is an assumption about the processors.
  Effects are modelled separately.
* **Effects.** Node models use `Grid` (a rectangle of samples) with a `Window` (a slice of frames);
  `Lemmas/Grid.lean` shows that grid operations are what the buffer operations of `Model/Buffer.lean` do.
  Loops whose termination is not evident take `fuel`; running out is `Fault.diverge`, "never returns" is
  "diverges for every fuel".
* **Engine histories.** Engine theorems are about `Processor.calls ops (Processor.new ..) ks = .ok E`:
  an engine created with any options after any list of process calls, each with any commands and any
  buffers, that did not abort. What chance decides (hash iteration orders, identifiers drawn by other
  threads, progress of the collector thread) is an explicit argument of each call. `System.Run` is the
  transition system of the sending threads, the channel and the audio thread; `C04_interleavings` shows
  every run is explained by such a list of calls.

## 3. Trusted base

* The Lean 4.33.0 kernel, and the axioms `propext`, `Classical.choice`, `Quot.sound` only
  (`#print axioms` on each theorem; checked by the gate).
* The hand translation of Rust to Lean in `Verif/Model` (each definition cites its lines).
* Not modelled: `f32`/`f64` rounding where a real/ordered-field model is used (it is modelled for time
  conversions, C77, for files, C84, for the oscillator, C102, for ramps, C103 and C104, for the
  envelope follower, C105, for the ADSR envelope, C106, for periodic notifications, C107, for the sums
  of connections, C108, for the gain node, C109, for the pan node, C110, for the
  mixer, C111, for sample rate conversion, C112, for the lookup,
  the table and the mix of the waveshaper, C113 and C114, and for the crossfade of the sampler, C115); memory allocation;
  thread scheduling inside `crossbeam`; SIMD instruction semantics beyond "lane-wise op";
  the `rustfft` implementation (modelled as the exact DFT); benches.

## 4. Properties: what is modelled and how it is proved

| id | model | proof |
|----|-------|-------|
| C01 | `Processor.process` with the whole graph | case split on the transport state after draining |
| C02 | `update_position`, `from_seconds` | invariant: position = frames rendered while started; round-half-even error lemma |
| C03 | `process_graph` loop | strong induction on frames remaining; divergence for maximum 0 shown on the loop's step relation |
| C04 | interleaving semantics of senders and audio thread | invariant over traces: applied ++ queued = sent |
| C05 | command fold | induction on command list |
| C06 | `process_graph` and positions | block list lemma; rounding bounds |
| C07, C08, C09 | `graph.rs` with linked lists | representation invariant: each list is a chain; refinement to an insertion-ordered edge list |
| C10, C11 | `TopologicalSort::sort` with explicit iteration orders | loop invariant on remaining in-degrees; cycle preserved |
| C12, C13 | `DspGraph::process` | invariant on pools |
| C14, C15, C16, C17 | same | refinement to a denotational semantics (sum over incoming edges) |
| C18-C24, C61 | `RealtimeAudioParameter` | block rendering refined to frame-by-frame steps under an invariant that justifies the fast path; C18, C21 (immediate), C22-C24 hold for any arithmetic, C19, C20, C21, C61 over exact reals |
| C25, C26 | `Timestamp` | integer arithmetic of rounding |
| C27 | the event loop shared by sampler, recorder and ADSR, with arbitrary rendering and event handling | induction on the sorted queue; the loop equals a fold over positions computed from the times alone |
| C28 | `EventProcessor`, whole sampler | induction on the channel contents; quiet states are closed under rendering and under all events that start nothing |
| C29-C34, C36 | buffers: flat planar data, index arithmetic | `get`/`set` lemmas |
| C35 | `dsp/mod.rs`, alignment split as parameter | list lemmas |
| C40, C42, C62-C64 | whole `SamplerDspProcess` (events, loop points, voices, fade) on grids; its loops with fuel | invariants over histories of blocks; the position in the sample is tracked through the rounding of times to frames |
| C41 | `Voice::render` and the fade table | closed form of what a render adds; composition of renders; trigonometry for the table |
| C43, C44, C65 | both ends of the recorder with the two bounded channels and the buffer pool, over histories of requests, blocks and notification passes | refinement to a spec without buffers or channels (a queue of requests and a list of frames); potential argument for the room in pool and channels; exact count of the notifications for the stall |
| C59 | `remove_dsp` with the bounded disposal channel | exact condition; bound on the number waiting; witness by induction |
| C60 | whole process call | every node of a successful block fits the pool buffers |
| C47, C48, C56, C66 | levels and the ADSR node over ℝ: envelope, event queue, bounded channel, histories of calls and blocks | refinement of blocks to a frame-by-frame machine (C66); range invariant; closed forms of the stages with `c^n ≤ L ↔ ⌈T·sr⌉ ≤ n`; a note from start to end across arbitrary blocks |
| C37, C38 | `Model/Mixer.lean`: matrix, channel of capacity 32, `Buf` operations of a block | invariant `Agrees`: the last matrix in the channel (or, if none, the processor's) has the levels set; induction over inputs, outputs and the history; `Spec/Mixer.lean` has levels by pair and the sum over inputs |
| C39, C67 | `Model/Pan.lean`: per-frame reads and writes through `Buf` | induction over frames; ordered field; slices that read beyond their channels |
| C49, C50, C51, C68 | `Model/Follower.lean`, `Model/Envelope.lean`: follower over ℝ, periodic notification over ℚ with the catch-up loop, the node with its loop over positions and the channel of 64 | invariants over histories; closed form of the distance to a constant input and its limit; `At`: next notification = interval·(⌊total/interval⌋+1) − total; exact result of a block; parametric abort (interval 2F+1/2, third block) |
| C52, C69 | `Model/Compressor.lean` over ℝ with `none` for not-a-number: static curve, followers per channel, mean, gains, wet and dry | case analysis of the curve, `rpow` monotone; histories of blocks with invariant `Ok` (followers within the loudest sample) and relation `Each` |
| C55, C70-C72 | `Model/Waveshaper.lean`: `sample_rate_convert_from` on real buffers (slices included), table, shaping, overdrive, mix; samples `Option ℝ` | spec: relation `OnPolygon` (uniqueness, bounds, monotony proved apart from the code); up and down conversion at whole positions cancel; induction over channels and blocks |
| C54, C73 | `Model/Accessors`: the parameter tables, accessors and reads of all seven effects with parameters, `create_parameters` with the assertion in `ParameterRange::new` | general lemma on the fold over any list of options without duplicate names, then each effect's table against the documented list (`Spec/Accessors`) |
| C57 | `Model/Ids`: threads as sequences of atomic accesses, arbitrary scheduler, counter of any width | induction over the schedule: the k-th access returns k mod 2^w |
| C58 | `Model/Notifiers`: arbitrary closures on a shared world, any history of registrations and passes | invariant: the list is the registered functions minus those that asked to go |
| C53 | biquad coefficients and difference equation over the reals, with the flush (Model/Biquad, Spec/Biquad) | Jury conditions imply geometric decay of the second order recursion (Lemmas/SecondOrder); transfer function algebra over the complex numbers against analogue prototypes |
| C74 | biquad processor with real buffers, recomputation of coefficients on change, gain kernel | the delays are the flushed history; induction over channels, frames and blocks |
| C46 | oscillator processor over the reals with real buffers, `while` loop with rounds | the phase is the cycles gone by less a whole number; induction over frames and blocks with both outcomes |
| C75 | as C46, periodic table as specification (Spec/Oscillator) | refinement of the processor over all blocks |
| C76 | as C46, tables of `sine` and `with_harmonics` | chord of a sine by convexity of x^2/2 ± sin x, summed over harmonics |
| C45 | `Model/Convolution`: buffers of past input, forward and inverse transform as sums over roots of unity, wet and dry; over ℝ and ℂ | orthogonality of the roots gives circular convolution; the zero padding and the length of the transform give the direct sum at the last frames; invariant: the input buffer holds the last `length` values; induction over rounds and blocks |
| C77 | `Model/Float`: `f64` rounding (nearest, ties to even, 53 bits, subnormals) of each operation of the conversions, over ℚ | error bounds for each rounding from `ulp x ≤ 2^-52 · abs x`, summed; `Props/Float` |
| C78 | `Model/Envelope`, events (block, notifier run, take) in `Spec/Envelope` | the audio side is blind to the contents of the channel: two runs that differ only there send the same; induction over two histories with the same blocks; `Props/EnvelopeDelivery` |
| C79 | `Model/Client`: `GraphNode` handles and the command each API call sends; `Spec/Client`: what a program holds | simulation between the program's holding and the engine's `View` (C04), with C09 (no refusal), C59 (garbage), C13 (rendering); induction over process calls; `Props/Client` |
| C80 | `Model/Gain` (processor on buffers, node in the engine), one node between system input and output | induction over the rendered blocks of a call and over the calls of a session (`Lemmas/Gain`), error bound 1.5 units on the time of every frame and C18 (`Lemmas/GainTime`); the violation is an engine run of two calls |
| C81 | `Model/Connect` (the macro), the engine model with any nodes in a row | invariant `Playing` over the calls of a session, each rendered block computed along the row by induction (`Lemmas/Chain`); existence of the runs from C79 with the index in the row as a rank that rules out cycles |
| C82 | `Model/SamplerNode` (the sampler model of C40 as a node of the engine model; the result of its loops for any sufficient fuel) | C81 for a row of one node, a simulation between the blocks of the session and the run of the sampler alone (`Lemmas/SamplerNode`), error bounds for the clock of blocks and for the position of the voice (`Lemmas/SamplerLate`); the nodes stay renderable by `Healthy` (`Spec/Healthy`) |
| C83 | `Model/Effects` (the gain, pan, biquad, oscillator, convolution, waveshaper and compressor models with their parameters as nodes of the engine model) | C81, a row split into its first node and the rest, a simulation per effect between its blocks and its signal of any length (`Lemmas/EffectSteps`), causality to join them; nodes stay renderable by `Healthy`; parameter values through the parameter model over the blocks of the session (`Lemmas/EffectTime`) |
| C84 | `Model/Files` (single precision rounding, conversion to 24 bit integers and back, the interleaved file, the rendering loop over the engine model) | rounding bounded by half a unit in the last place; induction over channels, frames and blocks; the rendering loop unfolds to process calls on an engine and `C81_session` says what they put out |
| C85 | `Model/LiveHost` (the queue between the two callbacks, samples arriving while the output callback runs, the buffers it keeps, the engine) | invariant over the callbacks: the queue holds the captured samples from the first that is not played; the delay by bounding the two roundings of `0.001 * sample_rate`; then `C81_session` |
| C86 | `Model/Processor`, `Model/DspGraph`, `Model/Effects`, `Model/OfflineExample` (the calls of `offline_process.rs`) | from the effect of a process call on the graph (C14, C79): each block is a topological pass, so the signals fulfil the equations on every block; induction over the calls glues the blocks; well-founded induction on the connections for uniqueness; for the example, the links, nodes and requests of the program are computed for all voices |
| C87 | `Model/MixedNodes` (all processors behind `graph/dsp.rs`, with their channels) | each kind of node among others behaves as it does alone (`Embeds`), so C86's equations reduce to what is known of each kind (C83, mixers C37, envelopes, samplers C82); an invariant per kind for success |
| C88 | `Model/Adsr`, `Model/MixedNodes`, `Model/AdsrExample` (the calls of `adsr.rs`) | the events of all blocks are glued to one schedule by induction over the events; `adsrValues` splits at any frame; the notes one after the other, each from rest; for the example, the links, nodes and requests of the program are computed for all voices |
| C89 | `Model/Compressor`, `Model/Waveshaper`, as nodes in `Model/Effects` | the followers of all channels over any blocks are one recursion over the frames of the session (`Lemmas/CompressorTrack`), so C83's equations hold for compressors too; the level of a steady signal is `a (1 - w^n)`, the gain is continuous where it ends up; a polygon stays between its corners |
| C90 | `Model/Parameter`, nodes of `Model/Effects` | an invariant over the frames (a ramp under way from where it really began, or at rest; at most one request waiting, for one frame), on the scale on which ramps are linear; ramps begin within `3R/K` of the curve since the ramp before is cut off at its value; a static parameter is frozen within `L/2^51` |
| C91 | `Model/OfflineExample.panMoves` on top of C86 | C86_voices gives the output in terms of the track of the pan; C90 bounds the track; the rest is Lipschitz bounds for the pan law and the error of the wavetable |
| C92 | `Model/Metronome.lean`: the loop that schedules beats, fuel by the number of beats | spec: places of beats, no intervals; invariant: what is scheduled is what rounds to below the horizon and was not before the horizon of an earlier turn |
| C93 | `Model/RowExamples.lean`: programs of one shape, `connect_nodes!` included | C87 for the network; the row by induction (`through_of`), ranks by position; `C90` carried over to engines of mixed nodes (`C93_linear`) |
| C94 | `Model/MetronomeExample.lean` and `RowExamples.session`: turns of the loop between process calls, with what has been scheduled carried over | C87 with requests in later calls; the order in which scheduled events take effect (C88) is that in which they are requested; a parameter is in tune with its sets (`Tuned`); beats that are scheduled in time are at least attack + decay + 2 frames apart |
| C95 | `Model/RecorderNode.lean`: recorders as nodes beside any others (`WithRecorders`), both ends of their channels in the state of the node; `Model/RecordExample.lean` | C86 with the final states of the nodes; C43 (a recorder and its blocks) with the schedule of its events in a session; `C86_succeeds` (a session succeeds if each node on its own does, by induction over the process calls with `Came`: each node is what a run of its own leads to) with C43's rounds for recorders and `Healthy` for other nodes |
| C96 | the engine of C10–C16, C79; `Spec/Rewiring.lean`: signals over the frames that are played, with the links, input and output of each process call | induction over process calls: what the program holds is what the engine has (`Agrees`, C79), where each node comes from (`effects_lives`: it was there, or it is made, and its requests come after), one process call as in C86 (`network_call`); determined by induction over calls, and over the links within a call |
| C97 | the sampler of C49–C64; `Spec/SamplerLoop.lean`: `looped`, in terms of the sample, the loop and the levels of the fade only | invariant over the events within blocks (`Looping`: where the two voices are after F frames, and how far the rounded position is from F); each step advances to the end of the block or of the loop (`looping_advanced`, `processSample_looping`); `loopMix_long`: a voice has faded out when its turn comes again |
| C98 | `Model/FileExamples.lean`: the three programs as rows of nodes (C93), the duration in nanoseconds, the file as in C84; `Spec/FileExamples.lean`: `sweepFrequency`, `repeated` | what a sampler among any nodes plays follows from its own history (`Sampler.among_nodes`) and C97/C64; `C98_exponential` from C90; the curve of rounded times against the sweep in seconds (`sweep_near`); `C98_row_file` joins C93 and C84 |
| C99 | `Model/OscillatorExample.lean`: the program as a row of nodes (C93), up to `stop`; `Spec/OscillatorSession.lean`: `NeverWhole`, `chirp`, `chirpLevel` | `Fx.oscillator_run`: an oscillator over any history of blocks and requests, by induction with the cycles gone by as invariant (C46 for each block), panics exactly if it comes to a whole number of cycles; C86_succeeds and C86_network carry this to the engine; the sweep from C98_exponential, the level from C93_linear |
| C100 | `Model/MeterNode.lean`: meters (`Model/Envelope`) behind `graph/dsp.rs` next to any other nodes, polled and emptied between process calls; `Spec/MeterNode.lean`: blocks of a session, frames looked at, times of reports, reports | a meter over any history of blocks and requests keeps up with the specification (`MeterNode.Keeps`), by induction; C86 carries this to the engine; the number of reports in the channel by a count over histories (`Fits`) |
| C101 | `Model/MeterExample.lean`: the program up to `stop`, its loop as any number of passes before each process call; `Spec/MeterExample.lean`: `fadeLevel` | C100_meter and C100_keeps_up for the network of sampler, gain and meter; the file from C98_once, the level from C93_linear; reports counted by the floor of frames over the interval (`times_count`) |
| C102 | `Model/OscillatorFloat.lean`: the processor with each operation rounded to `f64` (`Model/Float.lean`) and samples to `f32` (`Model/Files.lean`), over ℚ; `Spec/OscillatorFloat.lean`: exact cycles | `Lemmas/FloatRound.lean`: representable numbers, rounding is monotone, exact on them, and its error; the subtraction of 1 is exact; induction over frames with the error of the phase as invariant; chord of the sine (C76) |
| C103 | `Model/ParameterFloat.lean`: the parameters of C18 to C24 with each operation rounded to `f64`; `Spec/ParameterFloat.lean`: the exact position in samples and the straight line | `Lemmas/ParameterFloat.lean`: a ramp in any arithmetic is an iteration; error of the increment (`slope_float`), of repeated addition (`drift`); the fade by computing with whole numbers (`round_nat`) |
| C104 | the model of C103; `Spec/ParameterFloat.lean`: the exponential curve, what is assumed of logarithm and exponential function (`Accurate`) | `Lemmas/ParameterFloat2.lean`: errors as errors of the logarithm (`round_log`); error of the factor (`factor_float`), of repeated multiplication (`drift_exp`); the comparison with 1 (`not_near_one`) |
| C105 | `Model/FollowerFloat.lean`: the follower of C49 with each operation rounded to `f32` or `f64`; `Spec/FollowerFloat.lean`: what is assumed of the exponential function (`AccurateDecay`), histories | `Lemmas/FollowerFloat.lean`: rounding to `f32` (order, errors), error of a step (`step_error`); `Lemmas/FollowerFloat2.lean`: a step shrinks the distance up to a slack that it takes up itself (`slack_step`, `step_shrink`), error of the coefficients (`exponent_near`, `coefficient_upper`, `coefficient_lower`). The stalls: a step keeps the order (`step_mono`) and leaves a level where it is (`attack_stall`, `release_stall`). The coefficients are always those of the times (`after_times`) |
| C106 | `Model/AdsrFloat.lean`: the envelope of C47 with each operation rounded to `f64`; `Spec/AdsrFloat.lean`: what is assumed of logarithm and exponential function (`Contracting`, and `Accurate` of C104), histories, settings | `Lemmas/AdsrFloat.lean`: error of the coefficients (`coefficient_log`); `Lemmas/AdsrFloat2.lean`: the errors of the steps add up at most (`step_near`, `curve_near`), and when a distance that shrinks by a factor falls below a bound (`reach`); `Lemmas/AdsrFloat3.lean`: rounding keeps the order, invariants over histories (`Sound`, `Settled`), stages (`stage`, `attack_length`, `decay_length`, `release_length`) |
| C107 | `Model/PeriodicFloat.lean`: the periodic notification of C50 with each operation rounded to `f64` | whole numbers are not rounded, so that C50 applies (`advances_whole`); error after a number of advances (`Near`, `near_advance`); a round of the loop gains half an interval at least (`catchUp_ends`), or nothing (`round_stuck`) |
| C108 | `Model/SampleFloat.lean`: the type of `f32` samples with the rounded sum, for which the engine of C14 to C16 is instantiated | 0 is neutral, so that the theorems about the engine apply (`AddZeroClass Sample32`); error after each addition by induction (`mix_from`); blocks that agree node by node, by induction over the processing order (`rendered_agree`); a run of two engines that differ in the order of the connections (`mixGraph_heard`) |
| C109 | `Model/GainFloat.lean`: `Gain.processAudio` with the `f32` samples of C108, the rounded product and `relative_eq!` with the tolerance 2^-23 | the three cases of `apply_gain` (`applyGain32_ok`) after the copy of the input (`processAudio32_ok`); what the tests accept (`relativeEq_zero`, `relativeEq_one`); rounding keeps bounds that are `f32` numbers (`abs_round_le`) |
| C110 | `Model/PanFloat.lean`: the pan node of C39 with the `f32` samples of C108 and C109, rounded sums, differences and products. `Spec/PanFloat.lean` says how a side is attenuated | induction over the frames (`frames32_ok`); both gains are one function of the distance of the pan (`sideGain_val`); rounding keeps order and bounds that are `f32` numbers (`gain_facts`, `round_mono`) |
| C111 | `Model/MixerFloat.lean`: `process_audio` of the mixer with the `f32` samples of C108 and C109, levels converted to `f32`, and `relative_eq!` on `f64` with the tolerance 2^-52. `Spec/MixerFloat.lean` is the sum without rounding | each output is a rounded sum as in C108 (`mixAll_ok`, `mix_from`); the error of each product or shortcut (`term_near`), added up by induction (`terms_near`) |
| C112 | `Model/ConvertFloat.lean`: the sample rate conversion of C70 with the rates, the ratio, the indices, the positions and the interpolation rounded to `f32`. `Spec/ConvertFloat.lean`: what a value near the polygon is | the contents after a conversion by induction over the channels (`convert_spec`); relative errors of the three roundings of a position (`position_near`); of the interpolation (`interpolate_near`); 2^24 + 1 is rounded to 2^24 (`round_odd`) |
| C113 | `Model/ShapeFloat.lean`: the lookup of the waveshaper with the index rounded to `f64` and the amount and the interpolation rounded to `f32`. `Spec/ShapeFloat.lean`: where a sample lies in a table | relative errors of the three roundings of the index, which the limits do not increase (`shapeIndex_near`); whole numbers are exact, so the amount stays between 0 and 1 (`amountOfAfter_near`); the interpolation of C112 for any amount (`interpolate_given`) |
| C114 | `Model/ShaperFloat.lean`: the table of the waveshaper for any shaper, `shape` over a signal, the overdrive with any gain, and `mix_input`, in `f32` | three points of the table are exact (`inputValue_first`, `inputValue_middle`, `inputValue_last`) and all are close (`inputValue_near`); the points used for a sample are next to it (`used_near`, with `shapeIndex_near` of C113); the mix is the interpolation of C112 (`mixSample_eq`); a product divided by its factor (`undo_near`) |
| C115 | `Model/FadeFloat.lean`: one frame of a voice that fades in, of one that fades out, and of both, in `f32`, with the tables of `Model/Voice.lean`. `Spec/FadeFloat.lean`: the shares of the two sounds, and tables that are close to them | the shares add up to 1 (`share_mirror`), also where the table ends (`share_last`, `value_near`); errors of two products and a sum (`sum_near`); both orders of the voices give the same sum (`crossfade_ok`); rendered voices by C41, which holds for every type of samples |

Rounding in C02/C06: below a sample rate of 2^33 no whole number of samples lies exactly between two
timestamps, which is what makes the bound in C06 one unit (it would be two otherwise).

## 5. Disagreements between code and intent

Each is proved with a concrete witness, as a `_violated` theorem unless named otherwise.

| property | what the code does |
|----------|--------------------|
| C03 | maximum frame count 0: a process call with frames never returns (`C03_zero_maximum_violated`) |
| C09 | dropping a node that is still connected aborts the audio thread (`C09_engine_drop_aborts`) |
| C11 | two connections between the same ordered pair of nodes abort the sort as if there were a cycle |
| C14 | a node whose only connection goes from channel 0 to channel 0 receives all source channels, whatever channel count was asked for |
| C17 | the system input is dropped, or overwritten, when the node also has an incoming connection |
| C18 | one pending change is taken up per frame: two immediate changes due together put the second one frame late |
| C19, C20 | a linear ramp overshoots (150 % at 48 kHz over two samples in two blocks) and leaves the range; a ramp of one time unit spikes to 89478 times the change (`C19_spike_violated`) |
| C21 | a ramp in steps of at most 2^-52 stops for good at a block boundary |
| C22 | `cancel_scheduled_changes_ending_after` keeps the later changes and drops the earlier ones |
| C26 | an event at the timestamp of a sample may be applied one frame early (48 kHz, sample 1) |
| C31 | interleaving into or from data with more channels than the buffer uses the wrong stride |
| C32 | `slice_channels` swaps its counts; a slice does not bound the channel that is written |
| C33 | `from_slice` aborts for more than one channel; padding to a shorter length aborts |
| C36 | `apply_gain_value` with gain 0 clears only part of the buffer |
| C40 | a start request is dropped when both voices fade out: three starts within a fade, or every third start of a sample shorter than the fade (50 ms), however far apart |
| C42 | a loop that does not end after its start hangs the audio thread, even on an idle sampler (`C42_processing_hangs`) |
| C62 | `cancel_loop` after looping for longer than the sample cuts the sound off at once |
| C63 | `stop` while looping: playback restarts by itself at the next loop end |
| C44 | the audio thread waits for the control thread once 131072 recorded frames have not been collected |
| C59 | the audio thread waits for the collector when 512 disposed nodes are waiting |
| C61 | a pending ramp waits for the start of another one that ends first |
| C48 | a note that ends above the sustain level takes longer than its release time (`C48_release_time` says how long); with sustain level 0 it never fades (`C48_release_never`) |
| C56 | levels between 1e-9 and -128 dB report less than silence does and come back as 0 |
| C38 | `Mixer::set_level` sends the whole matrix through a channel of 32 and waits when it is full: setting the 64 levels of an 8x8 mixer before the first block waits forever when one thread does both |
| C67 | `Pan::new(context, 1)` is allowed but the processor always reads input channel 1; the slice does not bound the channel, so the right output is the second channel of the pool buffer, not the input, and with a one-channel pool the audio thread aborts |
| C51 | the loop of `EnvelopeProcessor::process_audio` runs while position < channel count instead of frame count: it inspects only the frames up to the next notification (the rest of the block is lost), and if these are fewer than the channels it goes round again, counts the block twice and can slice past the end, which stops the audio thread (48 kHz, 512 frames, stereo, 46.85 Hz: third block) |
| C68 | `EnvelopeProcessor::send_notifications` uses a waiting `send` on a channel of 64 from the audio thread |
| C52 | `calculate_gain_reduction` is 0/0 when the knee is 0 and the level is exactly the threshold: with the default threshold of 0 dB a level of 1.0, with threshold -128 dB silence; the output is then not a number |
| C69 | the first test of `calculate_gain_reduction` compares with threshold + half knee instead of threshold - half knee: the soft knee is never applied (except at one point) and the curve jumps down by (knee/2)(1 - 1/ratio) dB |
| C55 | the oversampling of the waveshaper has no effect: converting up by linear interpolation, shaping and converting down picks exactly the shaped original samples, so the interpolated ones are computed and thrown away (no protection from aliasing) |
| C70 | `sample_rate_convert_from` with an empty source underflows `source_data.len() - 1` |
| C71 | `soft_saturator` with threshold 1 (allowed by its assertion): the last point of the table is 0/0, so samples above 1 - 1/255 come out as not a number; negative samples are not limited at all |
| C72 | `hard_clip` with a threshold above 1 clips at 1, since the table covers [-1,1] only; near the threshold the corner of the curve is cut |
| C54 | `Biquad::shelf_gain` looks up `shelf_gain`, the parameter is registered as `shelf-gain`; the accessor panics on every biquad. |
| C53 | Frequencies above half the sample rate are permitted (20 kHz at 32 kHz): the low pass is unstable and its output grows without bound (`C53_above_nyquist_violated`). |
| C53 | A shelf gain of 0 is permitted: the low shelf's pole lands on the unit circle (double, at -1) and the output grows without bound (`C53_shelf_gain_zero_violated`). |
| C53 | The flush of values below 1e-8 in the delays happens before the feedback sum: a constant 0.02 through a 20 Hz low pass at 192 kHz never gets through (`C53_small_signals_violated`). |
| C46 | The phase wraps only when it is greater than 1, so a phase of exactly 1 reads `wavetable[len]` and the audio thread panics, e.g. 375 Hz at 48 kHz on the 128th frame (`C46_375_hertz_violated`, `C46_whole_cycles_violated`). |
| C75 | The last segment of the table is interpolated towards 0 instead of the first sample (`C75_last_segment_violated`). |
| C45 | `Convolution::new` accepts any `input_count`. With more inputs than the impulse response has channels, `consume_input` panics at the first frame (`C45_more_inputs_violated`, for all such inputs). With fewer, the further channels get no convolution, and their dry signal is whatever another node left in the pool buffer (`C45_fewer_inputs_violated`). |
| C45 | An impulse response without frames makes the transform one value too short: with a maximum of 2 (or 2^n + 1) frames the processor panics (`C45_empty_violated`). |
| C79 | Handles do not protect the engine: dropping a connected `GraphNode` (`graph/graph_node.rs:108-112`), `connect_to` the same node twice or itself, or creating a node wider than the engine each abort the audio thread |
| C80 | a gain change at the timestamp of a frame is made one frame late when the frame is not the first of its process call: at 48 kHz the third frame, in the second call of a session with calls of 1 and 2 frames, has time 178956 but its timestamp is 178957 |
| C82 | a sampler told to start at the timestamp of a frame may start one frame early: at 48 kHz the timestamp of frame 1 is 89478, which is frame 0.99999 and is rounded down to 0 |
| C84 | `render_audio_process_to_file` computes `sample_rate * length_in_seconds as usize`, where the cast is made before the product: what is beyond the whole seconds is not rendered, half a second gives an empty file. Also: samples that cannot be read as integers (a file of floats) are read as silence, a sample that is not a number is written as 0, and the lowest 24 bit number changes when a file is read and written. |
| C85 | the example host aborts when the input device has more channels than the output device (`set_sample` beyond the buffer), when the output callback comes before a millisecond plus what is captured suffices (`expect('Ran out of input samples')`), or when a block is longer than announced; the input callback waits when the queue of 2^20 samples is full |
| C83 | heard in an engine, `cancel_scheduled_changes_ending_after(t)` lets the changes after `t` happen and loses those before it (C22) |
| C92 | `metronome`: a beat that lies at most half a unit of 2^-32 s before the end of an interval is rounded to it and never scheduled (tempo about 119.9999999, turns at 0, 20580 and 30000 frames of 44.1 kHz) |
| C93 | `compressor`: `connect_nodes!(sampler => compressor)` lacks `=> "output"`; the example plays silence |
| C95 | `record`: the loop processes notifications and then checks the time, and `finish_recording` does not process them again: what is rendered in between is missing from the file, and if it is all there is, `expect("No recording was made")` panics |
| C97 | a loop that is shorter than the fade (50 ms) has gaps: the sampler has two voices, and both are still fading out when the second pass ends, so `assign_voice` finds none and the third pass is silent |
| C98 | the convolution example writes whole seconds only: if file and impulse last less than a second together, it writes an empty file, and otherwise the tail of the reverberation is cut (the cast in C84); a stereo file with a mono impulse panics (C45); a mono file is heard on the left channel only |
| C99 | the panic of C46 stops a whole session: an oscillator that comes to a whole number of cycles at a frame, for instance after a sweep, makes the process call fail |
| C100 | the loop of C51 in an engine: a process call whose last block has fewer frames than a meter has channels (for instance 513 frames with a stereo meter and blocks of 512) makes the session fail (panic or endless loop on the audio thread) |
| C100 | the frames of a block after a notification is due are never looked at: at 44.1 kHz with 2 notifications per second and blocks of 512 (`examples/src/bin/meter.rs`), frames 22050 to 22527 can be arbitrarily loud without any report showing it |
| C101 | `examples/src/bin/meter.rs` fails (fault on the audio thread) if the device asks for a number of frames that leaves one frame over after full blocks; and as C100 it does not see parts of the file |
| C102 | the panic of C46 with the rounding of `f64`: certain for frequencies that are multiples of 2^-52 of the sample rate (375, 750, 1500, 3000, 6000, 12000 Hz at 48 kHz, 11025 Hz at 44.1 kHz), at the first whole number of cycles. For other frequencies that come to whole cycles in exact arithmetic (1000 Hz at 44.1 kHz in the documentation of the crate) the last bit decides (`C102_reads_partial` says where to look); theorems over the reals that speak of whole numbers of cycles (C46, C75, C76, C83, C86, C87, C88, C93, C99) are about exact arithmetic |
| C103 | with the rounding of `f64` also ramps over whole numbers of samples overshoot: the fade from 0 to 1 over 375 samples at 48 kHz ends with 1 + 28 * 2^-52, so that `get_value` can show a value above the maximum of the parameter. C19's and C20's theorems about whole ramps are about exact arithmetic |
| C105 | the level of the envelope follower is an `f32`, and for long times its steps are lost in rounding: with an attack of 1 s at 48 kHz it stalls below 0.9986 for a full-scale input, with a release of 10 s at more than 0.5285 for an input of 0.5 (0.48 dB too high, so that compressor and meter keep reacting to a signal that has gone). In silence it never gets to 0 but stays subnormal for ever, for practically every release time, where each operation can be slow; `biquad_processor.rs` guards against that (`denormal`), the follower does not. C49's, C89's and C100's theorems are about exact arithmetic |
| C107 | an envelope node with a very high notification frequency (2^62 Hz at 48 kHz; anything that makes the interval less than 2^-55 of the block) hangs the audio thread in its first block: `advance` adds the interval until the result is positive, and the interval is lost in rounding. `PeriodicNotification::new` accepts every positive frequency |
| C108 | the order in which three or more sources are connected to a node is heard, in the last bit: additions of `f32` are rounded, and the engine adds in the order of the connections. Harmless; it means that two programs that build the same graph need not play the same samples |
| C109 | `apply_gain` takes gains of up to 2^-23 for 0 and gains within about 2^-23 of 1 for 1, but only if all gains of the block are such: the same automation gives other samples with another division into blocks. The difference is at most 2^-22 of the sample, about -132 dB. Theorems about `apply_gain` and the nodes that use it (C36, C80, and those of the oscillator, the filter and the compressor) are for tests that accept 0 and 1 only, and so leave this difference out |
| C112 | `sample_rate_convert_from` computes positions in `f32`: beyond 2^24 frames indices are no longer exact, so that conversion to the same rate repeats and drops frames, and the bound on the error of a position is 2^-22 of the position, a quarter of a frame after about 22 s at 48 kHz (2^20 frames). C70 is over exact reals and leaves this out. In the crate only the waveshaper calls it, with short blocks; users who convert recordings are affected |
