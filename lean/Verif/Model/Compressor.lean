import Verif.Model.Follower
import Verif.Model.Grid
import Verif.Model.Level

/-!
# `effects/compressor/compressor_processor.rs`: the compressor

Over exact reals, with `none` for a value that is not a number: the only operation of the node that can give
one is the division at line 89.  The values of the parameters in a block are given, one for each frame.
`toDuration` is `Duration::from_secs_f32` of a time in milliseconds divided by 1000, in nanoseconds.  The
assertions at lines 78 and 181-189 are only there in debug builds.  The buffer `gain_reduction_buffer` is
rewritten in each block before it is read, so it is not kept.
-/

namespace Rawdio

/-- `CompressorProcessor`, `effects/compressor/compressor_processor.rs:11-14`; of the buffer only its number of
frames is kept. -/
structure Compressor where
  envelopes : List Follower
  maximumFrameCount : Nat

/-- The values of the parameters in a block, one for each frame, `effects/compressor/compressor_node.rs:39-47`. -/
structure CompressorValues where
  attack : Nat → ℝ
  release : Nat → ℝ
  ratio : Nat → ℝ
  threshold : Nat → ℝ
  knee : Nat → ℝ
  wet : Nat → ℝ
  dry : Nat → ℝ

namespace Compressor

/-- `new`, `effects/compressor/compressor_processor.rs:17-34`, with the default times of
`effects/compressor/compressor_parameters.rs:5-6`. -/
noncomputable def new (channelCount sampleRate maximumFrameCount : Nat) : Compressor :=
  ⟨List.replicate channelCount (Follower.new sampleRate 1000000 10000000), maximumFrameCount⟩

open Classical in
/-- `Duration::from_secs_f32(time / 1_000.0)`, `effects/compressor/compressor_processor.rs:70-71`, in nanoseconds: the
nearest number, of two nearest ones the even one. Over exact reals, for times that are not negative, as the ranges
ensure (`effects/compressor/compressor_parameters.rs:5-6`). -/
noncomputable def nanoseconds (milliseconds : ℝ) : Nat :=
  let time : ℝ := milliseconds * 10 ^ 6
  if time - ⌊time⌋₊ < 1 / 2 ∨ (time - ⌊time⌋₊ = 1 / 2 ∧ ⌊time⌋₊ % 2 = 0) then ⌊time⌋₊ else ⌊time⌋₊ + 1

open Classical in
/-- The output level, `effects/compressor/compressor_processor.rs:83-90`; `none` for 0/0. -/
noncomputable def outputDb (envelopeDb knee threshold ratio : ℝ) : Option ℝ :=
  let halfKnee := 1 / 2 * knee
  if envelopeDb < threshold + halfKnee then some envelopeDb
  else if envelopeDb > threshold + halfKnee then some (threshold + (envelopeDb - threshold) / ratio)
  else
    let excess := envelopeDb - threshold + halfKnee
    if 2 * knee = 0 then none
    else some (envelopeDb + ((1 / ratio - 1) * excess * excess) / (2 * knee))

/-- `calculate_gain_reduction`, `effects/compressor/compressor_processor.rs:77-93`. -/
noncomputable def calculateGainReduction (envelope : Level) (knee threshold ratio : ℝ) : Option ℝ :=
  (outputDb envelope.asDb knee threshold ratio).map fun output => (Level.fromDb (output - envelope.asDb)).linear

/-- The envelope of one channel, `effects/compressor/compressor_processor.rs:64-73`: the follower after the
frames from `f` on for `n` frames, and its values. -/
noncomputable def followChannel (toDuration : ℝ → Nat) (p : CompressorValues) (samples : Nat → ℝ) :
    Nat → Nat → Follower → Follower × List ℝ
  | _, 0, e => (e, [])
  | f, n + 1, e =>
    let e := (e.setAttackTime (toDuration (p.attack f))).setReleaseTime (toDuration (p.release f))
    let r := e.process (samples f)
    let rest := followChannel toDuration p samples (f + 1) n r.1
    (rest.1, r.2 :: rest.2)

/-- `process_envelope`, `effects/compressor/compressor_processor.rs:45-75`; the index at line 62 panics. -/
noncomputable def processEnvelope (toDuration : ℝ → Nat) (p : CompressorValues) (k : Compressor)
    (input : Grid ℝ) : Res (Compressor × List (List ℝ)) :=
  if input.channels ≤ k.envelopes.length then
    let rows := (List.range input.channels).map fun c =>
      followChannel toDuration p (input.val c) 0 (min input.frames k.maximumFrameCount)
        (k.envelopes.getD c ⟨0, 0, 0, 0, 0, 0⟩)
    .ok ({ k with envelopes := rows.map (·.1) ++ k.envelopes.drop input.channels }, rows.map (·.2))
  else .error .panic

/-- The sum over channels, `effects/compressor/compressor_processor.rs:124-130`. -/
noncomputable def meanEnvelope (values : List (List ℝ)) (channelCount frame : Nat) : ℝ :=
  (List.range channelCount).foldl (fun envelope c => envelope + (values.getD c []).getD frame 0 / channelCount) 0

/-- `apply_gain`, `buffer/audio_buffer.rs:250-266`, on numbers that may be none; `isZero` and `isOne` are the
`relative_eq!` tests, which none fails. -/
def applyGain (isZero isOne : ℝ → Bool) (gain : Nat → Option ℝ) (g : Grid (Option ℝ)) : Grid (Option ℝ) :=
  if (List.range g.frames).all (fun f => (gain f).any isZero) then { g with val := fun _ _ => some 0 }
  else if (List.range g.frames).all (fun f => (gain f).any isOne) then g
  else { g with val := fun c f => (g.val c f).bind fun s => (gain f).map fun x => s * x }

/-- `process_audio`, `effects/compressor/compressor_processor.rs:180-194`, for an output of the shape of the
input. -/
noncomputable def processAudio (toDuration : ℝ → Nat) (isZero isOne : ℝ → Bool) (k : Compressor)
    (p : CompressorValues) (input : Grid ℝ) : Res (Compressor × Grid (Option ℝ)) := do
  let (k, values) ← processEnvelope toDuration p k input
  if input.frames ≤ k.maximumFrameCount then
    let gain := fun f => calculateGainReduction (Level.fromLinear (meanEnvelope values input.channels f))
      (p.knee f) (p.threshold f) (p.ratio f)
    let output : Grid (Option ℝ) := ⟨input.channels, input.frames, fun c f => some (input.val c f)⟩
    let output := applyGain isZero isOne gain output
    let output := applyGain isZero isOne (fun f => some (p.wet f)) output
    .ok (k, { output with val := fun c f => (output.val c f).map fun x => x + input.val c f * p.dry f })
  else .error .panic

end Compressor
end Rawdio
