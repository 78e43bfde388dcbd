import Verif.Model.GainFloat

/-!
# The mixer node with `f32` samples

`process_audio` of `effects/mixer/mixer_processor.rs`, with every operation rounded as the program rounds it.  What
`get_level` gives is a parameter here: the matrix and the events that replace it are in `Model/Mixer.lean`.  Levels are
`f64` numbers and are converted to `f32` for the multiplication.  Infinities, NaN and the sign of zero are not modelled.
-/

namespace Rawdio
namespace Mixer32

/-- `relative_eq!` of the crate `approx` for finite `f64` numbers, with its default tolerances, both `f64::EPSILON`, as
used at `utility/level.rs:71,76`.  The product with the tolerance is not rounded. -/
def relativeEq64 (a b : ℚ) : Bool :=
  decide (a = b ∨ |Float64.round (a - b)| ≤ 1 / 2 ^ 52 ∨ |Float64.round (a - b)| ≤ max |a| |b| * (1 / 2 ^ 52))

/-- `is_zero`, `utility/level.rs:70-72`. -/
def isZero (level : ℚ) : Bool := relativeEq64 level 0

/-- `is_unity`, `utility/level.rs:75-77`. -/
def isUnity (level : ℚ) : Bool := relativeEq64 level 1

/-- `as_linear_f32`, `utility/level.rs:58-60`. -/
def asLinear32 (level : ℚ) : Sample32 := ⟨Float32.round level, Sample32.rep_round _⟩

/-- One input into one output, `effects/mixer/mixer_processor.rs:31-60`; `al` as in `Buf.addFrom`. -/
def mixOne (al : Nat → Nat × Nat) (level : Nat → Nat → ℚ) (input output : Buf Sample32)
    (outputChannel inputChannel : Nat) : Res (Buf Sample32) :=
  let gain := level inputChannel outputChannel
  if isZero gain then .ok output
  else if isUnity gain then
    output.addFrom al input (Loc.ofChannel inputChannel) (Loc.ofChannel outputChannel) 1 output.frameCount
  else
    output.addFromWithGain al input (Loc.ofChannel inputChannel) (Loc.ofChannel outputChannel) 1
      output.frameCount (asLinear32 gain)

/-- `process_audio` after its events, `effects/mixer/mixer_processor.rs:29-62`; `al` are the alignments per output and
input channel. -/
def processAudio (al : Nat → Nat → Nat → Nat × Nat) (level : Nat → Nat → ℚ) (input output : Buf Sample32) :
    Res (Buf Sample32) :=
  (List.range output.channelCount).foldlM
    (fun output outputChannel => (List.range input.channelCount).foldlM
      (fun output inputChannel => mixOne (al outputChannel inputChannel) level input output outputChannel inputChannel)
      output) output

end Mixer32
end Rawdio
