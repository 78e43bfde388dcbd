import Verif.Model.Level
import Verif.Model.Buffer

/-!
# `effects/mixer/*.rs`: the mixer node

Levels and samples are exact reals; the conversion of a level to `f32` is left out.  `System` holds both
ends of the node: what the control thread has and what the audio thread has, with the channel between them.
-/

namespace Rawdio

/-- `MixerMatrix`, `effects/mixer/mixer_matrix.rs:7-11`. -/
structure MixerMatrix where
  inputCount : Nat
  outputCount : Nat
  matrix : List Level

namespace MixerMatrix

/-- `MAX_INPUT_COUNT`, `effects/mixer/mixer_matrix.rs:3`. -/
def maxInputCount : Nat := 8

/-- `MAX_OUTPUT_COUNT`, `effects/mixer/mixer_matrix.rs:4`. -/
def maxOutputCount : Nat := 8

/-- `new`, `effects/mixer/mixer_matrix.rs:14-23`. -/
noncomputable def new (inputCount outputCount : Nat) : Res MixerMatrix :=
  if inputCount ≤ maxInputCount ∧ outputCount ≤ maxOutputCount then
    .ok ⟨inputCount, outputCount, List.replicate (maxInputCount * maxOutputCount) Level.zero⟩
  else .error .panic

/-- `empty`, `effects/mixer/mixer_matrix.rs:25-27`. -/
noncomputable def empty : MixerMatrix :=
  ⟨0, 0, List.replicate (maxInputCount * maxOutputCount) Level.zero⟩

/-- `get_index`, `effects/mixer/mixer_matrix.rs:43-47`. -/
def getIndex (m : MixerMatrix) (inputChannel outputChannel : Nat) : Res Nat :=
  if inputChannel < m.inputCount ∧ outputChannel < m.outputCount then
    .ok (outputChannel * m.inputCount + inputChannel)
  else .error .panic

/-- `set_level`, `effects/mixer/mixer_matrix.rs:29-32`. -/
def setLevel (m : MixerMatrix) (inputChannel outputChannel : Nat) (level : Level) : Res MixerMatrix := do
  let index ← m.getIndex inputChannel outputChannel
  if index < m.matrix.length then .ok { m with matrix := m.matrix.set index level } else .error .panic

/-- `get_level`, `effects/mixer/mixer_matrix.rs:34-41`. -/
noncomputable def getLevel (m : MixerMatrix) (inputChannel outputChannel : Nat) : Res Level :=
  if inputChannel < m.inputCount ∧ outputChannel < m.outputCount then do
    let index ← m.getIndex inputChannel outputChannel
    match m.matrix[index]? with
    | some level => .ok level
    | none => .error .panic
  else .ok Level.zero

end MixerMatrix

/-- `EVENT_CHANNEL_CAPACITY`, `effects/mixer/mixer_node.rs:26`. -/
def mixerEventCapacity : Nat := 32

/-- Both ends of a mixer: the matrix of the `Mixer` (`effects/mixer/mixer_node.rs:17-24`), the matrices in
the channel, and the matrix of the `MixerProcessor` (`effects/mixer/mixer_processor.rs:5-8`). -/
structure Mixer where
  gainMatrix : MixerMatrix
  channel : List MixerMatrix
  processorMatrix : MixerMatrix

namespace Mixer

/-- `Mixer::new` and `MixerProcessor::new`, `effects/mixer/mixer_node.rs:30-51`,
`effects/mixer/mixer_processor.rs:11-16`. -/
noncomputable def new (inputCount outputCount : Nat) : Res Mixer := do
  let gainMatrix ← MixerMatrix.new inputCount outputCount
  .ok ⟨gainMatrix, [], MixerMatrix.empty⟩

/-- `set_level`, `effects/mixer/mixer_node.rs:54-59`; `send` on the bounded channel waits while it is
full. -/
def setLevel (m : Mixer) (inputChannel outputChannel : Nat) (level : Level) : Res Mixer := do
  let matrix ← m.gainMatrix.setLevel inputChannel outputChannel level
  if m.channel.length < mixerEventCapacity then
    .ok { m with gainMatrix := matrix, channel := m.channel ++ [matrix] }
  else .error .block

/-- `mono_to_stereo_splitter`, `effects/mixer/mixer_node.rs:62-72`. -/
noncomputable def monoToStereoSplitter : Res Mixer := do
  let m ← new 1 2
  let m ← m.setLevel 0 0 Level.unity
  m.setLevel 0 1 Level.unity

/-- `unity`, `effects/mixer/mixer_node.rs:78-86`. -/
noncomputable def unity (channelCount : Nat) : Res Mixer := do
  let m ← new channelCount channelCount
  (List.range channelCount).foldlM (fun m channel => m.setLevel channel channel Level.unity) m

/-- `process_events`, `effects/mixer/mixer_processor.rs:18-22`. -/
def processEvents (m : Mixer) : Mixer :=
  { m with channel := [], processorMatrix := m.channel.foldl (fun _ matrix => matrix) m.processorMatrix }

/-- One input into one output, `effects/mixer/mixer_processor.rs:31-60`; `al` as in `Buf.addFrom`. -/
noncomputable def mixOne (al : Nat → Nat × Nat) (matrix : MixerMatrix) (input output : Buf ℝ)
    (outputChannel inputChannel : Nat) : Res (Buf ℝ) := do
  let gain ← matrix.getLevel inputChannel outputChannel
  if gain.isZero then .ok output
  else if gain.isUnity then
    output.addFrom al input (Loc.ofChannel inputChannel) (Loc.ofChannel outputChannel) 1 output.frameCount
  else
    output.addFromWithGain al input (Loc.ofChannel inputChannel) (Loc.ofChannel outputChannel) 1
      output.frameCount gain.linear

/-- `process_audio`, `effects/mixer/mixer_processor.rs:26-63`; `al` are the alignments per output and
input channel. -/
noncomputable def processAudio (m : Mixer) (al : Nat → Nat → Nat → Nat × Nat) (input output : Buf ℝ) :
    Res (Mixer × Buf ℝ) := do
  let m := m.processEvents
  let output ← (List.range output.channelCount).foldlM
    (fun output outputChannel => (List.range input.channelCount).foldlM
      (fun output inputChannel =>
        mixOne (al outputChannel inputChannel) m.processorMatrix input output outputChannel inputChannel)
      output) output
  .ok (m, output)

end Mixer
end Rawdio
