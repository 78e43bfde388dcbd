import Verif.Model.Client
import Verif.Model.MixedNodes
import Verif.Model.OfflineExample
import Verif.Model.Timestamp

/-!
# The example that plays notes with an ADSR envelope

`examples/src/bin/adsr.rs`, with any number of oscillators and with the levels, times and notes as arguments, up to
`context.start()`. The levels are within the range of the gains of oscillators
(`effects/oscillator/oscillator_node.rs:26-29`), so clamping is left out.
-/

namespace Rawdio
namespace AdsrExample


/-- A node is made, `graph/graph_node.rs:13-32`. -/
def create (d : Dsp MixedNode) : ApiCall MixedNode MixedRequest := .create d.id d.inputCount d.outputCount d.state

/-- The handle of a node, `graph/graph_node.rs:5-9`. -/
def handle (d : Dsp MixedNode) : GraphNode := ⟨d.id, d.outputCount⟩

/-- `Oscillator::sine` with one channel, `examples/src/bin/adsr.rs:26-36`,
`effects/oscillator/oscillator_node.rs:56-60`. -/
noncomputable def kind (v : OfflineExample.Voice) : NodeKind :=
  .effect (.oscillator v.frequency 1 (Oscillator.makeSine Oscillator.tableSize 1))

/-- `oscillator.gain().set_value_at_time(level, Timestamp::zero())`, `examples/src/bin/adsr.rs:38-40`,
`parameter/audio_parameter.rs:62-74`. -/
def setLevel (d : Dsp MixedNode) (level : ℝ) : ApiCall MixedNode MixedRequest :=
  .change (handle d) (.parameter (.change "gain" ⟨level, Timestamp.zero, .immediate⟩))

/-- The times and levels of `create_adsr`, `examples/src/bin/adsr.rs:59-62`, `effects/adsr/adsr_node.rs:60-96`. Event `n`
gets the number `sequence n`, `effects/adsr/adsr_event.rs:19-39`. -/
def setTimes (d : Dsp MixedNode) (sequence : ℕ → ℕ) (attack decay : ℝ) (sustain : Level) (release : ℝ) :
    List (ApiCall MixedNode MixedRequest) :=
  [.change (handle d) (.adsr ⟨sequence 0, Timestamp.zero, .setAttack attack⟩),
    .change (handle d) (.adsr ⟨sequence 1, Timestamp.zero, .setDecay decay⟩),
    .change (handle d) (.adsr ⟨sequence 2, Timestamp.zero, .setSustain sustain⟩),
    .change (handle d) (.adsr ⟨sequence 3, Timestamp.zero, .setRelease release⟩)]

/-- `schedule_notes`, `examples/src/bin/adsr.rs:67-79`, `effects/adsr/adsr_node.rs:44-55`, from event `n` on. -/
def scheduleNotes (d : Dsp MixedNode) (sequence : ℕ → ℕ) : ℕ → List (Int × Int) → List (ApiCall MixedNode MixedRequest)
  | _, [] => []
  | n, x :: notes => .change (handle d) (.adsr ⟨sequence n, x.1, .noteOn⟩) ::
    .change (handle d) (.adsr ⟨sequence (n + 1), x.2, .noteOff⟩) :: scheduleNotes d sequence (n + 2) notes

/-- The calls that a program makes: `create_oscillators`, `create_adsr`, `create_gain`, `create_splitter`,
`schedule_notes`, `make_connections` and `start`, `examples/src/bin/adsr.rs:15-23`, `:81-93`. -/
noncomputable def program (sampleRate maximumFrameCount : Nat) (voices : List OfflineExample.Voice) (adsrId gainId splitterId : Id)
    (sequence : ℕ → ℕ) (attack decay : ℝ) (sustain : Level) (release : ℝ) (notes : List (Int × Int)) :
    Res (List (ApiCall MixedNode MixedRequest)) := do
  let oscillators ← voices.mapM fun v => (kind v).make sampleRate maximumFrameCount v.id
  let adsr ← (NodeKind.adsr 1).make sampleRate maximumFrameCount adsrId
  let gain ← (NodeKind.effect (.gain 1)).make sampleRate maximumFrameCount gainId
  let splitter ← NodeKind.splitter.make sampleRate maximumFrameCount splitterId
  return (oscillators.zip voices).flatMap (fun d => [create d.1, setLevel d.1 d.2.level]) ++
    (create adsr :: setTimes adsr sequence attack decay sustain release ++ [create gain, create splitter] ++
      scheduleNotes adsr sequence 4 notes) ++
    (oscillators.map (fun d => .connectTo (handle d) (handle adsr)) ++
      [.connectTo (handle adsr) (handle gain), .connectTo (handle gain) (handle splitter),
        .connectToOutput (handle splitter), .start])

/-- The notes, `examples/src/bin/adsr.rs:68-78`. -/
def exampleNotes : List (Int × Int) :=
  [(Timestamp.zero, Timestamp.fromSeconds (1 / 2)), (Timestamp.fromSeconds 1, Timestamp.fromSeconds (3 / 2)),
    (Timestamp.fromSeconds 2, Timestamp.fromSeconds (5 / 2)), (Timestamp.fromSeconds 3, Timestamp.fromSeconds (7 / 2))]

/-- The program with its times, its level and its notes, `examples/src/bin/adsr.rs:9-97`, up to `context.start()`; events
are numbered from `n` on. -/
noncomputable def exampleProgram (maximumFrameCount : Nat) (voices : List OfflineExample.Voice)
    (adsrId gainId splitterId : Id) (n : Nat) : Res (List (ApiCall MixedNode MixedRequest)) :=
  program 44100 maximumFrameCount voices adsrId gainId splitterId (fun k => n + k) (1 / 10) (3 / 20) (Level.fromDb (-6))
    (1 / 5) exampleNotes

end AdsrExample
end Rawdio
