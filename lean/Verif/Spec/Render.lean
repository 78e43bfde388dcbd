import Verif.Model.DspGraph
import Verif.Spec.Order
import Verif.Spec.Grid

/-!
# Specification of rendering one block

A block is described by the signal of every node, not by buffers or a processing order.
-/

namespace Rawdio

/-- The output of every node: channel and frame to sample. -/
abbrev Signals (S : Type) := Id → Nat → Nat → S

/-- The part of a signal that a buffer of the given size shows. -/
def window {S : Type} (channels frames : Nat) (x : Nat → Nat → S) (c f : Nat) : Option S :=
  if c < channels ∧ f < frames then some (x c f) else none

/-- Silence. -/
def silence {S : Type} [Zero S] (_ _ : Nat) : S := 0

/-- `sig` and `after` are the node outputs and node states of a block in which every node of the
patch is run exactly once, on the input `inputOf sig n` and on a silent output, and every sample the
node does not produce is silent. -/
structure Rendered {S P C : Type} [Zero S] (ops : NodeOps S P C) (p : Patch Connection)
    (before : Id → Option (Dsp P)) (frames sampleRate : Nat) (t : Int)
    (inputOf : Signals S → Id → Nat → Nat → S) (sig : Signals S) (after : Id → Option (Dsp P)) :
    Prop where
  run : ∀ n ∈ p.nodes, ∃ d out st, before n = some d ∧
    ops.run d.state ⟨frames, sampleRate, t, window d.inputCount frames (inputOf sig n),
      window d.outputCount frames silence⟩ = .ok (out, st) ∧
    after n = some { d with state := st } ∧
    ∀ c f, sig n c f = if c < d.outputCount ∧ f < frames then out c f else 0
  gone : ∀ n, n ∉ p.nodes → after n = none

/-- A connection feeds input channel `c` of its destination. -/
def Connection.Feeds (k : Connection) (c : Nat) : Prop :=
  k.destinationChannel ≤ c ∧ c < k.destinationChannel + k.channelCount

instance (k : Connection) (c : Nat) : Decidable (k.Feeds c) := by
  unfold Connection.Feeds; infer_instance

/-- The signals that the connections into `n` bring to input channel `c`, in the order the
connections were made. -/
def Patch.arriving {S : Type} (p : Patch Connection) (sig : Signals S) (n : Id) (c f : Nat) :
    List S :=
  ((p.at' n .incoming).filter (fun k => k.data.Feeds c)).map
    (fun k => sig k.src (k.data.sourceChannel + (c - k.data.destinationChannel)) f)

/-- The sum, over the connections into `n` in the order made, of the source channel each selects for
input channel `c`; zero if there is none. -/
def Patch.sumInto {S : Type} [Zero S] [Add S] (p : Patch Connection) (sig : Signals S) (n : Id)
    (c f : Nat) : S :=
  (p.arriving sig n c f).foldl (· + ·) 0

/-- A connection from channel 0 to channel 0. -/
def Connection.Plain (k : Connection) : Prop := k.destinationChannel = 0 ∧ k.sourceChannel = 0

instance (k : Connection) : Decidable k.Plain := by
  unfold Connection.Plain; infer_instance

/-- What the engine really gives to node `n` when `system n` is what arrives from the system input:
a single plain connection passes all channels of its source and nothing else; otherwise the system
input, replaced on the channels fed by the oldest connection, plus what the connections bring. -/
def Patch.received {S : Type} [Zero S] [Add S] (p : Patch Connection)
    (system : Id → Nat → Nat → S) (sig : Signals S) (n : Id) (c f : Nat) : S :=
  match p.at' n .incoming with
  | [] => system n c f
  | k :: ks =>
    if ks = [] ∧ k.data.Plain then sig k.src c f
    else (p.arriving sig n c f).foldl (· + ·) (if k.data.Feeds c then 0 else system n c f)

/-- What arrives from the system input at node `n`: the samples of the input buffer if `n` is the
node connected to the system input, silence otherwise and outside the buffer. -/
def arrivesFromSystem {S : Type} [Zero S] (node : Option Id) (input : Buf S)
    (channels frames : Nat) (n : Id) (c f : Nat) : S :=
  if node = some n ∧ c < channels ∧ f < frames then (input.sample? c f).getD 0 else 0

/-- The buffers of a process call: usable, not empty, and input for every output frame. -/
structure ValidBlock {S : Type} (input output : Buf S) : Prop where
  inWF : input.WF
  outWF : output.WF
  writable : output.Writable
  nonempty : 0 < output.frameCount
  enough : output.frameCount ≤ input.frameCount

namespace DspGraph

variable {S P C : Type} [Zero S] [Add S]

/-- The states an engine's graph can reach: from a new graph by requests, in any order and with any
arguments, and by process calls, with the collector thread taking disposed nodes at any time.
`connect` carries the identity of the new connection, which is not in use. -/
inductive Reachable (ops : NodeOps S P C) (maxFrames maxChannels sampleRate : Nat) :
    DspGraph S P → Prop
  | new : Reachable ops maxFrames maxChannels sampleRate (new maxFrames maxChannels sampleRate)
  | add {G G' : DspGraph S P} (d : Dsp P) :
      Reachable ops maxFrames maxChannels sampleRate G → G.addDsp d = .ok G' →
      Reachable ops maxFrames maxChannels sampleRate G'
  | remove {G G' : DspGraph S P} (i : Id) :
      Reachable ops maxFrames maxChannels sampleRate G → G.removeDsp i = .ok G' →
      Reachable ops maxFrames maxChannels sampleRate G'
  | change {G G' : DspGraph S P} (i : Id) (c : C) :
      Reachable ops maxFrames maxChannels sampleRate G → G.changeParameter ops i c = .ok G' →
      Reachable ops maxFrames maxChannels sampleRate G'
  | connect {G G' : DspGraph S P} (k : Id) (c : Connection) :
      Reachable ops maxFrames maxChannels sampleRate G → G.graph.getEdge k = none →
      G.addConnection k c = .ok G' →
      Reachable ops maxFrames maxChannels sampleRate G'
  | disconnect {G : DspGraph S P} (σ : IterOrder Id) (c : Connection) :
      Reachable ops maxFrames maxChannels sampleRate G →
      Reachable ops maxFrames maxChannels sampleRate (G.removeConnection σ c)
  | toOutput {G : DspGraph S P} (i : Id) :
      Reachable ops maxFrames maxChannels sampleRate G →
      Reachable ops maxFrames maxChannels sampleRate (G.connectToOutput ⟨.output, i⟩)
  | toInput {G : DspGraph S P} (i : Id) :
      Reachable ops maxFrames maxChannels sampleRate G →
      Reachable ops maxFrames maxChannels sampleRate (G.connectToInput ⟨.input, i⟩)
  | process {G G' : DspGraph S P} (env : Env) (input output output' : Buf S) (t : Int) :
      Reachable ops maxFrames maxChannels sampleRate G → ValidBlock input output →
      G.process ops env input output t = .ok (output', G') →
      Reachable ops maxFrames maxChannels sampleRate G'
  | collect {G : DspGraph S P} (n : Nat) :
      Reachable ops maxFrames maxChannels sampleRate G → n ≤ G.garbage →
      Reachable ops maxFrames maxChannels sampleRate { G with garbage := n }

/-- Every node and every connection stays within the configured number of channels. -/
def Fits (G : DspGraph S P) (p : Patch Connection) (channels : Nat) : Prop :=
  (∀ i d, G.graph.getNode i = some d → d.inputCount ≤ channels ∧ d.outputCount ≤ channels) ∧
  ∀ k ∈ p.conns, k.data.sourceChannel + k.data.channelCount ≤ channels ∧
    k.data.destinationChannel + k.data.channelCount ≤ channels

end DspGraph
end Rawdio
