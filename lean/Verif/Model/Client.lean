import Verif.Model.Processor

/-!
# `graph/graph_node.rs`, `engine/root.rs`: the calls a program can make

Each call is one command on the channel of the engine.
-/

namespace Rawdio

/-- `GraphNode`, `graph/graph_node.rs:5-9`; every handle sends to the channel of its engine. -/
structure GraphNode where
  id : Id
  outputCount : Nat
  deriving DecidableEq

/-- What a program can ask for: `GraphNode::new` with the identity, channel counts and processor of the node
(`graph/graph_node.rs:13-32`), the methods of a node (`:43-105`), dropping it (`:108-112`), `Context::start` and
`Context::stop` (`engine/root.rs:14-20`), and the requests of its parameters
(`parameter/audio_parameter.rs:55-135`). -/
inductive ApiCall (P C : Type)
  | create (id : Id) (inputCount outputCount : Nat) (state : P)
  | connectToInput (node : GraphNode)
  | connectToOutput (node : GraphNode)
  | connectTo (source destination : GraphNode)
  | connectChannelsTo (source destination : GraphNode)
      (sourceOutputChannel destinationInputChannel channelCount : Nat)
  | disconnectFromNode (source destination : GraphNode)
  | drop (node : GraphNode)
  | change (node : GraphNode) (request : C)
  | start
  | stop

/-- The command sent by each call, `graph/graph_node.rs:21-25`, `:43-49`, `:60-66`, `:69-76`, `:79-91`, `:93-105`,
`:108-112`, `engine/root.rs:14-20`, `parameter/audio_parameter.rs:55-135`. -/
def ApiCall.command {P C : Type} : ApiCall P C → Command P C
  | .create id inputCount outputCount state => .addDsp ⟨id, inputCount, outputCount, state⟩
  | .connectToInput node => .connectToInput ⟨.input, node.id⟩
  | .connectToOutput node => .connectToOutput ⟨.output, node.id⟩
  | .connectTo source destination =>
    .addConnection (Connection.new source.id destination.id source.outputCount)
  | .connectChannelsTo source destination sourceOutputChannel destinationInputChannel channelCount =>
    .addConnection (((Connection.new source.id destination.id channelCount).withSourceChannel
      sourceOutputChannel).withDestinationChannel destinationInputChannel)
  | .disconnectFromNode source destination =>
    .removeConnection (Connection.new source.id destination.id source.outputCount)
  | .drop node => .removeDsp node.id
  | .change node request => .change node.id request
  | .start => .start
  | .stop => .stop

end Rawdio
