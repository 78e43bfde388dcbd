import Verif.Model.Effects
import Verif.Model.Envelope

/-!
# `effects/envelope/envelope_node.rs`: meters among the nodes of an engine

Both ends of a meter (`Envelope`) are in the state of its node. What the control thread does with a meter happens between
process calls here.
-/

namespace Rawdio

/-- What the control thread does with a meter: its notifier runs (`effects/envelope/envelope_node.rs:61-68`), or its
notifications are taken (lines 83-87). -/
inductive MeterRequest
  | poll
  | take

/-- A meter as a node, `effects/envelope/envelope_node.rs:14-19`, with the number of its channels and with what
`take_notifications` (lines 83-87) has returned so far, in order. -/
structure MeterNode where
  channelCount : Nat
  node : EnvelopeNode
  taken : List EnvelopeNotification

namespace MeterNode

/-- Meters as nodes, `graph/dsp.rs:73-95`, `effects/envelope/envelope_processor.rs:42-84`,
`effects/envelope/envelope_node.rs:75-87`. A meter does not write to its output. -/
noncomputable def ops : NodeOps ℝ MeterNode MeterRequest where
  run s b := do
    let e ← unbounded fun fuel =>
      s.node.processAudio fuel fuel (Fx.buffer s.channelCount b.frames b.sampleRate b.input)
    return (fun c f => (b.output c f).getD 0, { s with node := e })
  change s r := match r with
    | .poll => .ok { s with node := s.node.processNotifications }
    | .take =>
      let q := s.node.takeNotifications
      .ok { s with node := q.1, taken := s.taken ++ q.2 }

/-- `Envelope::new`, `effects/envelope/envelope_node.rs:25-73`: a new meter as a node; times in nanoseconds. -/
noncomputable def make (sampleRate : Nat) (id : Id) (channelCount attackTime releaseTime : Nat)
    (notificationFrequency : ℚ) : Res (Dsp MeterNode) := do
  let e ← EnvelopeNode.new sampleRate channelCount attackTime releaseTime notificationFrequency
  return ⟨id, channelCount, channelCount, ⟨channelCount, e, []⟩⟩

end MeterNode

/-- Nodes of an engine some of which are meters, behind the trait objects of `graph/dsp.rs:12`. -/
inductive WithMeters (P : Type)
  | other (s : P)
  | meter (s : MeterNode)

/-- What can be requested of them, `commands/command.rs:11-12` and `effects/envelope/envelope_node.rs:61-87`. -/
inductive WithMeters.Request (C : Type)
  | other (c : C)
  | meter (r : MeterRequest)

namespace WithMeters

variable {P C : Type}

/-- `graph/dsp.rs:73-114` for nodes of which some are meters. The handles have types, so that nothing is requested of a
node that it does not have. -/
noncomputable def ops (others : NodeOps ℝ P C) : NodeOps ℝ (WithMeters P) (Request C) where
  run s b := match s with
    | other s => do let r ← others.run s b; return (r.1, other r.2)
    | meter s => do let r ← MeterNode.ops.run s b; return (r.1, meter r.2)
  change s c := match s, c with
    | other s, .other c => do return other (← others.change s c)
    | meter s, .meter r => do return meter (← MeterNode.ops.change s r)
    | _, _ => .error .panic

end WithMeters
end Rawdio
