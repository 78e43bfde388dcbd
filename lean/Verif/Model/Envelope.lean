import Verif.Model.Buffer
import Verif.Model.Follower

/-!
# `effects/envelope/*.rs`: the envelope node

Over exact reals.  `EnvelopeNode` holds the processor and the notifications waiting in the channel; the
receiving end is taken to exist (a `send` to a dropped receiver returns at once).
-/

namespace Rawdio

/-- `NOTIFICATION_CHANNEL_CAPACITY`, `effects/envelope/envelope_node.rs:21`. -/
def envelopeChannelCapacity : Nat := 64

/-- `EnvelopeNotification`, `effects/envelope/envelope_notification.rs:3-6`. -/
structure EnvelopeNotification where
  channelIndex : Nat
  peakLevel : ℝ

/-- `EnvelopeProcessor`, `effects/envelope/envelope_processor.rs:5-10`, the notifications in the channel, and
those the control side has received, `effects/envelope/envelope_node.rs:14-19`. -/
structure EnvelopeNode where
  envelopes : List Follower
  notification : Periodic
  peaks : List ℝ
  channel : List EnvelopeNotification
  notifications : List EnvelopeNotification

namespace EnvelopeNode

/-- `Envelope::new`, `effects/envelope/envelope_node.rs:25-73`, and `EnvelopeProcessor::new`,
`effects/envelope/envelope_processor.rs:13-29`. -/
noncomputable def new (sampleRate channelCount attackTime releaseTime : Nat) (notificationFrequency : ℚ) :
    Res EnvelopeNode := do
  let notification ← Periodic.new sampleRate notificationFrequency
  .ok ⟨List.replicate channelCount (Follower.new sampleRate attackTime releaseTime), notification,
    List.replicate channelCount 0, [], []⟩

/-- One round of the loop at `effects/envelope/envelope_processor.rs:32-36`: look the peak up, `send`. -/
def sendOne (e : EnvelopeNode) (channel : Nat) : Res EnvelopeNode := do
  let peak ← Buf.index e.peaks channel
  if e.channel.length < envelopeChannelCapacity then .ok { e with channel := e.channel ++ [⟨channel, peak⟩] }
  else .error .block

/-- `send_notifications`, `effects/envelope/envelope_processor.rs:31-39`. -/
def sendNotifications (e : EnvelopeNode) (channelCount : Nat) : Res EnvelopeNode := do
  let e ← (List.range channelCount).foldlM sendOne e
  .ok { e with peaks := e.peaks.map fun _ => 0 }

/-- One sample, `effects/envelope/envelope_processor.rs:69-70`. -/
noncomputable def sampleStep (s : Follower × ℝ) (sample : ℝ) : Follower × ℝ :=
  let r := s.1.process sample
  (r.1, max s.2 r.2)

/-- One channel, `effects/envelope/envelope_processor.rs:53-72`. -/
noncomputable def channelStep (input : Buf ℝ) (position frameCount : Nat) (e : EnvelopeNode) (channel : Nat) :
    Res EnvelopeNode := do
  let data ← input.channelData (Loc.ofChannel channel)
  let data ← sliceRange data position (position + frameCount)
  let envelope ← Buf.index e.envelopes channel
  let peak ← Buf.index e.peaks channel
  let r := data.foldl sampleStep (envelope, peak)
  .ok { e with envelopes := e.envelopes.set channel r.1, peaks := e.peaks.set channel r.2 }

/-- `effects/envelope/envelope_processor.rs:74-79`. -/
noncomputable def notify (e : EnvelopeNode) (fuel : Nat) (input : Buf ℝ) : Res EnvelopeNode := do
  let (notification, due) ← e.notification.advance fuel input.frameCount
  let e := { e with notification := notification }
  if due then e.sendNotifications input.channelCount else .ok e

/-- The loop at `effects/envelope/envelope_processor.rs:47-82`; note that it compares the position in frames
with the number of channels.  `rounds` bounds the number of rounds, `fuel` that of the loop in `advance`. -/
noncomputable def loop (fuel : Nat) (input : Buf ℝ) : Nat → EnvelopeNode → Nat → Res EnvelopeNode
  | 0, _, _ => .error .diverge
  | rounds + 1, e, position =>
    if position < input.channelCount then do
      let frameCount := min input.frameCount e.notification.samplesUntilNextNotification
      let e ← (List.range input.channelCount).foldlM (channelStep input position frameCount) e
      let e ← e.notify fuel input
      loop fuel input rounds e (position + frameCount)
    else .ok e

/-- `process_audio`, `effects/envelope/envelope_processor.rs:43-83`. -/
noncomputable def processAudio (e : EnvelopeNode) (rounds fuel : Nat) (input : Buf ℝ) : Res EnvelopeNode :=
  loop fuel input rounds e 0

/-- `process_notifications`, `effects/envelope/envelope_node.rs:75-79`. -/
def processNotifications (e : EnvelopeNode) : EnvelopeNode :=
  { e with channel := [], notifications := e.notifications ++ e.channel }

/-- `take_notifications`, `effects/envelope/envelope_node.rs:83-87`. -/
def takeNotifications (e : EnvelopeNode) : EnvelopeNode × List EnvelopeNotification :=
  ({ e with notifications := [] }, e.notifications)

end EnvelopeNode
end Rawdio
