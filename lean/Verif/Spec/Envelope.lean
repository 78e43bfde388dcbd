import Verif.Model.Envelope
import Verif.Spec.Mixer

/-! # Specification of the envelope node -/

namespace Rawdio

/-- The values of an envelope follower for a series of samples. -/
noncomputable def Follower.values (e : Follower) : List ℝ → List ℝ
  | [] => []
  | x :: xs => (e.process x).2 :: ((e.process x).1).values xs

/-- An envelope follower after a series of samples. -/
noncomputable def Follower.run (e : Follower) (xs : List ℝ) : Follower := xs.foldl (fun e x => (e.process x).1) e

/-- The first `n` samples of a channel. -/
def Buf.firstSamples (b : Buf ℝ) (c n : Nat) : List ℝ := (List.range n).map fun f => b.sampleOr0 c f

/-- A peak together with further values. -/
noncomputable def peakOf (peak : ℝ) (values : List ℝ) : ℝ := values.foldl max peak

/-- What can happen to an envelope node: the audio thread processes a block, the context runs the notifiers, the
user takes the notifications. -/
inductive EnvelopeEvent where
  | block (input : Buf ℝ)
  | poll
  | take

/-- The blocks among some events. -/
def EnvelopeEvent.blocks (events : List EnvelopeEvent) : List (Buf ℝ) :=
  events.filterMap fun e => match e with
    | .block input => some input
    | _ => none

/-- One event, with what the user has taken so far. -/
noncomputable def EnvelopeNode.event (rounds fuel : Nat) (s : EnvelopeNode × List EnvelopeNotification) :
    EnvelopeEvent → Res (EnvelopeNode × List EnvelopeNotification)
  | .block input => (s.1.processAudio rounds fuel input).map (·, s.2)
  | .poll => .ok (s.1.processNotifications, s.2)
  | .take => .ok (s.1.takeNotifications.1, s.2 ++ s.1.takeNotifications.2)

/-- A history of events; nothing has been taken before. -/
noncomputable def EnvelopeNode.history (e : EnvelopeNode) (rounds fuel : Nat) (events : List EnvelopeEvent) :
    Res (EnvelopeNode × List EnvelopeNotification) :=
  events.foldlM (EnvelopeNode.event rounds fuel) (e, [])

/-- Reports of some channels: for each of the peaks in turn its channel and the peak. -/
def reportsOf (peaks : List ℝ) : List EnvelopeNotification :=
  (List.range peaks.length).map fun c => ⟨c, (peaks[c]?).getD 0⟩

end Rawdio
