import Mathlib.NumberTheory.Real.Irrational
import Verif.Model.MixedNodes
import Verif.Spec.Adsr
import Verif.Spec.Effects
import Verif.Spec.Mixer
import Verif.Spec.Network
import Verif.Spec.SamplerNode

/-!
# Specification of nodes of different kinds in one engine

What comes out of each kind of node, for a signal of any length that goes into it and any events. Signals start at
frame 0.
-/

namespace Rawdio

/-- An event as node `i` sees it; `own` are the requests that its handle can make. -/
def ChainEvent.seen {C D : Type} (i : Id) (own : D → Option C) : ChainEvent D → Option (ChainEvent C)
  | .change j r => if j = i then (own r).map (.change i) else none
  | .block t n => some (.block t n)

namespace MixedRequest

/-- Changes of parameters. -/
def parameter? : MixedRequest → Option ParameterRequest
  | parameter r => some r
  | _ => none

/-- Levels of mixers. -/
def level? : MixedRequest → Option SetLevel
  | level r => some r
  | _ => none

/-- Events of ADSR envelopes. -/
def adsr? : MixedRequest → Option AdsrEvent
  | adsr e => some e
  | _ => none

/-- Events of samplers. -/
def sampler? : MixedRequest → Option SamplerEvent
  | sampler e => some e
  | _ => none

end MixedRequest

/-- The levels of a mixer at each frame, when they are `level` at first: those that have been set before the block. -/
def levelTrack : (Nat → Nat → ℝ) → List (ChainEvent SetLevel) → List (Nat → Nat → ℝ)
  | _, [] => []
  | level, .change _ r :: es => levelTrack (setLevelOf level r.input r.output r.level.linear) es
  | level, .block _ n :: es => List.replicate n level ++ levelTrack level es

/-- The gains of an ADSR envelope at each frame, when `waiting` has been sent and the envelope is `e`: in each block the
events that are due before its end take effect at their frames, in the order of their times. -/
noncomputable def adsrTrack (sampleRate : Nat) : List AdsrEvent → AdsrEnvelope → List (ChainEvent AdsrEvent) → List ℝ
  | _, _, [] => []
  | waiting, e, .change _ x :: es => adsrTrack sampleRate (waiting ++ [x]) e es
  | waiting, e, .block t n :: es =>
    let order := waiting.mergeSort fun a b => a.time < b.time ∨ (a.time = b.time ∧ a.sequenceNumber ≤ b.sequenceNumber)
    let blockEnd := t + Timestamp.fromSamples (n : ℚ) sampleRate
    let due := (order.filter fun x => x.time < blockEnd).map fun x => (frameOf t x.time sampleRate, x.eventType)
    let result := adsrValues due 0 n e
    result.2 ++ adsrTrack sampleRate (order.filter fun x => blockEnd ≤ x.time) result.1 es

namespace NodeKind

/-- The number of channels that go in. -/
def inputs : NodeKind → Nat
  | effect k => k.inputs
  | mixer i _ => i
  | splitter => 1
  | unity n => n
  | adsr n => n
  | sampler _ _ => 0

/-- The number of channels that come out. -/
def outputs : NodeKind → Nat
  | effect k => k.outputs
  | mixer _ o => o
  | splitter => 2
  | unity n => n
  | adsr n => n
  | sampler sample _ => sample.channels

/-- The levels that a mixer is made with. -/
def levels : NodeKind → Nat → Nat → ℝ
  | splitter, i, o => if i = 0 ∧ o < 2 then 1 else 0
  | unity n, i, o => if i = o ∧ i < n then 1 else 0
  | _, _, _ => 0

/-- What a mixer makes of the signal `x`. -/
noncomputable def mixed (k : NodeKind) (i : Id) (es : List (ChainEvent MixedRequest)) (x : ℕ → ℕ → ℝ) (c F : ℕ) : ℝ :=
  if c < k.outputs then
    ∑ j ∈ Finset.range k.inputs, x j F *
      effectiveGain ((levelTrack k.levels (es.filterMap (ChainEvent.seen i MixedRequest.level?))).getD F k.levels j c)
  else 0

/-- The gain of an ADSR envelope at frame `F`. -/
noncomputable def envelope (sampleRate : Nat) (i : Id) (es : List (ChainEvent MixedRequest)) (F : ℕ) : ℝ :=
  (adsrTrack sampleRate [] (AdsrEnvelope.new sampleRate 0 0 (Level.fromDb 0) 0)
    (es.filterMap (ChainEvent.seen i MixedRequest.adsr?))).getD F 0

/-- `y` is what comes out of node `i` in the first `total` frames, when `x` goes in. -/
def Makes (sampleRate total : Nat) (i : Id) (es : List (ChainEvent MixedRequest)) (x y : ℕ → ℕ → ℝ) :
    NodeKind → Prop
  | effect k =>
    let v := k.track sampleRate (es.filterMap (ChainEvent.seen i MixedRequest.parameter?)) i
    k.Sounding sampleRate v x total → ∀ c F, F < total → y c F = k.heard sampleRate v x c F
  | adsr n => ∀ c F, F < total → y c F = if c < n then x c F * envelope sampleRate i es F else 0
  | sampler sample fade =>
    let blocks := Sampler.blocks sample.channels [] (es.filterMap (ChainEvent.seen i MixedRequest.sampler?))
    ∃ fuel s outs, Sampler.run fuel (Sampler.new sampleRate sample fade) blocks = .ok (s, outs) ∧
      ∀ c F, F < total → y c F = if c < sample.channels then Sampler.joined blocks outs c F else 0
  | k => ∀ c F, F < total → y c F = k.mixed i es x c F

/-- Arguments that make sense: those of the effects (`FxKind.Usable`), at most 8 channels for a mixer, and a fade of a
sampler that is not empty. -/
def Usable : NodeKind → Prop
  | effect k => k.Usable
  | mixer i o => i ≤ 8 ∧ o ≤ 8
  | splitter => True
  | unity n => n ≤ 8
  | adsr _ => True
  | sampler _ fade => 0 < fade.values.length

end NodeKind

namespace NodeKind

/-- The requests that can be made of a node: changes of the parameters that it has, levels of the channels that it has, and
loops that end after they start. For an oscillator only changes of the gain, and if it is made with an irrational frequency
also sets of the frequency to positive rational multiples of that, which never come to a whole number of cycles. -/
def Allows : NodeKind → MixedRequest → Prop
  | effect (.oscillator f _ _), .parameter r => r.name = "gain" ∨ (Irrational f ∧
      ((∃ (q : ℚ) (t : Int), 0 < q ∧ r = .change "frequency" ⟨q * f, t, .immediate⟩) ∨ ∃ t, r = .cancel "frequency" t))
  | effect k, .parameter r => r.name ∈ k.names
  | mixer i o, .level r => r.input < i ∧ r.output < o
  | splitter, .level r => r.input < 1 ∧ r.output < 2
  | unity n, .level r => r.input < n ∧ r.output < n
  | adsr _, .adsr _ => True
  | sampler _ _, .sampler e => Sampler.ProperLoop e
  | _, _ => False

/-- Nodes that render all blocks: an oscillator does unless it comes to a whole number of cycles at a frame (C46). -/
def Renders (sampleRate : Nat) : NodeKind → Prop
  | effect (.oscillator f _ _) => 0 < f ∧ ∀ n : ℕ, 0 < n → ¬ Oscillator.Whole (f * n / sampleRate)
  | _ => True

end NodeKind

/-- Loops of samplers end after they start. -/
def MixedRequest.Proper : MixedRequest → Prop
  | .sampler e => Sampler.ProperLoop e
  | _ => True

/-- Nodes of some kinds. -/
def NodeKind.Made (sampleRate mf : Nat) (kinds : List (Id × NodeKind)) (nodes : List (Dsp MixedNode)) : Prop :=
  List.Forall₂ (fun q d => q.2.make sampleRate mf q.1 = .ok d) kinds nodes

end Rawdio
