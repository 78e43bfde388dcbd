import Verif.Model.Effects
import Verif.Spec.Biquad
import Verif.Spec.Chain
import Verif.Spec.Compressor
import Verif.Spec.Convolution
import Verif.Spec.Oscillator
import Verif.Spec.Waveshaper

/-!
# Specification of effects in an engine

What each effect does to a signal of any length, given the values of its parameters over time. Signals start at frame 0.
-/

namespace Rawdio

/-- The values of parameter `name` of node `i` over some events, when the parameter is `p` at first. -/
noncomputable def parameterTrack (sampleRate : Nat) (i : Id) (name : String) :
    RealtimeParameter ℝ → List (ChainEvent ParameterRequest) → List ℝ
  | _, [] => []
  | p, .change j r :: es =>
    parameterTrack sampleRate i name (if j = i ∧ r.name = name then r.apply p else p) es
  | p, .block t n :: es =>
    (p.process realArith t n sampleRate).1 ++
      parameterTrack sampleRate i name (p.process realArith t n sampleRate).2 es

namespace FxKind

/-- The default values that the documentation gives, and the frequency that an oscillator is made with. -/
noncomputable def default : FxKind → String → ℝ
  | gain _, _ => 1
  | pan _, _ => 0
  | biquad _ _, name => if name = "frequency" then 1000 else if name = "q" then 1 / √2 else 1
  | oscillator f _ _, name => if name = "frequency" then f else 1
  | convolution _ _, name => if name = "wet" then 1 else 0
  | waveshaper _ _, name => if name = "mix" then 1 else 0
  | compressor _, name => if name = "attack" then 1 else if name = "release" then 10 else if name = "ratio" then 3
      else if name = "wet" then 1 else 0

/-- The number of channels that come out. -/
def outputs : FxKind → Nat
  | gain n => n
  | pan _ => 2
  | biquad n _ => n
  | oscillator _ n _ => n
  | convolution _ impulse => impulse.channelCount
  | waveshaper n _ => n
  | compressor n => n

/-- The number of channels that go in. -/
def inputs : FxKind → Nat
  | gain n => n
  | pan n => n
  | biquad n _ => n
  | oscillator _ _ _ => 0
  | convolution n _ => n
  | waveshaper n _ => n
  | compressor n => n

/-- The names of the parameters. -/
def names : FxKind → List String
  | gain _ => ["gain"]
  | pan _ => ["pan"]
  | biquad _ _ => ["frequency", "q", "shelf-gain", "gain"]
  | oscillator _ _ _ => ["frequency", "gain"]
  | convolution _ _ => ["wet", "dry"]
  | waveshaper _ _ => ["overdrive", "mix"]
  | compressor _ => ["attack", "release", "ratio", "threshold", "knee", "wet", "dry"]

/-- The effects that are not oscillators. -/
def NotOscillator : FxKind → Prop
  | oscillator _ _ _ => False
  | _ => True

/-- What comes out on the channels of an effect at frame `F`, when `x` goes in and its parameters have the values `v`. -/
noncomputable def effect (sampleRate : Nat) (v : String → ℕ → ℝ) (x : ℕ → ℕ → ℝ) (c F : ℕ) : FxKind → ℝ
  | gain _ => x c F * v "gain" F
  | pan _ => x c F * min (1 + (if c = 0 then - v "pan" F else v "pan" F)) 1
  | biquad _ type => Biquad.response
      (fun t => Biquad.calculate type ⟨v "frequency" t, v "q" t, v "shelf-gain" t⟩ sampleRate) (x c) F * v "gain" F
  | oscillator _ _ table => Oscillator.tableAt table (Oscillator.cycles (v "frequency") sampleRate (F + 1)) * v "gain" F
  | convolution _ impulse => x c F * v "dry" F +
      Convolver.convolved (impulse.sampleOrSilence c) impulse.frameCount (x c) F * v "wet" F
  | waveshaper _ curve => shapedSample curve (v "overdrive" F) (v "mix" F) (x c F)
  | compressor n => x c F * (Compressor.reduction (Compressor.loudness sampleRate n (v "attack") (v "release") x F)
      (v "knee" F) (v "threshold" F) (v "ratio" F) * v "wet" F + v "dry" F)

/-- What comes out of an effect: silence on channels that it does not have. -/
noncomputable def heard (sampleRate : Nat) (v : String → ℕ → ℝ) (x : ℕ → ℕ → ℝ) (k : FxKind) (c F : ℕ) : ℝ :=
  if c < k.outputs then k.effect sampleRate v x c F else 0

/-- The values of the parameters of a new node over some events. -/
noncomputable def track (sampleRate : Nat) (es : List (ChainEvent ParameterRequest)) (i : Id) (k : FxKind)
    (name : String) (F : ℕ) : ℝ :=
  (parameterTrack sampleRate i name (.new realArith (k.default name)) es).getD F 0

/-- Arguments that make sense: a pan and a convolution have as many channels in as they use, an impulse is not
empty, a wavetable is not empty and starts at 0, and there is a channel to play it on. -/
def Usable : FxKind → Prop
  | gain _ => True
  | pan n => 2 ≤ n
  | biquad _ _ => True
  | oscillator _ n table => 0 < n ∧ 0 < table.length ∧ table.getD 0 0 = 0
  | convolution n impulse => impulse.WF ∧ impulse.channelCount = n ∧ 0 < impulse.frameCount
  | waveshaper _ _ => True
  | compressor _ => True

/-- For `total` frames, the frequency of an oscillator stays above 0, that of the overdrive of a waveshaper above -10 (its range
is from 0 to 1), and a compressor with a knee of 0 never has a level of exactly its threshold (C52). -/
def Sounding (sampleRate : Nat) (v : String → ℕ → ℝ) (x : ℕ → ℕ → ℝ) (total : Nat) : FxKind → Prop
  | oscillator _ _ _ => ∀ F < total, 0 < v "frequency" F
  | waveshaper _ _ => ∀ F < total, -10 ≤ v "overdrive" F
  | compressor n => ∀ F < total, ¬ (v "knee" F = 0 ∧
      Compressor.loudness sampleRate n (v "attack") (v "release") x F = v "threshold" F)
  | _ => True

end FxKind

/-- What comes out of effects in a row, when `x` goes into the first. -/
noncomputable def heardThrough (sampleRate : Nat) (es : List (ChainEvent ParameterRequest)) :
    List (Id × FxKind) → (ℕ → ℕ → ℝ) → ℕ → ℕ → ℝ
  | [], x => x
  | (i, k) :: ks, x => heardThrough sampleRate es ks (k.heard sampleRate (k.track sampleRate es i) x)

/-- All effects in a row are `Sounding`, when `x` goes into the first. -/
def SoundingThrough (sampleRate : Nat) (es : List (ChainEvent ParameterRequest)) :
    List (Id × FxKind) → (ℕ → ℕ → ℝ) → Prop
  | [], _ => True
  | (i, k) :: ks, x => k.Sounding sampleRate (k.track sampleRate es i) x (ChainEvent.total es) ∧
      SoundingThrough sampleRate es ks (k.heard sampleRate (k.track sampleRate es i) x)

end Rawdio
