import Verif.Model.Gain
import Verif.Spec.Engine
import Verif.Spec.Parameter

/-!
# Specification of a gain node in an engine
-/

namespace Rawdio

/-- A process call of an engine whose nodes are gain nodes. -/
abbrev GainCall := Call ℝ (RealtimeParameter ℝ) (ParameterChange ℝ)

/-- The commands of a program that plays the system input through one gain node of `n` channels, as received by
one process call: in the first call the node is made, connected and the engine is started; in every call changes
of its gain may be requested. -/
noncomputable def gainCommands (id : Id) (n : Nat) (first : Bool) (changes : List (ParameterChange ℝ)) :
    List (Command (RealtimeParameter ℝ) (ParameterChange ℝ)) :=
  (if first then [.addDsp ⟨id, n, n, Gain.initial⟩, .connectToInput ⟨.input, id⟩, .connectToOutput ⟨.output, id⟩,
    .start] else []) ++ changes.map (Command.change id)

/-- The process calls of such a program, when `changes i` are the changes requested before call `i`. -/
def PlaysGain (id : Id) (n : Nat) (changes : Nat → List (ParameterChange ℝ)) (ks : List GainCall) : Prop :=
  ∀ i k, ks[i]? = some k → k.commands.map Prod.fst = gainCommands id n (i == 0) (changes i)

/-- One change is requested, before call `i`. -/
def onlyAt (i : Nat) (c : ParameterChange ℝ) (j : Nat) : List (ParameterChange ℝ) := if j = i then [c] else []

/-- The number of frames of some process calls. -/
def framesIn {S P C : Type} (ks : List (Call S P C)) : Nat := (ks.map fun k => k.output.frameCount).sum

/-- The sample of a buffer, and silence on channels it does not have. -/
def Buf.sampleOrSilence {S : Type} [Zero S] (b : Buf S) (c f : Nat) : S := (b.sample? c f).getD 0

/-- The blocks (time and number of frames) of a process call of `total` frames, the first of which is frame
`first` of the session. -/
def BlocksOf (full sampleRate first total : Nat) (blocks : List (Int × Nat)) : Prop :=
  ∃ now tiles, NearestTime first sampleRate now ∧ Tiles full 0 total tiles ∧
    blocks = tiles.map fun b => (Timestamp.incrementedBySamples now b.1 sampleRate, b.2)

/-- The values of a parameter, and the parameter afterwards, when for every process call first some changes are
requested and then some blocks rendered. -/
noncomputable def gainValues (sampleRate : Nat) : RealtimeParameter ℝ →
    List (List (ParameterChange ℝ) × List (Int × Nat)) → List ℝ × RealtimeParameter ℝ
  | p, [] => ([], p)
  | p, h :: hs =>
    let x := RealtimeParameter.processAll realArith sampleRate (h.1.foldl RealtimeParameter.addChange p) h.2
    let y := gainValues sampleRate x.2 hs
    (x.1 ++ y.1, y.2)

/-- The changes and blocks of some process calls. -/
def GainHistory {S P C : Type} (full sampleRate : Nat) (changes : Nat → List (ParameterChange ℝ))
    (ks : List (Call S P C)) (hs : List (List (ParameterChange ℝ) × List (Int × Nat))) : Prop :=
  hs.length = ks.length ∧ ∀ i k h, ks[i]? = some k → hs[i]? = some h →
    h.1 = changes i ∧ BlocksOf full sampleRate (framesIn (ks.take i)) k.output.frameCount h.2

end Rawdio
