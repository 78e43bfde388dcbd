import Verif.Model.Connect
import Verif.Spec.Gain

/-!
# Specification of nodes connected in a row

The nodes are a list, and a signal goes through them from the first to the last.
-/

namespace Rawdio

variable {S P C : Type}

/-- What a node sends out, silent on other channels than its own and after the block. -/
def clip [Zero S] (channels frames : Nat) (x : Nat → Nat → S) (c f : Nat) : S :=
  if c < channels ∧ f < frames then x c f else 0

/-- A block through nodes in a row: each is given what the one before sends out, the first is given `x`. -/
def chainBlock [Zero S] (ops : NodeOps S P C) (sampleRate : Nat) (t : Int) (frames : Nat) :
    List (Dsp P) → (Nat → Nat → S) → Res ((Nat → Nat → S) × List (Dsp P))
  | [], x => .ok (x, [])
  | d :: ds, x => do
    let r ← ops.run d.state
      ⟨frames, sampleRate, t, window d.inputCount frames x, window d.outputCount frames silence⟩
    let q ← chainBlock ops sampleRate t frames ds (clip d.outputCount frames r.1)
    return (q.1, { d with state := r.2 } :: q.2)

/-- A request to a node in a row. -/
def chainChange (ops : NodeOps S P C) (i : Id) (c : C) (ds : List (Dsp P)) : Res (List (Dsp P)) :=
  ds.mapM fun d => if d.id = i then do return { d with state := ← ops.change d.state c } else return d

/-- What happens to nodes in a row: a request to one of them, or a block of a time and a number of frames. -/
inductive ChainEvent (C : Type)
  | change (i : Id) (c : C)
  | block (t : Int) (frames : Nat)

namespace ChainEvent

/-- The number of frames of an event. -/
def frames : ChainEvent C → Nat
  | .change _ _ => 0
  | .block _ n => n

/-- The number of frames of a list of events. -/
def total (es : List (ChainEvent C)) : Nat := (es.map frames).sum

end ChainEvent

/-- A signal without its first frames. -/
def later (n : Nat) (x : Nat → Nat → S) (c f : Nat) : S := x c (n + f)

/-- A signal followed after `n` frames by another. -/
def followed (n : Nat) (x y : Nat → Nat → S) (c f : Nat) : S := if f < n then x c f else y c (f - n)

/-- A signal through nodes in a row, event after event. -/
def chainRun [Zero S] (ops : NodeOps S P C) (sampleRate : Nat) :
    List (Dsp P) → List (ChainEvent C) → (Nat → Nat → S) → Res ((Nat → Nat → S) × List (Dsp P))
  | ds, [], _ => .ok (silence, ds)
  | ds, .change i c :: es, x => do
    let ds ← chainChange ops i c ds
    chainRun ops sampleRate ds es x
  | ds, .block t n :: es, x => do
    let q ← chainBlock ops sampleRate t n ds x
    let r ← chainRun ops sampleRate q.2 es (later n x)
    return (followed n q.1 r.1, r.2)

/-- The stages of `connect_nodes!(a => b => … => "output")`, or of `connect_nodes!("input" => a => b => … =>
"output")`. -/
def chainStages (fromInput : Bool) (ds : List (Dsp P)) : List Stage :=
  (if fromInput then [.input] else []) ++ ds.map (fun d => .node ⟨d.id, d.outputCount⟩) ++ [.output]

/-- The connection that an arrow between two stages shows. -/
def Stage.arrow : Stage → Stage → Option (ApiCall P C)
  | .input, .node d => some (.connectToInput d)
  | .node s, .node d => some (.connectTo s d)
  | .node s, .output => some (.connectToOutput s)
  | _, _ => none

/-- A program that makes some nodes, connects them in a row to the system output, and possibly to the system input,
and starts the engine. -/
def chainProgram (fromInput : Bool) (ds : List (Dsp P)) : List (ApiCall P C) :=
  ds.map (fun d => .create d.id d.inputCount d.outputCount d.state) ++
    (connectNodes (chainStages fromInput ds)).getD [] ++ [.start]

/-- The process calls of such a program, when `changes i` are the requests to the nodes before call `i`; the number of
outputs of a handle does not matter for a request. -/
def PlaysChain (fromInput : Bool) (ds : List (Dsp P)) (changes : Nat → List (Id × C)) (ks : List (Call S P C)) :
    Prop :=
  ∀ i k, ks[i]? = some k → k.commands.map Prod.fst =
    (if i = 0 then (chainProgram fromInput ds).map ApiCall.command else []) ++
      (changes i).map fun x => (ApiCall.change ⟨x.1, 0⟩ x.2).command

/-- The input of some process calls, one after the other; silence when it is not used, on the channels that the
engine does not have, and at the end. -/
def sessionInput [Zero S] (fromInput : Bool) (maxChannels : Nat) : List (Call S P C) → Nat → Nat → S
  | [] => silence
  | k :: ks => followed k.output.frameCount
      (fun c f => if fromInput = true ∧ c < maxChannels then k.input.sampleOrSilence c f else 0)
      (sessionInput fromInput maxChannels ks)

/-- What happens to the nodes in some process calls of an engine, from its first: in
each the requests, then the blocks. -/
inductive ChainHistory (full sampleRate : Nat) (changes : Nat → List (Id × C)) :
    List (Call S P C) → List (ChainEvent C) → Prop
  | nil : ChainHistory full sampleRate changes [] []
  | snoc {ks : List (Call S P C)} {es : List (ChainEvent C)} (k : Call S P C) (blocks : List (Int × Nat)) :
      ChainHistory full sampleRate changes ks es →
      BlocksOf full sampleRate (framesIn ks) k.output.frameCount blocks →
      ChainHistory full sampleRate changes (ks ++ [k])
        (es ++ (changes ks.length).map (fun x => .change x.1 x.2) ++ blocks.map fun b => .block b.1 b.2)

/-- The values of the gain of node `i` of a row of gain nodes, whose parameter is `p` at first. -/
noncomputable def gainTrack (sampleRate : Nat) (i : Id) :
    RealtimeParameter ℝ → List (ChainEvent (ParameterChange ℝ)) → List ℝ
  | _, [] => []
  | p, .change j c :: es => gainTrack sampleRate i (if j = i then p.addChange c else p) es
  | p, .block t n :: es =>
    (p.process realArith t n sampleRate).1 ++ gainTrack sampleRate i (p.process realArith t n sampleRate).2 es

end Rawdio
