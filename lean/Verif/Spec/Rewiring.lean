import Verif.Spec.Network

/-!
# Specification of a network that changes while it plays

Nodes come and go, connections are made and undone, and the engine is started and stopped, before any process call. In
each process call the connections are equations between the signals of the nodes that there are, and every node goes on
from where the calls before left it.
-/

namespace Rawdio
namespace Network

variable {S P C : Type}

/-- All that a program has done by process call `m`. -/
def upTo (program : Nat → List (ApiCall P C)) (m : Nat) : List (ApiCall P C) := (List.range (m + 1)).flatMap program

/-- Whether a program has started the engine, and not stopped it since. -/
def started (program : List (ApiCall P C)) : Bool :=
  (program.reverse.findSome? fun c => match c with
    | .start => some true
    | .stop => some false
    | _ => none).getD false

/-- What a program holds after some calls. -/
def holding (program : List (ApiCall P C)) : Holding := Holding.empty.afterAll program

/-- A node is there after some calls of a program. -/
def There (program : List (ApiCall P C)) (i : Id) : Prop := ∃ x ∈ (holding program).nodes, x.id = i

/-- The frames that some process calls play, from the first process call on: those of the calls in which the engine
is running. -/
def played (program : Nat → List (ApiCall P C)) (ks : List (Call S P C)) : Nat :=
  (ks.zipIdx.map fun k => if started (upTo program k.2) = true then k.1.output.frameCount else 0).sum

/-- No two nodes have the same identity, whether they are there at the same time or not. -/
def Unique (program : Nat → List (ApiCall P C)) : Prop :=
  ∀ m, ((made (upTo program m)).map Dsp.id).Nodup

/-- What happens to the nodes in each process call: the requests, and then the blocks if the engine is running. -/
structure Happens (full sampleRate : Nat) (program : Nat → List (ApiCall P C)) (ks : List (Call S P C))
    (es : List (List (ChainEvent C))) : Prop where
  length : es.length = ks.length
  call : ∀ (m : Nat) (k : Call S P C) (e : List (ChainEvent C)), ks[m]? = some k → es[m]? = some e → ∃ blocks : List (Int × Nat),
    e = (requests (program m)).map (fun x => .change x.1 x.2) ++ blocks.map (fun b => .block b.1 b.2) ∧
    if started (upTo program m) = true then
      BlocksOf full sampleRate (played program (ks.take m)) k.output.frameCount blocks
    else blocks = []

/-- The signals of a network that changes: `x` goes into the nodes and `sig` comes out of them, where frames are
counted while the engine is running. In process call `m`, what goes into a node is what the connections that there are
then bring, and there is nothing from a node that is not there. A node that is made before process call `m` and still
there at process call `n` turns what goes into it over these calls into what comes out of it, beginning with the state
in which it is made. -/
structure Changing [Zero S] [Add S] (ops : NodeOps S P C) (maxChannels sampleRate : Nat)
    (program : Nat → List (ApiCall P C)) (ks : List (Call S P C)) (es : List (List (ChainEvent C)))
    (x sig : Signals S) : Prop where
  goesIn : ∀ m k, ks[m]? = some k → started (upTo program m) = true → ∀ n c f, f < k.output.frameCount →
    x n c (played program (ks.take m) + f) = arriving (holding (upTo program m)).links (input (upTo program m))
      (fun c _ => if c < maxChannels then k.input.sampleOrSilence c f else 0) sig n c (played program (ks.take m) + f)
  absent : ∀ m k, ks[m]? = some k → started (upTo program m) = true → ∀ n, ¬ There (upTo program m) n →
    ∀ c f, f < k.output.frameCount → sig n c (played program (ks.take m) + f) = 0
  comesOut : ∀ m n, m ≤ n → n < ks.length → ∀ d ∈ made (program m), There (upTo program n) d.id →
    ∃ y d', chainRun ops sampleRate [d] ((es.take (n + 1)).drop m).flatten
        (later (played program (ks.take m)) (x d.id)) = .ok (y, [d']) ∧
      ∀ c f, played program (ks.take m) + f < played program (ks.take (n + 1)) →
        y c f = sig d.id c (played program (ks.take m) + f)

end Network
end Rawdio
