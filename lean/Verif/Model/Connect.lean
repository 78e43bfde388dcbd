import Verif.Model.Client

/-!
# `graph/connect_nodes.rs`: the macro `connect_nodes!`
-/

namespace Rawdio

/-- What stands between the arrows of `connect_nodes!`, `graph/connect_nodes.rs:11-18`. -/
inductive Stage
  | input
  | node (n : GraphNode)
  | output

/-- `connect_nodes!`, `graph/connect_nodes.rs:9-22`: the calls it expands to; `none` if no rule matches or the
expansion does not compile. -/
def connectNodes {P C : Type} : List Stage → Option (List (ApiCall P C))
  | [.input, .node d] => some [.connectToInput d]
  | .input :: .node d :: next :: rest =>
    (connectNodes (.node d :: next :: rest)).map (.connectToInput d :: ·)
  | [.node s, .output] => some [.connectToOutput s]
  | [.node s, .node d] => some [.connectTo s d]
  | .node s :: .node d :: next :: rest => (connectNodes (.node d :: next :: rest)).map (.connectTo s d :: ·)
  | _ => none

end Rawdio
