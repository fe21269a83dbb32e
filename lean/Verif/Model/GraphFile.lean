import Verif.Model.Config
import Verif.Model.NetGraph

/-
Model of the names of nodes and of the description of a network as a file for Graphviz: `NetGraph::AddNode`,
`NetGraph::PrintGraph` (src/net/NetGraph.cpp) and the commands of the training tool that use them
(tools/trainNetwork.cpp).
-/

namespace CN24.GraphFile
open CN24 CN24.Config

/-- `NetGraphBuffer` (include/cn24/net/NetGraph.h:47-51).  `tensor`: the sizes (samples, width, height, maps) of
`combined_tensor`, `none` for a null pointer (before `Initialize`). -/
structure Buffer where
  description : Str
  tensor : Option (Nat × Nat × Nat × Nat)

/-- What `PrintGraph` reads of a `NetGraphNode` (include/cn24/net/NetGraphNode.h:31-63); `description` is
`layer->GetLayerDescription()`. -/
structure Node where
  name : Str := []
  description : Str := []
  isInput : Bool := false
  isOutput : Bool := false
  buffers : List Buffer := []
  inputs : List Net.Conn := []

/-- `NetGraph` (include/cn24/net/NetGraph.h:94-103): node objects by address, `nodes_` and `last_uid + 1`. -/
structure Graph where
  heap : Nat → Node
  nodes : List Nat := []
  nextUid : Nat := 0

/-- The part of `NetGraph::AddNode` that names the node and adds it to the list (src/net/NetGraph.cpp:36-44).  The
connections are the subject of `Net.addNode`; `last_uid` does not overflow. -/
def addNode (g : Graph) (n : Nat) : Graph :=
  if (g.heap n).name.length = 0 then
    { heap := fun k => if k = n then { g.heap n with name := "node".toList ++ digitsOf g.nextUid } else g.heap k
      nodes := g.nodes ++ [n]
      nextUid := g.nextUid + 1 }
  else { g with nodes := g.nodes ++ [n] }

/-- `operator<<` for tensors (src/util/Tensor.cpp:704-707). -/
def tensorText (t : Nat × Nat × Nat × Nat) : Str :=
  "(".toList ++ digitsOf t.1 ++ "s@".toList ++ digitsOf t.2.1 ++ "x".toList ++ digitsOf t.2.2.1 ++ "x".toList ++
    digitsOf t.2.2.2 ++ "m)".toList

/-- The loop over more than one output buffer (src/net/NetGraph.cpp:174-178), from buffer `i` on. -/
def bufferTexts : Nat → List Buffer → Option Str
  | _, [] => some []
  | i, b :: bs =>
    b.tensor.bind fun t => (bufferTexts (i + 1) bs).map fun rest =>
      (if i > 0 then "|".toList else []) ++ "<o".toList ++ digitsOf i ++ ">".toList ++ b.description ++ " ".toList ++
        tensorText t ++ rest

/-- The label of a node without the quotation marks (src/net/NetGraph.cpp:170-184); `none`: access through a null
pointer. -/
def label (n : Node) : Option Str :=
  (match n.buffers with
    | [] => some []
    | [b] => b.tensor.map fun t => "| <o0> ".toList ++ b.description ++ " ".toList ++ tensorText t
    | b :: c :: bs => (bufferTexts 0 (b :: c :: bs)).map fun s => "| {".toList ++ s ++ "}".toList).map fun s =>
  "{ <i> ".toList ++ n.name ++ ": ".toList ++ n.description ++ s ++ "}".toList

/-- Details of a node (src/net/NetGraph.cpp:160-184). -/
def nodeText (n : Node) : Option Str :=
  (label n).map fun l =>
    n.name ++ " [shape=record,".toList ++ (if n.isInput then "color=red,".toList else []) ++
      (if n.isOutput then "color=blue,".toList else []) ++ " label=\"".toList ++ l ++ "\"];\n".toList

/-- The edge of a connection (src/net/NetGraph.cpp:187-194). -/
def edgeText (heap : Nat → Node) (n : Node) (c : Net.Conn) : Str :=
  (heap c.node).name ++ ":o".toList ++ digitsOf c.buffer ++ " -> ".toList ++ n.name ++ ":i".toList ++
    "[penwidth=2".toList ++ (if c.backprop then [] else ",style=dotted".toList) ++ "];\n".toList

/-- The loop over the nodes (src/net/NetGraph.cpp:158-201): the texts of the nodes and of the edges. -/
def texts (heap : Nat → Node) : List Nat → Option (Str × Str)
  | [] => some ([], [])
  | n :: ns =>
    (nodeText (heap n)).bind fun a => (texts heap ns).map fun r =>
      (a ++ r.1, (heap n).inputs.flatMap (edgeText heap (heap n)) ++ r.2)

/-- `NetGraph::PrintGraph` (src/net/NetGraph.cpp:149-205). -/
def printGraph (g : Graph) : Option Str :=
  if g.nodes.length = 0 then some []
  else (texts g.heap g.nodes).map fun r => "graph [ranksep=.75, esep=1];".toList ++ r.1 ++ r.2

/-- The command `graph` with a file name (tools/trainNetwork.cpp:426-435). -/
def graphFile (g : Graph) : Option Str :=
  (printGraph g).map fun s => "digraph G {".toList ++ s ++ "}".toList

/-- The nodes that the commands `wstat` and `dstat` report on (tools/trainNetwork.cpp:441-442, 457-458). -/
def reported (g : Graph) (uid : Str) : List Nat := g.nodes.filter fun n => (g.heap n).name = uid

end CN24.GraphFile
