import Verif.Base.Outcome
import Verif.Model.Stream

/-
Model of the network graph: src/net/NetGraph.cpp, include/cn24/net/NetGraph.h,
include/cn24/net/NetGraphNode.h.

Node objects are numbers (their addresses); a heap gives their contents.  Null pointers do not
occur: `AddNode` throws for them.  A layer is represented by what the graph functions look at.
-/

namespace CN24.Net

/-- `NetGraphConnection` (include/cn24/net/NetGraph.h:31-38). -/
structure Conn where
  node : Nat
  buffer : Nat := 0
  backprop : Bool := true
  deriving DecidableEq, Repr

/-- `NetGraphBackpropConnection` (include/cn24/net/NetGraph.h:40-45). -/
structure BConn where
  node : Nat
  buffer : Nat
  deriving DecidableEq, Repr

/-- `NetGraphNode` (include/cn24/net/NetGraphNode.h:31-63).  `buffers` is
`output_buffers.size()`, `isGA` tells whether the layer is a `GradientAccumulationLayer`, `named`
whether `unique_name` is not empty. -/
structure Node where
  inputs : List Conn := []
  bps : List BConn := []
  buffers : Nat := 1
  isInput : Bool := false
  isOutput : Bool := false
  isGA : Bool := false
  named : Bool := false
  deriving DecidableEq, Repr

/-- A graph: the node objects of the program, `nodes_` (include/cn24/net/NetGraph.h:94) and the
address of the next node object that will be created. -/
structure Graph where
  heap : Nat → Node
  nodes : List Nat := []
  next : Nat := 0

/-- Assignment to a node object. -/
def setNode (h : Nat → Node) (n : Nat) (v : Node) : Nat → Node := fun k => if k = n then v else h k

/-- `NetGraph::AddNode` (src/net/NetGraph.cpp:24-69).  The registries of input, output, statistics,
loss and training nodes are left out.  The loop over the connections first registers the
back-propagating ones at their sources and then, in the same order, clears the flag of those that
come from input nodes; the two steps touch different fields, so they are written one after the
other here. -/
def addNode (g : Graph) (n : Nat) : Graph :=
  let cs := (g.heap n).inputs
  let h1 := setNode g.heap n { g.heap n with named := true }
  let h2 := cs.foldl (fun h c =>
    if c.backprop && !(h c.node).isInput then
      setNode h c.node { h c.node with bps := (h c.node).bps ++ [⟨n, c.buffer⟩] }
    else h) h1
  let h3 := setNode h2 n { h2 n with inputs := cs.map fun c =>
    if c.backprop && (g.heap c.node).isInput then { c with backprop := false } else c }
  { g with heap := h3, nodes := g.nodes ++ [n] }

/-- `NetGraph::IsComplete` (src/net/NetGraph.cpp:78-147).  The membership test looks for the node
itself (line 88), not for the node the connection leads to, and only logs. -/
def isComplete (g : Graph) : Bool :=
  let okay := g.nodes.all fun n =>
    ((g.heap n).inputs.all fun c =>
      if n ∉ g.nodes then true else decide (c.buffer < (g.heap c.node).buffers)) &&
    (g.heap n).named && !((g.heap n).isInput && (g.heap n).isOutput)
  okay && g.nodes.any (fun n => (g.heap n).isInput) && g.nodes.any (fun n => (g.heap n).isOutput)

/-! ### Insertion of gradient accumulation nodes -/

/-- The inner loop of the redirection (src/net/NetGraph.cpp:227-233): connections from `s`, buffer
`k`, are moved to `ga`; `k` is the current value of `backprop_connection.buffer`, `b` the next
buffer of the accumulation node. -/
def redirect (s ga : Nat) : List Conn → Nat → Nat → List Conn × Nat × Nat
  | [], k, b => ([], k, b)
  | c :: cs, k, b =>
    if c.node = s ∧ c.buffer = k ∧ c.backprop = true then
      let r := redirect s ga cs b (b + 1)
      ({ c with node := ga, buffer := b } :: r.1, r.2)
    else
      let r := redirect s ga cs k b
      (c :: r.1, r.2)

/-- The outer loop (src/net/NetGraph.cpp:225-236). -/
def redirectAll (s ga : Nat) : List BConn → (Nat → Node) → Nat → (Nat → Node)
  | [], h, _ => h
  | e :: es, h, b =>
    if e.node ≠ ga then
      let r := redirect s ga (h e.node).inputs e.buffer b
      let h1 := setNode h e.node { h e.node with inputs := r.1 }
      let h2 := setNode h1 ga { h1 ga with bps := (h1 ga).bps ++ [⟨e.node, r.2.1⟩] }
      redirectAll s ga es h2 r.2.2
    else redirectAll s ga es h b

/-- The body of the loop over the nodes in `NetGraph::Initialize`
(src/net/NetGraph.cpp:214-243); the result tells whether a node was inserted. -/
def insertGA (g : Graph) (s : Nat) : Bool × Graph :=
  if (g.heap s).bps.length > 1 ∧ (g.heap s).isGA = false then
    let ga := g.next
    let node : Node := { inputs := [{ node := s }], buffers := (g.heap s).bps.length, isGA := true }
    let g1 := addNode { g with heap := setNode g.heap ga node, next := g.next + 1 } ga
    let h := redirectAll s ga (g1.heap s).bps g1.heap 0
    let h' := setNode h s { h s with bps := (h s).bps.filter fun e => e.node = ga }
    (true, { g1 with heap := h' })
  else (false, g)

/-- One round of the `do` loop (src/net/NetGraph.cpp:210-245), over a copy of the node list. -/
def insertPass (g : Graph) : Bool × Graph :=
  g.nodes.foldl (fun st n => let r := insertGA st.2 n; (st.1 || r.1, r.2)) (false, g)

/-- The `do ... while` loop of `NetGraph::Initialize` (src/net/NetGraph.cpp:209-245); `none` if it
has not ended after `fuel` rounds. -/
def insertAll : Nat → Graph → Option Graph
  | 0, _ => none
  | fuel + 1, g =>
    let r := insertPass g
    if r.1 then insertAll fuel r.2 else some r.2

/-! ### Traversals -/

/-- The visited flags of the nodes and the layer calls made so far. -/
structure Visit (ε : Type) where
  visited : Nat → Bool
  log : List ε

/-- `NetGraph::FeedForward(NetGraphNode*)` (src/net/NetGraph.cpp:305-340): the log records the calls
of `Layer::FeedForward`.  `none`: the recursion is deeper than `fuel`.  `PrepareNode` has no effect
in builds without OpenCL. -/
def ffNode (h : Nat → Node) : Nat → Nat → Visit Nat → Option (Visit Nat)
  | 0, _, _ => none
  | fuel + 1, n, st =>
    if st.visited n then some st
    else
      ((h n).inputs.foldlM (fun st c => ffNode h fuel c.node st) st).map fun st =>
        { visited := fun k => if k = n then true else st.visited k, log := st.log ++ [n] }

/-- `NetGraph::FeedForward()` (src/net/NetGraph.cpp:292-303), starting from arbitrary flags. -/
def feedForward (g : Graph) (fuel : Nat) (flags : Nat → Bool) : Option (Visit Nat) :=
  g.nodes.foldlM (fun st n => ffNode g.heap fuel n st)
    { visited := fun n => if n ∈ g.nodes then false else flags n, log := [] }

/-- `NetGraph::BackPropagate(NetGraphNode*)` (src/net/NetGraph.cpp:355-381): the log records the
calls of `Layer::BackPropagate` with the value passed to `SetBackpropagationEnabled` before. -/
def bpNode (h : Nat → Node) : Nat → Nat → Visit (Nat × Bool) → Option (Visit (Nat × Bool))
  | 0, _, _ => none
  | fuel + 1, n, st =>
    if st.visited n then some st
    else
      ((h n).bps.foldlM (fun st c => bpNode h fuel c.node st) st).map fun st =>
        let doBackprop := (h n).inputs.foldl (fun d c => d || c.backprop) false
        { visited := fun k => if k = n then true else st.visited k,
          log := st.log ++ [(n, doBackprop)] }

/-- `NetGraph::BackPropagate()` (src/net/NetGraph.cpp:342-353). -/
def backPropagate (g : Graph) (fuel : Nat) (flags : Nat → Bool) : Option (Visit (Nat × Bool)) :=
  g.nodes.foldlM (fun st n => bpNode g.heap fuel n st)
    { visited := fun n => if n ∈ g.nodes then false else flags n, log := [] }

/-- `NetGraph::InitializeNode` (src/net/NetGraph.cpp:253-290): the log records the calls of
`CreateOutputs` and `Connect`, which are made one after the other and succeed (otherwise the
function throws). -/
def initNode (h : Nat → Node) : Nat → Nat → Visit Nat → Option (Visit Nat)
  | 0, _, _ => none
  | fuel + 1, n, st =>
    if st.visited n then some st
    else
      ((h n).inputs.foldlM (fun st c => initNode h fuel c.node st) st).map fun st =>
        { visited := fun k => if k = n then true else st.visited k, log := st.log ++ [n] }

/-- The second loop of `NetGraph::Initialize` (src/net/NetGraph.cpp:247-249); the flags
`initialized` are never reset. -/
def initNodes (g : Graph) (fuel : Nat) (flags : Nat → Bool) : Option (Visit Nat) :=
  g.nodes.foldlM (fun st n => initNode g.heap fuel n st) { visited := flags, log := [] }

/-- `NetGraph::InitializeWeights(NetGraphNode*)` (src/net/NetGraph.cpp:434-445): the log records the
calls of `OnLayerConnect` with the nodes whose layers are passed. -/
def weightNode (h : Nat → Node) : Nat → Nat → Visit (Nat × List Nat) →
    Option (Visit (Nat × List Nat))
  | 0, _, _ => none
  | fuel + 1, n, st =>
    if st.visited n then some st
    else
      ((h n).bps.foldlM (fun st c => weightNode h fuel c.node st) st).map fun st =>
        { visited := fun k => if k = n then true else st.visited k,
          log := st.log ++ [(n, (h n).bps.map (·.node))] }

/-- `NetGraph::InitializeWeights()` (src/net/NetGraph.cpp:423-432), without the final clearing of
the flags. -/
def initializeWeights (g : Graph) (fuel : Nat) (flags : Nat → Bool) :
    Option (Visit (Nat × List Nat)) :=
  g.nodes.foldlM (fun st n => weightNode g.heap fuel n st)
    { visited := fun n => if n ∈ g.nodes then false else flags n, log := [] }

/-! ### Saving and loading parameters -/

/-- `NetGraph::SerializeParameters` (src/net/NetGraph.cpp:392-400): the bytes written for the
parameters of the nodes, given in node order. -/
def serializeParameters (net : List (List (Tensor F32))) : List Byte :=
  net.flatMap fun ps => ps.flatMap Tensor.serialize

/-- The inner loop of `NetGraph::DeserializeParameters` (src/net/NetGraph.cpp:408-419) over the
parameters of one layer.  `Tensor::Deserialize` replaces the contents of the parameter whatever
they were. -/
def loadLayer : List (Tensor (Option F32)) → IStream → List (Tensor (Option F32)) × IStream
  | [], s => ([], s)
  | p :: ps, s =>
    if s.good = false ∨ s.eof = true then (p :: ps, s)
    else
      let r := Tensor.deserialize false false s
      let q := loadLayer ps r.2.peek
      (r.1 :: q.1, q.2)

/-- The outer loop (src/net/NetGraph.cpp:406-420): `count` nodes are left to be loaded. -/
def loadLayers : Nat → List (List (Tensor (Option F32))) → IStream →
    Option (List (List (Tensor (Option F32))) × IStream)
  | 0, net, s => some (net, s)
  | _ + 1, [], _ => none
  | k + 1, ps :: net, s =>
    let r := loadLayer ps s
    (loadLayers k net r.2).map fun q => (r.1 :: q.1, q.2)

/-- `NetGraph::DeserializeParameters` (src/net/NetGraph.cpp:402-421).  `none`: `nodes_` is accessed
out of range, which happens when there are no nodes (`nodes_.size() - 1` wraps around). -/
def deserializeParameters (net : List (List (Tensor (Option F32)))) (s : IStream) (lastLayer : Nat) :
    Option (List (List (Tensor (Option F32))) × IStream) :=
  let last := if lastLayer = 0 ∨ lastLayer ≥ net.length
    then (if net.length = 0 then 2 ^ 32 - 1 else net.length - 1) else lastLayer
  loadLayers (last + 1) net s

end CN24.Net
