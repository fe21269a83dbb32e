import Verif.Model.Layers
import Verif.Base.Outcome

/-
Model of the layer that feeds a network from tensors of the user, and of how a node of the graph gets its buffers:
src/net/InputLayer.cpp, include/cn24/net/InputLayer.h, src/net/SimpleLayer.cpp, src/net/DatasetInputLayer.cpp:62-140,
src/net/NetGraph.cpp:265-285, with the parts of src/util/Tensor.cpp that they need (host build).

Unlike in the value model of `Tensor`, tensors here are objects that point to blocks of memory, because the layer shares
the blocks of the user's tensors.
-/

namespace CN24.Input

/-- A tensor object: its dimensions and its data pointer (include/cn24/util/Tensor.h:293-331), which is the number of a block,
`none` the null pointer. -/
structure Obj where
  shape : Shape
  block : Option Nat
  deriving DecidableEq, Repr

/-- The object after the default constructor (src/util/Tensor.cpp:36-38). -/
def Obj.empty : Obj := ⟨⟨0, 0, 0, 0⟩, none⟩

/-- The blocks obtained so far.  A released block is `none`, an element that was never written is `none` in its block. -/
structure Mem (D : Type _) where
  blocks : List (Option (List (Option D)))
  deriving DecidableEq

variable {D : Type _}

/-- The allocating part of `Tensor::Resize` (src/util/Tensor.cpp:142-166) for a tensor without a block: `new datum[]` does not
initialise, a tensor without elements keeps the zero dimensions and the null pointer. -/
def Mem.alloc (m : Mem D) (s : Shape) : Mem D × Obj :=
  if s.elements = 0 then (m, Obj.empty)
  else (⟨m.blocks ++ [some (List.replicate s.elements none)]⟩, ⟨s, some m.blocks.length⟩)

/-- `delete[]` (src/util/Tensor.cpp:408): undefined unless the block is allocated; the null pointer is not deleted
(src/util/Tensor.cpp:396). -/
def Mem.free (m : Mem D) : Option Nat → Option (Mem D)
  | none => some m
  | some b =>
    match m.blocks[b]? with
    | some (some _) => some ⟨m.blocks.set b none⟩
    | _ => none

/-- Reading element `e` through the data pointer; undefined outside the block and for a released block.  The result is `none`
if the element was never written. -/
def Mem.read (m : Mem D) (o : Obj) (e : Nat) : Option (Option D) :=
  o.block.bind fun b =>
    match m.blocks[b]? with
    | some (some l) => l[e]?
    | _ => none

/-- Writing element `e` through the data pointer. -/
def Mem.write (m : Mem D) (o : Obj) (e : Nat) (v : D) : Option (Mem D) :=
  o.block.bind fun b =>
    match m.blocks[b]? with
    | some (some l) => if e < l.length then some ⟨m.blocks.set b (some (l.set e (some v)))⟩ else none
    | _ => none

/-- `Tensor::Resize` (src/util/Tensor.cpp:132-166) with the `Reshape` it tries first (174-194), for a tensor that owns its
block. -/
def Mem.resize (m : Mem D) (o : Obj) (s : Shape) : Option (Mem D × Obj) :=
  if o.block ≠ none ∧ o.shape.elements = s.elements then some (m, ⟨s, o.block⟩)
  else (m.free o.block).map fun m => m.alloc s

/-- `CombinedTensor` (include/cn24/util/CombinedTensor.h:38-46): two tensors. -/
structure Comb where
  data : Obj
  delta : Obj
  deriving DecidableEq, Repr

/-- The constructor (include/cn24/util/CombinedTensor.h:38-43). -/
def Mem.combined (m : Mem D) (s : Shape) : Mem D × Comb :=
  let (m, data) := m.alloc s
  let (m, delta) := m.alloc s
  (m, ⟨data, delta⟩)

/-- A combined tensor of the dimensions of the user's tensor whose data then shadows it (src/net/InputLayer.cpp:26-34,
src/util/Tensor.cpp:111-122).  Simplified: the block that the data tensor gets first and that `Shadow` releases again
is left out. -/
def Mem.shadowing (m : Mem D) (t : Obj) : Mem D × Comb :=
  let (m, delta) := m.alloc t.shape
  (m, ⟨t, delta⟩)

/-- The members (include/cn24/net/InputLayer.h:61-64); `label_` and `weight_` may be null. -/
structure Layer where
  data : Comb
  label : Option Comb
  helper : Comb
  weight : Option Comb
  deriving DecidableEq, Repr

/-- `InputLayer(data, helper)` (src/net/InputLayer.cpp:18-37). -/
def make2 (m : Mem D) (data helper : Obj) : Outcome (Mem D × Layer) :=
  if data.shape.samples ≠ helper.shape.samples then .fatal
  else
    let (m, d) := m.shadowing data
    let (m, h) := m.shadowing helper
    .done (m, ⟨d, none, h, none⟩)

/-- `InputLayer(data)` (src/net/InputLayer.cpp:13-16): a helper tensor is allocated, never written and never deleted. -/
def make1 (m : Mem D) (data : Obj) : Outcome (Mem D × Layer) :=
  let (m, helper) := m.alloc ⟨data.shape.samples, data.shape.width, data.shape.height, 2⟩
  make2 m data helper

/-- `InputLayer(data, label, helper, weight)` (src/net/InputLayer.cpp:39-77). -/
def make4 (m : Mem D) (data label helper weight : Obj) : Outcome (Mem D × Layer) :=
  if data.shape.samples ≠ helper.shape.samples then .fatal
  else if data.shape.samples ≠ label.shape.samples then .fatal
  else if data.shape.samples ≠ weight.shape.samples then .fatal
  else
    let (m, d) := m.shadowing data
    let (m, l) := m.shadowing label
    let (m, h) := m.shadowing helper
    let (m, w) := m.shadowing weight
    .done (m, ⟨d, some l, h, some w⟩)

/-- `InputLayer::CreateOutputs` (src/net/InputLayer.cpp:137-163): `none` if it returns false. -/
def createOutputs (m : Mem D) (l : Layer) (inputs : List (Option Comb)) : Option (Mem D × List (Option Comb)) :=
  if inputs.length ≠ 0 then none
  else
    let (m, label) := match l.label with
      | some c => (m, c)
      | none => m.combined ⟨l.data.data.shape.samples, 1, 1, 1⟩
    let (m, weight) := match l.weight with
      | some c => (m, c)
      | none => m.combined l.data.data.shape
    some (m, [some l.data, some label, some l.helper, some weight])

/-- `InputLayer::Connect` (src/net/InputLayer.cpp:79-135); `none` is the null pointer.  The check of the sizes is
commented out. -/
def inputConnect (inputs outputs : List (Option Comb)) : Bool :=
  if inputs.length ≠ 0 then false
  else if outputs.length ≠ 4 ∧ outputs.length ≠ 3 then false
  else if 3 < outputs.length ∧ outputs[3]? = some none then false
  else if outputs[0]? = some none ∨ outputs[1]? = some none ∨ outputs[2]? = some none then false
  else true

/-- `enum Method`, the kind of a dataset (include/cn24/util/Dataset.h:30). -/
inductive Method
  | patch
  | fcn
  deriving DecidableEq, Repr

/-- `DatasetInputLayer::CreateOutputs` (src/net/DatasetInputLayer.cpp:62-114). -/
def datasetOutputs (m : Mem D) (method : Method) (batch width height inputMaps labelMaps : Nat) (inputs : List (Option Comb)) :
    Option (Mem D × List (Option Comb)) :=
  if inputs.length ≠ 0 then none
  else
    let (w, h) := match method with
      | .fcn => (width, height)
      | .patch => (1, 1)
    let (m, data) := m.combined ⟨batch, width, height, inputMaps⟩
    let (m, label) := m.combined ⟨batch, w, h, labelMaps⟩
    let (m, helper) := m.combined ⟨batch, w, h, 2⟩
    let (m, error) := m.combined ⟨batch, w, h, 1⟩
    some (m, [some data, some label, some helper, some error])

/-- `DatasetInputLayer::Connect` (src/net/DatasetInputLayer.cpp:116-140): the elements of the vector are read before its
length is checked; the helper pointer is not checked. -/
def datasetConnect (inputs outputs : List (Option Comb)) : Outcome Bool :=
  match outputs[0]?, outputs[1]?, outputs[2]?, outputs[3]? with
  | some data, some label, some _, some error =>
    if data = none ∨ label = none ∨ error = none then .done false
    else .done (inputs.length = 0 ∧ outputs.length = 4)
  | _, _, _, _ => .undefined

/-- `SimpleLayer::Connect` (src/net/SimpleLayer.cpp:16-46): the members `input_` and `output_` afterwards and the result; `accept` is
the check of the derived class. -/
def simpleConnect (accept : Comb → Comb → Bool) (members : Option Comb × Option Comb) (inputs outputs : List (Option Comb)) :
    (Option Comb × Option Comb) × Bool :=
  if inputs.length ≠ 1 then (members, false)
  else if outputs.length ≠ 1 then (members, false)
  else match inputs[0]?, outputs[0]? with
    | some (some i), some (some o) => if accept i o then ((some i, some o), true) else (members, false)
    | _, _ => (members, false)

/-- The part of `NetGraph::InitializeNode` behind the inputs (src/net/NetGraph.cpp:265-285): `create` is `CreateOutputs`,
`connect` is `Connect`, `buffers` the number of buffers that the layer described when the node was constructed.  The message for a
layer that creates no outputs prints the first input, which does not have to exist. -/
def initNode (create : List (Option Comb) → Option (Mem D × List (Option Comb)))
    (connect : List (Option Comb) → List (Option Comb) → Outcome Bool) (buffers : Nat) (inputs : List (Option Comb)) :
    Outcome (Mem D × List (Option Comb)) :=
  match create inputs with
  | none =>
    match inputs[0]? with
    | some (some _) => .fatal
    | _ => .undefined
  | some (m, outputs) =>
    if outputs.length ≠ buffers then .fatal
    else (connect inputs outputs).bind fun ok => if ok then .done (m, outputs) else .fatal

/-! ### The user's program -/

/-- The tensors of the user, by name, and the memory. -/
structure World (D : Type _) where
  mem : Mem D
  users : Nat → Obj

/-- The program starts without tensors. -/
def World.start : World D := ⟨⟨[]⟩, fun _ => Obj.empty⟩

/-- What the user does with their tensors: writing an element and `Resize`, which also creates (a constructor with
dimensions, src/util/Tensor.cpp:81-84) and, with zero elements, empties a tensor. -/
inductive Op (D : Type _)
  | write (name e : Nat) (v : D)
  | resize (name : Nat) (s : Shape)

def exec (w : World D) : Op D → Option (World D)
  | .write n e v => (w.mem.write (w.users n) e v).map fun m => { w with mem := m }
  | .resize n s => (w.mem.resize (w.users n) s).map fun r => ⟨r.1, fun k => if k = n then r.2 else w.users k⟩

/-- Several operations. -/
def run (ops : List (Op D)) (w : World D) : Option (World D) := ops.foldlM exec w

end CN24.Input
