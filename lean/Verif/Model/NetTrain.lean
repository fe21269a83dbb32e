import Verif.Model.NetConfig
import Verif.Model.GradientLayers

/-
The network made from a description as a network that is trained: the nodes that `AddLayers` hands to the
graph, behind the node of the data layer, and what their layers compute in the two passes.

The data layer is node 0 and the nodes of the factory follow in the order of their creation
(src/factory/ConfigurableFactory.cpp:153-502, tools/trainNetwork.cpp:122-163).  The layers for statistics that the tool adds
afterwards (tools/trainNetwork.cpp:273-290) are left out: they have no outputs and no loss and their connections
carry no gradients.  The parameters are those a
trainer changes; rounding is not modelled.
-/

namespace CN24.NetTrain
open CN24 CN24.NetConfig CN24.Net

/-- The node object of a new layer before `AddNode`; the number of output buffers is that of
`CreateOutputs` (src/net/NetGraph.cpp:247-290). -/
def nodeOf {D : Type _} (n : NewNode D) : Net.Node :=
  { inputs := n.inputs, isOutput := n.isOutput, buffers := match n.layer with
    | .error _ => 0
    | _ => 1 }

/-- The node objects: the data layer with its four buffers (image, labels, helper, weights,
src/net/DatasetInputLayer.cpp:62-92), and the layers. -/
def netOf {D : Type _} (nodes : List (NewNode D)) : Graph where
  heap := fun
    | 0 => { isInput := true, buffers := 4 }
    | k + 1 => match nodes[k]? with
      | some n => nodeOf n
      | none => {}
  next := nodes.length + 1

/-- The order of the calls of `AddNode`. -/
def order {D : Type _} (nodes : List (NewNode D)) : List Nat := List.range (nodes.length + 1)

/-- The graph after all calls of `AddNode` (src/net/NetGraph.cpp:24-69). -/
def graphOf {D : Type _} (nodes : List (NewNode D)) : Graph := (order nodes).foldl addNode (netOf nodes)

/-- The shape of the tensor a connection leads to; zero for connections that lead nowhere. -/
def shapeAt (ds : List Shape) (known : List (List Shape)) (c : Conn) : Shape :=
  if c.node = 0 then ds.getD c.buffer ⟨0, 0, 0, 0⟩ else (known.getD (c.node - 1) []).getD c.buffer ⟨0, 0, 0, 0⟩

/-- The convolution layer after `Connect` (src/net/ConvolutionLayer.cpp:146-200). -/
noncomputable def convolution (p : Convolution.Params) (dropout : ℝ) (a o : Shape) : Convolution.Layer ℝ :=
  .connect p dropout a.samples a.width a.height a.maps o.width o.height

/-- A layer that computes nothing. -/
def idle : LayerSem where
  forward _ _ _ := 0
  loss _ _ := 0
  backward _ _ _ _ _ := (fun _ => none, 0)

/-- The passes of a layer created with inputs and outputs of the given shapes, see the models of the layers.
`InputDownSamplingLayer::BackPropagate` delivers nothing: it is fatal if gradients are wanted
(src/net/InputDownSamplingLayer.cpp:84-88), see `backFatal`.  A join of images of different sizes and a
comparison with labels of another shape are not followed. -/
noncomputable def layerSem (lowest : ℝ) (l : NetConfig.Layer ℝ) (ins outs : List Shape) : LayerSem :=
  match l, ins, outs with
  | .resize bx by', [a], _ => resizeSem bx by' a
  | .conv p _ dropout _, [a], [o] => convSem (convolution p dropout a o)
  | .lrn size alpha beta across, [a], _ => lrnSem ⟨size, alpha, beta, if across then .acrossChannels else .withinChannels⟩ a
  | .maxPool kx ky, [a], [o] => maxPoolSem lowest kx ky o.width o.height a
  | .advMaxPool kx ky sx sy, [a], [o] => poolSem lowest kx ky sx sy o.width o.height a
  | .downSample kx ky, [a], [o] => unarySem a o (fun x => Layers.downsampleForward kx ky x (buffer o))
      fun _ _ _ _ => none
  | .sigmoid, [a], _ => sigmoidSem a
  | .hmax mu weight, [a], _ => hmaxSem ⟨1, 1, mu, weight, 1⟩ a
  | .relu, [a], _ => reluSem a
  | .tanh, [a], _ => tanhSem a
  | .upscale fx fy, [a], _ => upscaleSem fx fy a
  | .concat, [a, b], _ => concatSem a.samples a.width a.height a.maps b.maps
  | .sum, [a, _], _ => sumSem a
  | .error w, [a, _, c], _ => errorSem w a c
  | _, _, _ => idle

/-- The call of `BackPropagate` of a layer is fatal (src/net/InputDownSamplingLayer.cpp:84-88); `e` is the
value passed to `SetBackpropagationEnabled`. -/
def backFatal {D : Type _} (l : NetConfig.Layer D) (e : Bool) : Bool :=
  match l with
  | .downSample .. => e
  | _ => false

/-- The call of a backward pass ends the program. -/
def fatalCall {D : Type _} (nodes : List (NewNode D)) (e : Nat × Bool) : Bool :=
  match e.1 with
  | 0 => false
  | k + 1 => match nodes[k]? with
    | some n => backFatal n.layer e.2
    | none => false

/-- The number of parameters of a layer: weights and bias of a convolution, slope and offset of H-Max. -/
noncomputable def paramCount (l : NetConfig.Layer ℝ) (ins outs : List Shape) : Nat :=
  match l, ins, outs with
  | .conv p _ dropout _, [a], [o] =>
    (convolution p dropout a o).weights.elements + (convolution p dropout a o).bias.elements
  | .hmax .., _, _ => 2
  | _, _, _ => 0

/-- The layers of the network by node; `data` are the tensors of the data layer, which stay the same during
the passes considered. -/
noncomputable def layersOf (lowest : ℝ) (nodes : List (NewNode ℝ)) (ds : List Shape) (known : List (List Shape))
    (data : Nat → Vec) : Nat → LayerSem
  | 0 => { idle with forward := fun _ _ b => data b }
  | k + 1 => match nodes[k]? with
    | some n => layerSem lowest n.layer (n.inputs.map (shapeAt ds known)) (known.getD k [])
    | none => idle

/-- The numbers of their parameters. -/
noncomputable def countsOf (nodes : List (NewNode ℝ)) (ds : List Shape) (known : List (List Shape)) : Nat → Nat
  | 0 => 0
  | k + 1 => match nodes[k]? with
    | some n => paramCount n.layer (n.inputs.map (shapeAt ds known)) (known.getD k [])
    | none => 0

/-- The sizes of their outputs. -/
def sizesAt (ds : List Shape) (known : List (List Shape)) (n b : Nat) : Nat := (shapeAt ds known ⟨n, b, true⟩).elements

end CN24.NetTrain
