import Verif.Model.NetConfig

/-
Training with patches and testing with whole images: the tool builds two networks from one description and lets the
parameters of the second share the memory of those of the first (tools/trainNetwork.cpp:123-234).

The nodes for the statistics (tools/trainNetwork.cpp:273-290) and those inserted by `NetGraph::Initialize` are added
behind the ones of the factory and have no parameters; they are left out.
-/

namespace CN24.Hybrid
open CN24 CN24.Config CN24.Net CN24.NetConfig
variable {D : Type _}

/-- The tensors that `Connect` adds to `parameters_`: the convolution layer (src/net/ConvolutionLayer.cpp:185-198) and
the activation function with learned slope (src/net/HMaxActivationFunction.cpp:107-111); no other layer of the
factory has parameters. -/
def layerParameters (l : Layer D) (inputs : List Shape) : List Shape :=
  match l, inputs with
  | .conv p _ _ _, [a] =>
    [⟨p.outputMaps, p.kernelWidth, p.kernelHeight, a.maps / p.group⟩, ⟨1, p.outputMaps, 1, 1⟩]
  | .hmax .., [_] => [⟨1, 2, 1, 1⟩]
  | _, _ => []

/-- A parameter: the layer it belongs to, whose convolutions are numbered by `draw`, and its shape. -/
structure Param (D : Type _) where
  owner : Layer D
  shape : Shape
  deriving DecidableEq

/-- `NetGraph::GetParameters` (src/net/NetGraph.cpp:383-390) after `NetGraph::Initialize`: the parameters in the order
of the nodes. -/
def parameters (data base : Nat) (dataShapes : List Shape) :
    List (NewNode D) → List (List Shape) → Outcome (List (Param D))
  | [], _ => .done []
  | n :: ns, known =>
    (sources data base dataShapes known n.inputs).bind fun ins =>
    (n.layer.outputs ins).bind fun outs =>
    (parameters data base dataShapes ns (known ++ [outs])).bind fun ps =>
    .done ((layerParameters n.layer ins).map (⟨n.layer, ·⟩) ++ ps)

/-- The nodes a factory adds behind the input layer (tools/trainNetwork.cpp:86, 163 and 197-198).  The factory rewinds
the file before it reads it (src/factory/ConfigurableFactory.cpp:36-37, 155-156). -/
def nodesOf (conv : Str → D) (zero one : D) (lines : List Str) (classes : Nat) (training : Bool) :
    Outcome (List (NewNode D)) :=
  (construct lines training).bind fun f =>
  (addLayers conv zero one f lines ⟨0, 0, true⟩ 1 classes true).bind fun st => .done st.nodes

/-- One of the two networks, initialised (tools/trainNetwork.cpp:86-175 and 192-210): its parameters. -/
def network (conv : Str → D) (zero one : D) (lines : List Str) (classes : Nat) (training : Bool)
    (dataShapes : List Shape) : Outcome (List (Param D)) :=
  (nodesOf conv zero one lines classes training).bind fun nodes => parameters 0 1 dataShapes nodes []

/-- The memory of a parameter of the second network: its own, or that of parameter `p` of the first one
(`Tensor::Shadow`, src/util/Tensor.cpp:111-129, which takes over the dimensions). -/
inductive Storage where
  | own (s : Shape)
  | shadow (p : Nat) (s : Shape)
  deriving DecidableEq, Repr

/-- The loop over the parameters (tools/trainNetwork.cpp:220-225, 352-357, 410-415): an index beyond the end of
`testing_params` is undefined. -/
def share (training : List Shape) (testing : List Storage) : Outcome (List Storage) :=
  forO training.length (fun p t => .ofOption ((rd training p).bind fun s => wr t p (.shadow p s))) testing

/-- Both networks (tools/trainNetwork.cpp:86-233): the memory of the parameters of the second one, which exists only if
the description asks for patches. -/
def setup (conv : Str → D) (zero one : D) (lines : List Str) (classes : Nat) (trainShapes testShapes : List Shape) :
    Outcome (Option (List Storage)) :=
  (construct lines true).bind fun f =>
  (network conv zero one lines classes true trainShapes).bind fun training =>
  if f.method = .patch then
    (network conv zero one lines classes false testShapes).bind fun testing =>
    (share (training.map (·.shape)) (testing.map (.own ·.shape))).bind fun t => .done (some t)
  else .done none

end CN24.Hybrid
