import Verif.Model.NetEval
import Verif.Model.Lrn
import Verif.Model.HMax

/-
The values that any described network computes for a batch of images: all layers that a description can name, with
joins, normalisation and H-Max, and with every node that `AddLayers` makes (compare Model/NetEval.lean, which follows
chains of layers).

Simplifications: `datum` is an ordered field, `exp` and `pow` are parameters; the data layer is given by its output
tensors; the nodes are evaluated in the order of their creation, which is an order the traversal of the graph gives
(C19).  The layer that computes the loss has no outputs; what it leaves in the deltas is not followed here.
-/

namespace CN24.NetBatch
open CN24 CN24.NetConfig CN24.Net
variable {R : Type _}

/-- What the values depend on besides the description: the functions, the smallest number, the parameters of the
convolutions by the number of their seed and the two weights of the H-Max layers by node. -/
structure Env (R : Type _) where
  exp : R → R
  pow : R → R → R
  lowest : R
  convolution : Nat → NetEval.Weights R
  hmax : Nat → R × R

/-- Whether the net is in testing mode, and what the memory of the outputs (by node and element) held before. -/
structure Mode (R : Type _) where
  testing : Bool
  memory : Nat → Nat → R

/-- A tensor with the given contents. -/
def blank (s : Shape) (v : Nat → R) : Tensor R :=
  ⟨s.samples, s.width, s.height, s.maps, (List.range (s.samples * s.maps * s.width * s.height)).map v⟩

section
variable [Field R] [LinearOrder R]

/-- `FeedForward` of the layer of node `k`, connected to the inputs and an output of shape `o`: see the models of the
layers (src/net/ResizeLayer.cpp:83-103, src/net/ConvolutionLayer.cpp:203-266,
src/net/LocalResponseNormalizationLayer.cpp:78-125, src/net/MaxPoolingLayer.cpp:104-177,
src/net/AdvancedMaxPoolingLayer.cpp:100-172, src/net/InputDownSamplingLayer.cpp:80-82,
src/net/UpscaleLayer.cpp:73-75, src/net/ActivationFunctions.cpp:40-78, 132-170, 220-229,
src/net/HMaxActivationFunction.cpp:116-136, src/net/ConcatenationLayer.cpp:98-107, src/net/SumLayer.cpp:105-107). -/
def forward (env : Env R) (mode : Mode R) (k : Nat) (l : NetConfig.Layer R) (inputs : List (Tensor R)) (o : Shape) :
    Outcome (Tensor R) :=
  let output := blank o (mode.memory k)
  let position : Tensor Nat := blank o fun _ => 0
  match l, inputs with
  | .resize bx by', [a] => .ofOption (Layers.resizeForward bx by' a output)
  | .conv p draw dropout _, [a] =>
    (Convolution.Layer.feedForward { Convolution.Layer.connect p dropout a.samples a.width a.height a.maps
        o.width o.height with
      input := a, weights := (env.convolution draw).weights, bias := (env.convolution draw).bias,
      output := output } mode.testing).bind fun l => .done l.output
  | .lrn size alpha beta across, [a] =>
    .ofOption ((Lrn.forward env.pow ⟨size, alpha, beta, if across then .acrossChannels else .withinChannels⟩ a
      (blank o fun _ => 0, output)).map (·.2))
  | .maxPool kx ky, [a] =>
    .ofOption ((Pooling.forward env.lowest kx ky a ((position, position), output)).map (·.2))
  | .advMaxPool kx ky sx sy, [a] =>
    .ofOption ((Pooling.advForward env.lowest kx ky sx sy a (position, output)).map (·.2))
  | .downSample kx ky, [a] => .ofOption (Layers.downsampleForward kx ky a output)
  | .upscale fx fy, [a] => .ofOption (Layers.upscaleForward fx fy a output)
  | .sigmoid, [a] => .ofOption (Activations.sigmoidForward env.exp a output)
  | .tanh, [a] => .ofOption (Activations.tanhForward env.exp a output)
  | .relu, [a] => .ofOption (Activations.reluForward a output)
  | .hmax mu weight, [a] =>
    .ofOption (HMax.forward env.exp ⟨(env.hmax k).1, (env.hmax k).2, mu, weight, 1⟩ a output)
  | .concat, [a, b] => .ofOption (Layers.concatForward a b output)
  | .sum, [a, b] => Layers.sumForward a b output
  | _, _ => .undefined

/-- Initialisation and forward pass of a node: `CreateOutputs`, `Connect` and `FeedForward`
(src/net/NetGraph.cpp:253-290, 305-340). -/
def eval (env : Env R) (mode : Mode R) (k : Nat) (l : NetConfig.Layer R) (inputs : List (Tensor R)) :
    Outcome (List (Tensor R)) :=
  (l.outputs (inputs.map Tensor.shape)).bind fun
    | [] => .done []
    | [o] => (forward env mode k l inputs o).bind fun t => .done [t]
    | _ => .undefined

/-- The tensor a connection leads to (compare `NetConfig.source`); the data layer is node 0. -/
def tensorAt (data : List (Tensor R)) (known : List (List (Tensor R))) (c : Conn) : Outcome (Tensor R) :=
  if c.node = 0 then .ofOption data[c.buffer]?
  else if 1 ≤ c.node then .ofOption (known[c.node - 1]?.bind fun o => o[c.buffer]?)
  else .undefined

/-- The input tensors of a node. -/
def tensors (data : List (Tensor R)) (known : List (List (Tensor R))) : List Conn → Outcome (List (Tensor R))
  | [] => .done []
  | c :: cs => (tensorAt data known c).bind fun a => (tensors data known cs).bind fun as => .done (a :: as)

/-- The outputs of all nodes after a forward pass (src/net/NetGraph.cpp:292-340). -/
def values (env : Env R) (mode : Mode R) (data : List (Tensor R)) :
    List (NewNode R) → List (List (Tensor R)) → Outcome (List (List (Tensor R)))
  | [], known => .done known
  | n :: ns, known =>
    (tensors data known n.inputs).bind fun ins =>
    (eval env mode (known.length + 1) n.layer ins).bind fun outs => values env mode data ns (known ++ [outs])

/-- The first output of the first node marked as output (include/cn24/net/NetGraph.h:61,
tools/classifyImage.cpp:133). -/
def outputOf {α : Type _} (nodes : List (NewNode R)) (vs : List (List α)) : Option α :=
  (((nodes.zip vs).filter fun nv => nv.1.isOutput).map (·.2)).head?.bind fun o => o[0]?

/-- The nodes made from a description: the factory reads it (src/factory/ConfigurableFactory.cpp:33-146) and adds the
layers behind the data layer (src/factory/ConfigurableFactory.cpp:153-502). -/
def nodesOf (conv : Config.Str → R) (lines : List Config.Str) (training : Bool) (classes : Nat) (loss : Bool) :
    Outcome (List (NewNode R)) :=
  (construct lines training).bind fun f =>
  (addLayers conv 0 1 f lines ⟨0, 0, true⟩ 1 classes loss).bind fun st => .done st.nodes

/-- What the network computes for the given data. -/
def predict (env : Env R) (mode : Mode R) (nodes : List (NewNode R)) (data : List (Tensor R)) : Outcome (Tensor R) :=
  (values env mode data nodes []).bind fun vs => .ofOption (outputOf nodes vs)

end
end CN24.NetBatch
