import Verif.Model.NetConfig
import Verif.Model.Layers
import Verif.Model.Activations

/-
The values a described network computes: construction by the factory, initialisation and one forward
pass, put together from the models of the parts.

Simplifications: the arithmetic of `datum` (an ordered field, or single precision) and the exponential function are parameters; the data layer is
given by its output tensors; only layers that occur in chains are evaluated (no joins, normalisation,
H-Max and loss).  The nodes are evaluated in the order of their creation, which is an order the
traversal of the graph gives (C19).
-/

namespace CN24.NetEval
open CN24 CN24.NetConfig CN24.Net
variable {R : Type _}

/-- The parameters of a convolution (include/cn24/net/ConvolutionLayer.h:83-107). -/
structure Weights (R : Type _) where
  weights : Tensor R
  bias : Tensor R

/-- What the values depend on besides the description: the exponential function, the smallest number and
the parameters of the convolutions by the number of their seed. -/
structure Env (R : Type _) where
  exp : R → R
  lowest : R
  parameters : Nat → Weights R

/-- What the values should not depend on: whether the net is in testing mode, and what the output tensors
held before. -/
structure Mode (R : Type _) where
  testing : Bool
  junk : R

/-- A tensor with arbitrary contents. -/
def blank (s : Shape) (v : R) : Tensor R := .fill s.samples s.width s.height s.maps v

section
variable [Zero R] [One R] [Add R] [Sub R] [Neg R] [Mul R] [Div R] [NatCast R] [LT R] [DecidableLT R] [DecidableEq R]

/-- `FeedForward` of one layer, connected to `input` and an output of shape `o`: see the models of the
layers (src/net/ResizeLayer.cpp:83-103, src/net/ConvolutionLayer.cpp:203-266,
src/net/MaxPoolingLayer.cpp:104-177, src/net/AdvancedMaxPoolingLayer.cpp:100-172,
src/net/InputDownSamplingLayer.cpp:80-82, src/net/UpscaleLayer.cpp:73-75,
src/net/ActivationFunctions.cpp:40-78, 132-170, 220-229).  The other layers are not followed. -/
def forward (env : Env R) (mode : Mode R) (l : NetConfig.Layer R) (input : Tensor R) (o : Shape) :
    Outcome (Tensor R) :=
  let output := blank o mode.junk
  let position : Tensor Nat := blank o 0
  match l with
  | .resize bx by' => .ofOption (Layers.resizeForward bx by' input output)
  | .conv p draw dropout _ =>
    (Convolution.Layer.feedForward { Convolution.Layer.connect p dropout input.samples input.width
        input.height input.maps o.width o.height with
      input := input, weights := (env.parameters draw).weights, bias := (env.parameters draw).bias,
      output := output } mode.testing).bind fun l => .done l.output
  | .maxPool kx ky =>
    .ofOption ((Pooling.forward env.lowest kx ky input ((position, position), output)).map (·.2))
  | .advMaxPool kx ky sx sy =>
    .ofOption ((Pooling.advForward env.lowest kx ky sx sy input (position, output)).map (·.2))
  | .downSample kx ky => .ofOption (Layers.downsampleForward kx ky input output)
  | .upscale fx fy => .ofOption (Layers.upscaleForward fx fy input output)
  | .sigmoid => .ofOption (Activations.sigmoidForward env.exp input output)
  | .tanh => .ofOption (Activations.tanhForward env.exp input output)
  | .relu => .ofOption (Activations.reluForward input output)
  | _ => .undefined

/-- Initialisation and forward pass of a layer with one input: `CreateOutputs`, `Connect` and
`FeedForward` (src/net/NetGraph.cpp:253-290, 305-340). -/
def eval (env : Env R) (mode : Mode R) (l : NetConfig.Layer R) (input : Tensor R) : Outcome (Tensor R) :=
  (l.outputs [input.shape]).bind fun
    | [o] => forward env mode l input o
    | _ => .undefined

/-- The tensor a connection leads to (compare `NetConfig.source`). -/
def tensorAt (data base : Nat) (input : List (Tensor R)) (known : List (Tensor R)) (c : Conn) :
    Outcome (Tensor R) :=
  if c.node = data then .ofOption input[c.buffer]?
  else if base ≤ c.node ∧ c.buffer = 0 then .ofOption known[c.node - base]?
  else .undefined

/-- The outputs of all nodes after a forward pass (src/net/NetGraph.cpp:292-340). -/
def values (env : Env R) (mode : Mode R) (data base : Nat) (input : List (Tensor R)) :
    List (NewNode R) → List (Tensor R) → Outcome (List (Tensor R))
  | [], known => .done known
  | n :: ns, known =>
    match n.inputs with
    | [c] => (tensorAt data base input known c).bind fun t =>
        (eval env mode n.layer t).bind fun v => values env mode data base input ns (known ++ [v])
    | _ => .undefined

/-- The tensor of the first node marked as output (include/cn24/net/NetGraph.h:61). -/
def outputOf (nodes : List (NewNode R)) (vs : List (Tensor R)) : Option (Tensor R) :=
  (((nodes.zip vs).filter fun nv => nv.1.isOutput).map (·.2)).head?

/-- What a network made from a description computes for the given data: the factory reads the
description (src/factory/ConfigurableFactory.cpp:33-146) and adds the layers behind the data layer
(src/factory/ConfigurableFactory.cpp:153-502), the graph is initialised and evaluated. -/
def predict (env : Env R) (conv : Config.Str → R) (lines : List Config.Str) (training : Bool) (mode : Mode R)
    (classes : Nat) (input : List (Tensor R)) : Outcome (Tensor R) :=
  (construct lines training).bind fun f =>
  (addLayers conv 0 1 f lines ⟨0, 0, false⟩ 1 classes false).bind fun st =>
  (values env mode 0 1 input st.nodes []).bind fun vs =>
  .ofOption (outputOf st.nodes vs)

end
end CN24.NetEval
