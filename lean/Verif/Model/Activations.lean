import Verif.Model.Layers
import Mathlib.Algebra.Order.Field.Basic

/-!
Activation layers (src/net/ActivationFunctions.cpp, src/net/NonLinearityLayer.cpp), host build.

`datum` arithmetic is exact; the exponential function is a parameter, so that the layers can be run
on rational numbers and reasoned about on real numbers.  The `#pragma omp parallel for` loops run in
order here; every iteration writes its own element (see C51).
-/

namespace CN24.Activations
open CN24 Tensor
variable {R : Type _}

/-- `NonLinearityLayer::CreateOutputs` (src/net/NonLinearityLayer.cpp:16-43). -/
def createOutput (input : Shape) : Shape := ⟨input.samples, input.width, input.height, input.maps⟩

/-- `NonLinearityLayer::Connect` (src/net/NonLinearityLayer.cpp:45-54). -/
def connect (input output : Shape) : Bool :=
  input.samples = output.samples && input.width = output.width &&
    input.height = output.height && input.maps = output.maps

/-- `for (element = 0; element < elements; element++) target[element] = f(element)`. -/
def elementwise (elements : Nat) (f : Nat → Option R) (target : Tensor R) : Option (Tensor R) :=
  forLoop elements (fun e t => (f e).bind fun v => t.putElem e v) target

section
variable [Zero R] [LT R] [DecidableLT R]

/-- The rectifier (src/net/ActivationFunctions.cpp:226). -/
def relu (v : R) : R := if 0 < v then v else 0

/-- `ReLULayer::FeedForward` (src/net/ActivationFunctions.cpp:220-229). -/
def reluForward (input output : Tensor R) : Option (Tensor R) :=
  elementwise input.elements (fun e => (rd input.data e).map relu) output

/-- The delta of the rectifier (src/net/ActivationFunctions.cpp:240). -/
def reluDelta (delta input : R) : R := if 0 < input then delta else 0

/-- `ReLULayer::BackPropagate` (src/net/ActivationFunctions.cpp:231-243). -/
def reluBackward (input outputDelta inputDelta : Tensor R) : Option (Tensor R) :=
  elementwise input.elements (fun e => (rd outputDelta.data e).bind fun d =>
    (rd input.data e).map fun v => reluDelta d v) inputDelta

end

/-- The sigmoid expression (src/net/ActivationFunctions.cpp:74). -/
def sigmoid [One R] [Add R] [Neg R] [Div R] (exp : R → R) (v : R) : R := 1 / (1 + exp (-v))

/-- `SigmoidLayer::FeedForward` (src/net/ActivationFunctions.cpp:40-78). -/
def sigmoidForward [One R] [Add R] [Neg R] [Div R] (exp : R → R) (input output : Tensor R) : Option (Tensor R) :=
  elementwise input.elements (fun e => (rd input.data e).map (sigmoid exp)) output

/-- The expression for the hyperbolic tangent (src/net/ActivationFunctions.cpp:166). -/
def tanh [One R] [Add R] [Sub R] [Mul R] [Div R] [NatCast R] (exp : R → R) (v : R) : R := 1 - 2 / (exp (2 * v) + 1)

/-- `TanhLayer::FeedForward` (src/net/ActivationFunctions.cpp:132-170). -/
def tanhForward [One R] [Add R] [Sub R] [Mul R] [Div R] [NatCast R] (exp : R → R) (input output : Tensor R) : Option (Tensor R) :=
  elementwise input.elements (fun e => (rd input.data e).map (tanh exp)) output

section
variable [Field R]

/-- The sigmoid derivative from the output (src/net/ActivationFunctions.cpp:126). -/
def sigmoidDelta (delta out : R) : R := delta * out * (1 - out)

/-- `SigmoidLayer::BackPropagate` (src/net/ActivationFunctions.cpp:80-130). -/
def sigmoidBackward (input output outputDelta inputDelta : Tensor R) : Option (Tensor R) :=
  elementwise input.elements (fun e => (rd outputDelta.data e).bind fun d =>
    (rd output.data e).map fun o => sigmoidDelta d o) inputDelta

/-- The derivative of tanh from the output (src/net/ActivationFunctions.cpp:214). -/
def tanhDelta (delta out : R) : R := delta * (1 - out * out)

/-- `TanhLayer::BackPropagate` (src/net/ActivationFunctions.cpp:172-218). -/
def tanhBackward (input output outputDelta inputDelta : Tensor R) : Option (Tensor R) :=
  elementwise input.elements (fun e => (rd outputDelta.data e).bind fun d =>
    (rd output.data e).map fun o => tanhDelta d o) inputDelta

/-- The sum of exponentials of one sample (src/net/ActivationFunctions.cpp:248-251). -/
def softmaxSum (exp : R → R) (input : Tensor R) (s : Nat) : Option R :=
  forLoop input.width (fun e sum => (input.get e 0 0 s).map fun v => sum + exp v) 0

/-- `SoftmaxLayer::FeedForward` (src/net/ActivationFunctions.cpp:245-257). -/
def softmaxForward (exp : R → R) (input output : Tensor R) : Option (Tensor R) :=
  forLoop input.samples (fun s out =>
    (softmaxSum exp input s).bind fun sum =>
    forLoop input.width (fun e out =>
      (input.get e 0 0 s).bind fun v => out.put e 0 0 s (exp v / sum)) out) output

/-- `SoftmaxLayer::BackPropagate` (src/net/ActivationFunctions.cpp:259-265). -/
def softmaxBackward (input outputDelta inputDelta : Tensor R) : Option (Tensor R) :=
  elementwise input.elements (fun e => rd outputDelta.data e) inputDelta

end
end CN24.Activations
