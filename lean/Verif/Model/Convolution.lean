import Verif.Model.TensorMath

/-
Model of `Conv::ConvolutionLayer` (src/net/ConvolutionLayer.cpp), host path.

Simplifications: `datum` is any type with the operations used (a commutative ring in most theorems,
single precision numbers in C94); the sizes handed to `TensorMath` do not overflow
`int`; weights and bias are arbitrary tensors of the right shape here, the initialisation of the weights
is in `Model/WeightInit.lean`.
-/

namespace CN24.Tensor

/-- A tensor of the given shape with all elements equal. -/
def fill {R : Type _} (samples width height maps : Nat) (v : R) : Tensor R :=
  ⟨samples, width, height, maps, List.replicate (samples * maps * height * width) v⟩

/-- The tensor has this shape and a complete buffer. -/
def Is {R : Type _} (t : Tensor R) (samples width height maps : Nat) : Prop :=
  t.samples = samples ∧ t.width = width ∧ t.height = height ∧ t.maps = maps ∧ t.WF

end CN24.Tensor

namespace CN24.Convolution
open CN24 CN24.TensorMath

/-- The configuration members of the layer (include/cn24/net/ConvolutionLayer.h:83-107). -/
structure Params where
  outputMaps : Nat
  kernelWidth : Nat
  kernelHeight : Nat
  strideWidth : Nat
  strideHeight : Nat
  padWidth : Nat
  padHeight : Nat
  group : Nat
  deriving DecidableEq, Repr

/-- The validating constructor (src/net/ConvolutionLayer.cpp:30-70): `FATAL` for zero kernels and
strides and for output maps that are no multiple of the group count; a zero group count divides
by zero. -/
def construct (p : Params) : Outcome Params :=
  if p.kernelWidth = 0 ∨ p.kernelHeight = 0 then .fatal
  else if p.strideWidth = 0 ∨ p.strideHeight = 0 then .fatal
  else if p.group = 0 then .undefined
  else if p.outputMaps % p.group ≠ 0 then .fatal
  else .done p

/-- `ConvolutionLayer::CreateOutputs` (src/net/ConvolutionLayer.cpp:100-144) for one non-null
input: width, height of the output or `none` for `return false`.  The `int` conversions are exact
for sizes below 2^31. -/
def createOutputs (p : Params) (inputWidth inputHeight inputMaps : Nat) :
    Outcome (Option (Nat × Nat)) :=
  if p.strideWidth = 0 ∨ p.strideHeight = 0 then .undefined
  else
    let outputWidth := outDim p.padWidth inputWidth p.kernelWidth p.strideWidth
    let outputHeight := outDim p.padHeight inputHeight p.kernelHeight p.strideHeight
    if outputWidth ≤ 0 ∨ outputHeight ≤ 0 then .done none
    else if p.group = 0 then .undefined
    else if inputMaps % p.group ≠ 0 then .fatal
    else .done (some (outputWidth.toNat, outputHeight.toNat))

/-- Reduction modulo 2^64 (`std::size_t`). -/
def u64 (i : Int) : Nat := (i % (2 ^ 64)).toNat

/-- The comparison of one dimension in `ConvolutionLayer::Connect`
(src/net/ConvolutionLayer.cpp:150-151): unsigned arithmetic. -/
def connectDim (pad input kernel stride output : Nat) : Bool :=
  output = u64 ((u64 ((pad : Int) + pad + input - kernel) / stride : Nat) + 1)

/-- `valid` in `ConvolutionLayer::Connect` (src/net/ConvolutionLayer.cpp:148-155), strides not
zero. -/
def connectValid (p : Params) (inputWidth inputHeight outputWidth outputHeight : Nat) : Bool :=
  connectDim p.padWidth inputWidth p.kernelWidth p.strideWidth outputWidth &&
  connectDim p.padHeight inputHeight p.kernelHeight p.strideHeight outputHeight

/-- `CreateOutputs` followed by `Connect`, as in `NetGraph::InitializeNode`
(src/net/NetGraph.cpp:253-290): the output size, or `none` if either refuses. -/
def initialise (p : Params) (inputWidth inputHeight inputMaps : Nat) :
    Outcome (Option (Nat × Nat)) :=
  (createOutputs p inputWidth inputHeight inputMaps).bind fun
    | none => .done none
    | some (w, h) =>
      if connectValid p inputWidth inputHeight w h then .done (some (w, h)) else .done none

/-- The tensors of a connected layer (include/cn24/net/ConvolutionLayer.h:75-98 and the input and
output of `SimpleLayer`). -/
structure Layer (R : Type _) where
  params : Params
  inputWidth : Nat
  inputHeight : Nat
  inputMaps : Nat
  outputWidth : Nat
  outputHeight : Nat
  dropout : R
  input : Tensor R
  inputDelta : Tensor R
  output : Tensor R
  outputDelta : Tensor R
  weights : Tensor R
  weightsDelta : Tensor R
  bias : Tensor R
  biasDelta : Tensor R
  im2colFf : Tensor R
  smsFf : Tensor R
  sms2Bp : Tensor R
  bpDeltax : Tensor R
  ones : Tensor R

namespace Layer
variable {R : Type _} [Zero R] [One R] [Add R] [Mul R] [Sub R] [DecidableEq R]

/-- The arguments of `IM2COL` and `COL2IM` (src/net/ConvolutionLayer.cpp:211-212, 323-324). -/
def shape (l : Layer R) : ColShape :=
  ⟨l.inputWidth, l.inputHeight, l.inputMaps, l.input.samples, l.params.kernelWidth,
   l.params.kernelHeight, l.params.strideWidth, l.params.strideHeight, l.params.padWidth,
   l.params.padHeight⟩

/-- `kernel_width_ * kernel_height_ * input_maps_`. -/
def kernelSize (l : Layer R) : Nat :=
  l.params.kernelWidth * l.params.kernelHeight * l.inputMaps

/-- `output_width_ * output_height_ * input_->data.samples()`. -/
def positions (l : Layer R) : Nat := l.outputWidth * l.outputHeight * l.input.samples

/-- `ConvolutionLayer::FeedForward` (src/net/ConvolutionLayer.cpp:203-266). -/
def feedForward (l : Layer R) (testing : Bool) : Outcome (Layer R) :=
  let p : R := if testing then 0 else l.dropout
  let w : R := if testing then 1 - l.dropout else 1
  let G := l.params.group
  let OM := l.params.outputMaps
  (im2col l.shape l.input l.im2colFf).bind fun im2colFf =>
  (forO G (fun g sms =>
    gemm true false false (OM / G) l.positions (l.kernelSize / G)
      w l.weights (g * OM / G) (l.kernelSize / G)
      im2colFf (l.kernelSize * g / G) l.positions
      0 sms (g * OM / G) l.positions) l.smsFf).bind fun sms =>
  (gemm true false false OM l.positions 1 w l.bias 0 1 l.ones 0 l.positions
      1 sms 0 l.positions).bind fun sms =>
  (Outcome.ofOption (TensorMath.sms sms l.output)).bind fun output =>
  if p = 0 then .done { l with im2colFf := im2colFf, smsFf := sms, output := output }
  else .fatal

/-- `ConvolutionLayer::BackPropagate` (src/net/ConvolutionLayer.cpp:268-325). -/
def backPropagate (l : Layer R) (backpropEnabled : Bool) : Outcome (Layer R) :=
  let G := l.params.group
  let OM := l.params.outputMaps
  (Outcome.ofOption (TensorMath.sms l.outputDelta l.sms2Bp)).bind fun sms2 =>
  (forO G (fun g (s : Tensor R × Tensor R) =>
    (if backpropEnabled then
      gemm true true false (l.kernelSize / G) l.positions (OM / G)
        1 l.weights (g * OM / G) (l.kernelSize / G)
        sms2 (g * OM / G) l.positions
        0 s.1 (l.kernelSize * g / G) l.positions
     else .done s.1).bind fun deltax =>
    (gemm true false true (OM / G) (l.kernelSize / G) l.positions
      1 sms2 (g * OM / G) l.positions
      l.im2colFf (l.kernelSize * g / G) l.positions
      0 s.2 (g * OM / G) (l.kernelSize / G)).bind fun dw =>
    .done (deltax, dw)) (l.bpDeltax, l.weightsDelta)).bind fun s =>
  (gemv true false OM l.positions 1 sms2 0 l.positions l.ones 0 1 0 l.biasDelta 0 1).bind fun db =>
  (if backpropEnabled then col2im l.shape l.inputDelta s.1 else .done l.inputDelta).bind fun dx =>
  .done { l with sms2Bp := sms2, bpDeltax := s.1, weightsDelta := s.2, biasDelta := db,
                 inputDelta := dx }

/-- The state established by `ConvolutionLayer::Connect` (src/net/ConvolutionLayer.cpp:146-201)
and `SimpleLayer::Connect`: all tensors have the sizes given there and `ones_` holds ones. -/
structure Connected (l : Layer R) : Prop where
  group_pos : 0 < l.params.group
  group_in : l.params.group ∣ l.inputMaps
  group_out : l.params.group ∣ l.params.outputMaps
  stride : 0 < l.params.strideWidth ∧ 0 < l.params.strideHeight
  width : (l.outputWidth : Int) =
    outDim l.params.padWidth l.inputWidth l.params.kernelWidth l.params.strideWidth
  height : (l.outputHeight : Int) =
    outDim l.params.padHeight l.inputHeight l.params.kernelHeight l.params.strideHeight
  input : l.input.Is l.input.samples l.inputWidth l.inputHeight l.inputMaps
  inputDelta : l.inputDelta.Is l.input.samples l.inputWidth l.inputHeight l.inputMaps
  output : l.output.Is l.input.samples l.outputWidth l.outputHeight l.params.outputMaps
  outputDelta : l.outputDelta.Is l.input.samples l.outputWidth l.outputHeight l.params.outputMaps
  weights : l.weights.Is l.params.outputMaps l.params.kernelWidth l.params.kernelHeight
    (l.inputMaps / l.params.group)
  weightsDelta : l.weightsDelta.Is l.params.outputMaps l.params.kernelWidth l.params.kernelHeight
    (l.inputMaps / l.params.group)
  bias : l.bias.Is 1 l.params.outputMaps 1 1
  biasDelta : l.biasDelta.Is 1 l.params.outputMaps 1 1
  im2colFf : l.im2colFf.Is l.kernelSize l.outputWidth l.outputHeight l.input.samples
  smsFf : l.smsFf.Is l.params.outputMaps l.outputWidth l.outputHeight l.input.samples
  sms2Bp : l.sms2Bp.Is l.params.outputMaps l.outputWidth l.outputHeight l.input.samples
  bpDeltax : l.bpDeltax.Is l.kernelSize l.outputWidth l.outputHeight l.input.samples
  ones : l.ones.Is 1 l.positions 1 1
  ones_one : ∀ v ∈ l.ones.data, v = 1

/-- `ConvolutionLayer::Connect` and `SimpleLayer::Connect` for an output accepted by
`connectValid`: the tensors allocated there (src/net/ConvolutionLayer.cpp:157-200).  The contents
of freshly allocated tensors, uninitialised in the code, are zero here; no theorem depends on
them. -/
def connect (p : Params) (dropout : R) (samples inputWidth inputHeight inputMaps outputWidth
    outputHeight : Nat) : Layer R where
  params := p
  inputWidth := inputWidth
  inputHeight := inputHeight
  inputMaps := inputMaps
  outputWidth := outputWidth
  outputHeight := outputHeight
  dropout := dropout
  input := .fill samples inputWidth inputHeight inputMaps 0
  inputDelta := .fill samples inputWidth inputHeight inputMaps 0
  output := .fill samples outputWidth outputHeight p.outputMaps 0
  outputDelta := .fill samples outputWidth outputHeight p.outputMaps 0
  weights := .fill p.outputMaps p.kernelWidth p.kernelHeight (inputMaps / p.group) 0
  weightsDelta := .fill p.outputMaps p.kernelWidth p.kernelHeight (inputMaps / p.group) 0
  bias := .fill 1 p.outputMaps 1 1 0
  biasDelta := .fill 1 p.outputMaps 1 1 0
  im2colFf := .fill (p.kernelWidth * p.kernelHeight * inputMaps) outputWidth outputHeight samples 0
  smsFf := .fill p.outputMaps outputWidth outputHeight samples 0
  sms2Bp := .fill p.outputMaps outputWidth outputHeight samples 0
  bpDeltax := .fill (p.kernelWidth * p.kernelHeight * inputMaps) outputWidth outputHeight samples 0
  ones := .fill 1 (outputWidth * outputHeight * samples) 1 1 1

end Layer
end CN24.Convolution
