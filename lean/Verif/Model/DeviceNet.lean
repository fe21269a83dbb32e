/-
Model of where the layers of a network keep their tensors in builds with OpenCL: the moves between the
memories in the passes of the layers (src/net/*.cpp), in `TensorMath` (src/math/TensorMath.cpp) and in
`NetGraph::PrepareNode`, and the code around the passes that uses the same tensors.

What the loops and kernels compute is not part of this model: a loop of the host and the kernel that
takes its place are the same `Kernel` here (Verif/Props/DeviceKernels.lean is about that).  Buffers exist
and moves succeed (Verif/Model/Device.lean is about that); unwritten memory has arbitrary contents.
-/

namespace CN24.DeviceNet
variable {V : Type _}

/-- An element of the memory of a tensor: the tensor that owns the memory, and the index. -/
abbrev Cell := Nat × Nat

abbrev Mem (V : Type _) := Cell → V

/-- A piece of code on data: where it reads and writes, and the values that it writes. -/
structure Kernel (V : Type _) where
  reads : Cell → Prop
  writes : Cell → Prop
  value : Mem V → Cell → V

open Classical in
/-- Running the code in a memory. -/
noncomputable def Kernel.exec (k : Kernel V) (m : Mem V) : Mem V :=
  fun c => if k.writes c then k.value m c else m c

/-- A tensor object: a name for its field `hint_ignore_content_`, the tensor that owns its memory, and
whether it is a shadow of that (include/cn24/util/Tensor.h:292-333). -/
structure Obj where
  name : Nat
  store : Nat
  shadow : Bool := false
  deriving DecidableEq, Repr

/-- `CombinedTensor` (include/cn24/util/CombinedTensor.h). -/
structure Buf where
  data : Obj
  delta : Obj
  deriving DecidableEq, Repr

/-- The two memories; `cl_gpu_` of the owners; `hint_ignore_content_`. -/
structure State (V : Type _) where
  host : Mem V
  dev : Mem V
  gpu : Nat → Bool
  hint : Nat → Bool

/-- `cl_gpu_` of the object itself: shadows hand moves on (src/util/Tensor.cpp:436-439, 492-495) and
never set their own. -/
def flag (o : Obj) (s : State V) : Bool := !o.shadow && s.gpu o.store

/-- The data of a tensor taken from one memory to another. -/
def transfer (store : Nat) (src dst : Mem V) : Mem V := fun c => if c.1 = store then src c else dst c

/-- `Tensor::MoveToGPU` (src/util/Tensor.cpp:435-489). -/
def toDevice (o : Obj) (skip : Bool) (s : State V) : State V :=
  if s.gpu o.store then s
  else { s with
    dev := if skip then s.dev else transfer o.store s.host s.dev
    gpu := fun k => if k = o.store then true else s.gpu k }

/-- `Tensor::MoveToCPU` (src/util/Tensor.cpp:491-529). -/
def toHost (o : Obj) (skip : Bool) (s : State V) : State V :=
  if s.gpu o.store then { s with
    host := if skip then s.host else transfer o.store s.dev s.host
    gpu := fun k => if k = o.store then false else s.gpu k }
  else s

/-- Code of the host, which uses the memory of the host. -/
noncomputable def runHost (k : Kernel V) (s : State V) : State V := { s with host := k.exec s.host }

/-- A kernel, which uses the memory of the device. -/
noncomputable def runDevice (k : Kernel V) (s : State V) : State V := { s with dev := k.exec s.dev }

def setHint (o : Obj) (b : Bool) (s : State V) : State V :=
  { s with hint := fun k => if k = o.name then b else s.hint k }

/-! ### TensorMath -/

/-- `TensorMath::GEMM` and `GEMV` (src/math/TensorMath.cpp:17-159); `clblas` is BUILD_CLBLAS, `zero` is
`beta == 0.0`. -/
noncomputable def gemm (clblas : Bool) (k : Kernel V) (a b c : Obj) (zero : Bool) (s : State V) : State V :=
  if clblas then
    let s := toDevice b false (toDevice a false s)
    setHint c false (runDevice k (toDevice c (s.hint c.name && zero) s))
  else
    let s := toHost b false (toHost a false s)
    setHint c false (runHost k (toHost c (s.hint c.name && zero) s))

/-- `TensorMath::IM2COL` (src/math/TensorMath.cpp:162-259); and `COL2IM` (261-349), where `src` is its
parameter `target` and `dst` its parameter `source`, and whose call of `SETSAMPLE` finds `cl_gpu_` false
and stays on the host. -/
noncomputable def im2col (k : Kernel V) (src dst : Obj) (s : State V) : State V :=
  setHint dst false
    (if flag src s || flag dst s then runDevice k (toDevice dst true (toDevice src false s))
    else runHost k (toHost dst true (toHost src false s)))

/-- `TensorMath::SMS`, `DOWN` and `UP` (src/math/TensorMath.cpp:393-594): nothing is moved to the host. -/
noncomputable def resample (k : Kernel V) (src dst : Obj) (s : State V) : State V :=
  setHint dst false
    (if flag src s || flag dst s then runDevice k (toDevice dst true (toDevice src false s))
    else runHost k s)

/-! ### Layers -/

/-- The tensors of a convolution layer, and what its calls of `TensorMath` compute: for every group the
product with the weights, and with the transposed weights and the gradient of the weights. -/
structure Convolution (V : Type _) where
  input : Buf
  output : Buf
  weights : Buf
  bias : Buf
  ones : Obj
  columns : Obj
  mixed : Obj
  columnsBack : Obj
  mixedBack : Obj
  kColumns : Kernel V
  kGroups : List (Kernel V)
  kBias : Kernel V
  kUnmix : Kernel V
  kMix : Kernel V
  kGroupsBack : List (Kernel V × Kernel V)
  kBiasBack : Kernel V
  kImage : Kernel V

/-- `ConvolutionLayer::FeedForward` (src/net/ConvolutionLayer.cpp:203-231); with dropout it ends in
`FATAL` while training (246-247). -/
noncomputable def convForward (clblas : Bool) (l : Convolution V) (s : State V) : State V :=
  let s := setHint l.mixed true (setHint l.output.data true (setHint l.columns true s))
  let s := im2col l.kColumns l.input.data l.columns s
  let s := l.kGroups.foldl (fun s k => gemm clblas k l.weights.data l.columns l.mixed true s) s
  let s := gemm clblas l.kBias l.bias.data l.ones l.mixed false s
  resample l.kUnmix l.mixed l.output.data s

/-- One turn of the loop over the groups (src/net/ConvolutionLayer.cpp:291-312). -/
noncomputable def convGroup (clblas backprop : Bool) (l : Convolution V) (s : State V)
    (k : Kernel V × Kernel V) : State V :=
  let s := if backprop then gemm clblas k.1 l.weights.data l.mixedBack l.columnsBack true s else s
  gemm clblas k.2 l.mixedBack l.columns l.weights.delta true s

/-- `ConvolutionLayer::BackPropagate` (src/net/ConvolutionLayer.cpp:283-325). -/
noncomputable def convBackward (clblas backprop : Bool) (l : Convolution V) (s : State V) : State V :=
  let s := setHint l.mixedBack true (setHint l.columnsBack true s)
  let s := setHint l.input.delta true (setHint l.bias.delta true (setHint l.weights.delta true s))
  let s := resample l.kMix l.output.delta l.mixedBack s
  let s := l.kGroupsBack.foldl (convGroup clblas backprop l) s
  let s := gemm clblas l.kBiasBack l.mixedBack l.ones l.bias.delta true s
  if backprop then im2col l.kImage l.columnsBack l.input.delta s else s

/-- `NetGraph::PrepareNode` for a layer that is not `IsOpenCLAware` (src/net/NetGraph.cpp:447-460): the
inputs, then the outputs. -/
def prepare (ins outs : List Buf) (s : State V) : State V :=
  (ins ++ outs).foldl (fun s b => toHost b.delta false (toHost b.data false s)) s

/-- What happens to the tensors of a network: the passes of its layers with the `PrepareNode` before
them, and the code around the passes. -/
inductive Step (V : Type _) where
  /-- Sigmoid and tanh layers: src/net/ActivationFunctions.cpp:40-66, 132-158. -/
  | actForward (i o : Buf) (k : Kernel V)
  /-- src/net/ActivationFunctions.cpp:80-109, 172-201. -/
  | actBackward (i o : Buf) (k : Kernel V)
  /-- Pooling layers: src/net/MaxPoolingLayer.cpp:104-138, src/net/AdvancedMaxPoolingLayer.cpp:100-136. -/
  | poolForward (i o : Buf) (mask : Obj) (k : Kernel V)
  /-- src/net/MaxPoolingLayer.cpp:179-213, src/net/AdvancedMaxPoolingLayer.cpp:174-210. -/
  | poolBackward (i o : Buf) (mask : Obj) (k : Kernel V)
  /-- src/net/ResizeLayer.cpp:83-103; `Clear` moves too, but finds the tensor on the host. -/
  | resizeForward (i o : Buf) (k : Kernel V)
  /-- src/net/ResizeLayer.cpp:105-129. -/
  | resizeBackward (backprop : Bool) (i o : Buf) (k : Kernel V)
  /-- src/net/UpscaleLayer.cpp:73-75. -/
  | upForward (i o : Buf) (k : Kernel V)
  /-- src/net/UpscaleLayer.cpp:77-79. -/
  | upBackward (i o : Buf) (k : Kernel V)
  /-- src/net/InputDownSamplingLayer.cpp:80-82; not `IsOpenCLAware`, because BUILD_OPENCL_MAX is not
  defined in that file (91-97). -/
  | downForward (i o : Buf) (k : Kernel V)
  | convForward (l : Convolution V)
  | convBackward (backprop : Bool) (l : Convolution V)
  /-- src/net/DatasetInputLayer.cpp:142-211: `helper_output_` is not moved. -/
  | datasetForward (data label helper weight : Buf) (k : Kernel V)
  /-- The passes of all other layers, which are not `IsOpenCLAware` (include/cn24/net/Layer.h:113). -/
  | other (ins outs : List Buf) (k : Kernel V)
  /-- Code of the host that moves what it uses: src/net/Trainer.cpp:375-384, 445-540,
  src/util/GradientTester.cpp:49-91, src/util/Tensor.cpp:220-265, src/net/ConvolutionLayer.cpp:337-344,
  src/net/NetGraph.cpp:318-329. -/
  | use (os : List Obj) (k : Kernel V)
  /-- Code of the host that replaces a tensor: `Clear` (src/util/Tensor.cpp:91-102), `Deserialize`
  (src/util/Tensor.cpp:267-324). -/
  | replace (o : Obj) (k : Kernel V)
  /-- Code of the host that moves nothing: the loss functions (src/net/Trainer.cpp:360-366,
  src/net/NetGraph.cpp:462-473). -/
  | loss (k : Kernel V)

/-- A step in a build with OpenCL. -/
noncomputable def exec (clblas : Bool) : Step V → State V → State V
  | .actForward i o k, s => runDevice k (toDevice o.data false (toDevice i.data false s))
  | .actBackward i o k, s =>
    runDevice k (toDevice o.delta false (toDevice o.data false (toDevice i.delta false s)))
  | .poolForward i o mask k, s => runDevice k (toDevice mask true (toDevice o.data true (toDevice i.data false s)))
  | .poolBackward i o mask k, s =>
    runDevice k (toDevice mask false (toDevice o.delta false (toDevice i.delta true s)))
  | .resizeForward i o k, s => runHost k (toHost i.data false (toHost o.data true s))
  | .resizeBackward backprop i o k, s =>
    if backprop then runHost k (toHost o.delta false (toHost i.delta true s)) else s
  | .upForward i o k, s => resample k i.data o.data s
  | .upBackward i o k, s => resample k o.delta i.delta s
  | .downForward i o k, s => resample k i.data o.data (prepare [i] [o] s)
  | .convForward l, s => convForward clblas l s
  | .convBackward backprop l, s => convBackward clblas backprop l s
  | .datasetForward data label _ weight k, s =>
    runHost k (toHost weight.data true (toHost label.data true (toHost data.data true s)))
  | .other ins outs k, s => runHost k (prepare ins outs s)
  | .use os k, s => runHost k (os.foldl (fun s o => toHost o false s) s)
  | .replace o k, s => runHost k (toHost o true s)
  | .loss k, s => runHost k s

/-- A sequence of steps. -/
noncomputable def run (clblas : Bool) (l : List (Step V)) (s : State V) : State V :=
  l.foldl (fun s x => exec clblas x s) s

end CN24.DeviceNet
