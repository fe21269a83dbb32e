import Verif.Model.Gradient
import Verif.Model.Convolution
import Verif.Model.Layers
import Verif.Model.Activations
import Verif.Model.Trainer
import Verif.Model.Pooling
import Verif.Model.Lrn
import Verif.Model.HMax
import Mathlib.Analysis.SpecialFunctions.Pow.Real
import Mathlib.Analysis.SpecialFunctions.ExpDeriv

/-
The layers modelled elsewhere as layers of a network in the sense of `LayerSem`: their tensors are filled from
the buffers of the network, and what `FeedForward` and `BackPropagate` leave in them is written back.

A call that is undefined or fatal delivers no deltas (`none`) and zeros otherwise; the theorems about these
layers show that this does not happen under their hypotheses.
-/

namespace CN24.Net
open CN24 CN24.Tensor

/-- The tensor of a buffer with the given shape. -/
noncomputable def tensorOf (sh : Shape) (v : Vec) : Tensor ℝ :=
  ⟨sh.samples, sh.width, sh.height, sh.maps, (List.range (sh.samples * sh.maps * sh.width * sh.height)).map v⟩

/-- The buffer of a tensor. -/
def vecOf (t : Tensor ℝ) : Vec := fun i => t.data.getD i 0

/-- The buffer of a tensor that a call leaves, zero if the call does not return. -/
def vecOfOption : Option (Tensor ℝ) → Vec
  | some t => vecOf t
  | none => 0

/-- The buffers of a list of tensors one after the other, as the parameters of a layer: first those of a tensor
with `k` elements. -/
def joined (k : Nat) (a b : Vec) : Vec := fun i => if i < k then a i else b (i - k)

/-- `ConvolutionLayer` (src/net/ConvolutionLayer.cpp:203-325) with parameters weights and bias
(src/net/ConvolutionLayer.cpp:184-198, `parameters_`), outside testing; `l` gives the configuration.  The column
buffer that the backward pass reads is the one left by the forward pass. -/
noncomputable def convAt (l : Convolution.Layer ℝ) (p : Vec) (x : Nat → Vec) : Convolution.Layer ℝ :=
  { l with
    weights := tensorOf l.weights.shape p
    bias := tensorOf l.bias.shape fun i => p (l.weights.elements + i)
    input := tensorOf l.input.shape (x 0) }

/-- The result of the backward pass of a convolution layer, after a forward pass. -/
noncomputable def convBack (l : Convolution.Layer ℝ) (e : Bool) (p : Vec) (x d : Nat → Vec) :
    Outcome (Convolution.Layer ℝ) :=
  ((convAt l p x).feedForward false).bind fun l1 =>
    ({ l1 with outputDelta := tensorOf l.outputDelta.shape (d 0) } : Convolution.Layer ℝ).backPropagate e

/-- See `convAt`. -/
noncomputable def convSem (l : Convolution.Layer ℝ) : LayerSem where
  forward p x _ := match (convAt l p x).feedForward false with
    | .done l1 => vecOf l1.output
    | _ => 0
  loss _ _ := 0
  backward e p x _ d := match convBack l e p x d with
    | .done l2 => (fun j => if e = true ∧ j = 0 then some (vecOf l2.inputDelta) else none,
        joined l.weights.elements (vecOf l2.weightsDelta) (vecOf l2.biasDelta))
    | _ => (fun _ => none, 0)

/-- A layer without parameters with one input and one output, given by its two passes on tensors.  Arguments
of `back`: enabled, input data, output data, output delta. -/
noncomputable def unarySem (inp out : Shape) (fwd : Tensor ℝ → Option (Tensor ℝ))
    (back : Bool → Tensor ℝ → Tensor ℝ → Tensor ℝ → Option (Tensor ℝ)) : LayerSem where
  forward _ x _ := vecOfOption (fwd (tensorOf inp (x 0)))
  loss _ _ := 0
  backward e _ x y d := (fun j => if j = 0 then (back e (tensorOf inp (x 0)) (tensorOf out (y 0))
    (tensorOf out (d 0))).map vecOf else none, 0)

/-- A buffer of the given shape, as `CreateOutputs` allocates it; the contents, uninitialised in the code, are
zero here. -/
noncomputable def buffer (sh : Shape) : Tensor ℝ := tensorOf sh 0

/-- `SigmoidLayer` (src/net/ActivationFunctions.cpp:40-130). -/
noncomputable def sigmoidSem (sh : Shape) : LayerSem :=
  unarySem sh sh (fun x => Activations.sigmoidForward Real.exp x (buffer sh))
    fun _ x y d => Activations.sigmoidBackward x y d (buffer sh)

/-- `TanhLayer` (src/net/ActivationFunctions.cpp:132-218). -/
noncomputable def tanhSem (sh : Shape) : LayerSem :=
  unarySem sh sh (fun x => Activations.tanhForward Real.exp x (buffer sh))
    fun _ x y d => Activations.tanhBackward x y d (buffer sh)

/-- `ReLULayer` (src/net/ActivationFunctions.cpp:220-243). -/
noncomputable def reluSem (sh : Shape) : LayerSem :=
  unarySem sh sh (fun x => Activations.reluForward x (buffer sh))
    fun _ x _ d => Activations.reluBackward x d (buffer sh)

/-- `ResizeLayer` (src/net/ResizeLayer.cpp:83-129). -/
noncomputable def resizeSem (bx by' : Nat) (sh : Shape) : LayerSem :=
  unarySem sh (Layers.resizeCreate bx by' sh)
    (fun x => Layers.resizeForward bx by' x (buffer (Layers.resizeCreate bx by' sh)))
    fun e _ _ d => Layers.resizeBackward bx by' e d (buffer sh)

/-- `UpscaleLayer` (src/net/UpscaleLayer.cpp:23-79). -/
noncomputable def upscaleSem (rw rh : Nat) (sh : Shape) : LayerSem :=
  unarySem sh ⟨sh.samples, sh.width * rw, sh.height * rh, sh.maps⟩
    (fun x => Layers.upscaleForward rw rh x (buffer ⟨sh.samples, sh.width * rw, sh.height * rh, sh.maps⟩))
    fun _ _ _ d => Layers.upscaleBackward rw rh d (buffer sh)

/-- `SpatialPriorLayer` (src/net/SpatialPriorLayer.cpp:60-93). -/
noncomputable def spatialSem (sh : Shape) : LayerSem :=
  unarySem sh ⟨sh.samples, sh.width, sh.height, sh.maps + 2⟩
    (fun x => Layers.spatialForward x (buffer ⟨sh.samples, sh.width, sh.height, sh.maps + 2⟩))
    fun _ _ _ d => Layers.spatialBackward d (buffer sh)

/-- `AdvancedMaxPoolingLayer` (src/net/AdvancedMaxPoolingLayer.cpp:100-243) with outputs of width `ow` and
height `oh`; the mask that the backward pass reads is the one left by the forward pass. -/
noncomputable def poolSem (lowest : ℝ) (rw rh sw sh ow oh : Nat) (inp : Shape) : LayerSem :=
  unarySem inp ⟨inp.samples, ow, oh, inp.maps⟩
    (fun x => (Pooling.advForward lowest rw rh sw sh x (Tensor.fill inp.samples ow oh inp.maps 0,
      buffer ⟨inp.samples, ow, oh, inp.maps⟩)).map (·.2))
    fun _ x _ d => (Pooling.advForward lowest rw rh sw sh x (Tensor.fill inp.samples ow oh inp.maps 0,
      buffer ⟨inp.samples, ow, oh, inp.maps⟩)).bind fun r => Pooling.advBackward rw rh sw sh r.1 d (buffer inp)

/-- `MaxPoolingLayer` (src/net/MaxPoolingLayer.cpp:72-102, 104-177, 179-235) with outputs of width `ow` and height
`oh`; the positions that the backward pass reads are those left by the forward pass. -/
noncomputable def maxPoolSem (lowest : ℝ) (rw rh ow oh : Nat) (inp : Shape) : LayerSem :=
  unarySem inp ⟨inp.samples, ow, oh, inp.maps⟩
    (fun x => (Pooling.forward lowest rw rh x ((Tensor.fill inp.samples ow oh inp.maps 0,
      Tensor.fill inp.samples ow oh inp.maps 0), buffer ⟨inp.samples, ow, oh, inp.maps⟩)).map (·.2))
    fun _ x _ d => (Pooling.forward lowest rw rh x ((Tensor.fill inp.samples ow oh inp.maps 0,
      Tensor.fill inp.samples ow oh inp.maps 0), buffer ⟨inp.samples, ow, oh, inp.maps⟩)).bind
      fun r => Pooling.backward r.1.1 r.1.2 d (buffer inp)

/-- `LocalResponseNormalizationLayer` (src/net/LocalResponseNormalizationLayer.cpp:78-191); the region sums that
the backward pass reads are those left by the forward pass. -/
noncomputable def lrnSem (c : Lrn.Config ℝ) (sh : Shape) : LayerSem :=
  unarySem sh sh (fun x => (Lrn.forward (fun a b : ℝ => a ^ b) c x (buffer sh, buffer sh)).map (·.2))
    fun _ x _ d => (Lrn.forward (fun a b : ℝ => a ^ b) c x (buffer sh, buffer sh)).bind
      fun r => Lrn.backward (fun a b : ℝ => a ^ b) c x r.1 d (buffer sh)

/-- `SoftmaxLayer` (src/net/ActivationFunctions.cpp:245-265). -/
noncomputable def softmaxSem (sh : Shape) : LayerSem :=
  unarySem sh sh (fun x => Activations.softmaxForward Real.exp x (buffer sh))
    fun _ x _ d => Activations.softmaxBackward x d (buffer sh)

/-- `HMaxActivationFunction` (src/net/HMaxActivationFunction.cpp:116-194) with parameters slope and offset;
`CalculateLossFunction` returns zero (196-200). -/
noncomputable def hmaxSem (c : HMax.Config ℝ) (sh : Shape) : LayerSem where
  forward p x _ := vecOfOption (HMax.forward Real.exp { c with a := p 0, b := p 1 } (tensorOf sh (x 0)) (buffer sh))
  loss _ _ := 0
  backward _ p x y d := match HMax.backward Real.log { c with a := p 0, b := p 1 } (tensorOf sh (x 0))
      (tensorOf sh (y 0)) (tensorOf sh (d 0)) (buffer sh) with
    | some (t, da, db) => (fun j => if j = 0 then some (vecOf t) else none, fun i => if i = 0 then da else db)
    | none => (fun _ => none, 0)

/-- A layer without parameters with two inputs and one output. -/
noncomputable def binarySem (a b out : Shape) (fwd : Tensor ℝ → Tensor ℝ → Option (Tensor ℝ))
    (back : Tensor ℝ → Option (Tensor ℝ × Tensor ℝ)) : LayerSem where
  forward _ x _ := vecOfOption (fwd (tensorOf a (x 0)) (tensorOf b (x 1)))
  loss _ _ := 0
  backward _ _ _ _ d := (fun j => if j = 0 then (back (tensorOf out (d 0))).map fun r => vecOf r.1
    else if j = 1 then (back (tensorOf out (d 0))).map fun r => vecOf r.2 else none, 0)

/-- `SumLayer` (src/net/SumLayer.cpp:105-114) for inputs of the same shape. -/
noncomputable def sumSem (sh : Shape) : LayerSem :=
  binarySem sh sh sh (fun a b => match Layers.sumForward a b (buffer sh) with
    | .done t => some t
    | _ => none) fun d => Layers.sumBackward d (buffer sh, buffer sh)

/-- `ConcatenationLayer` (src/net/ConcatenationLayer.cpp:98-118) for images of the same size. -/
noncomputable def concatSem (samples width height maps maps' : Nat) : LayerSem :=
  binarySem ⟨samples, width, height, maps⟩ ⟨samples, width, height, maps'⟩ ⟨samples, width, height, maps + maps'⟩
    (fun a b => Layers.concatForward a b (buffer ⟨samples, width, height, maps + maps'⟩))
    fun d => Layers.concatBackward d (buffer ⟨samples, width, height, maps⟩, buffer ⟨samples, width, height, maps'⟩)

/-- `ErrorLayer` (src/net/ErrorLayer.cpp:90-168) with inputs prediction, label and weight.  It has no outputs.
The deltas of the prediction are written by `FeedForward` already; as the layer is the only consumer after
`Initialize` (C21), they are still there when the backward pass calls the layer, whose `BackPropagate` does
nothing. -/
noncomputable def errorSem (lossWeight : ℝ) (sh wsh : Shape) : LayerSem where
  forward _ _ _ := 0
  loss _ x := (ErrorLayer.loss lossWeight (tensorOf sh (x 0)) (tensorOf sh (x 1)) (tensorOf wsh (x 2))).getD 0
  backward _ _ x _ _ := (fun j => if j = 0 then (ErrorLayer.forward lossWeight (tensorOf sh (x 0))
    (tensorOf sh (x 1)) (tensorOf wsh (x 2)) (buffer sh)).map vecOf else none, 0)

end CN24.Net
