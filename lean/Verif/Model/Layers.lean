import Verif.Model.TensorMath
import Verif.Base.Nest

/-
Layers that move data without changing it: concatenation, sum, resize, gradient accumulation,
up-scaling, input down-sampling and the spatial prior layer.

Common simplifications: the checks of the number of inputs and for null pointers are left out, as
the model has no null pointers; sizes are natural numbers (the C++ computes sizes with `unsigned
int`, so statements apply to sizes below 2^32).  `OpenCL` moves are left out (host build).  The
`#pragma omp parallel for` loops run in order here; C51 is about the other orders.
-/

namespace CN24

/-- The four dimensions of a tensor, as passed to `CombinedTensor`'s constructor
(include/cn24/util/CombinedTensor.h:36-41). -/
structure Shape where
  samples : Nat
  width : Nat
  height : Nat
  maps : Nat
  deriving DecidableEq, Repr

namespace Shape

/-- `Tensor::elements` of a tensor of this shape (include/cn24/util/Tensor.h). -/
def elements (s : Shape) : Nat := s.samples * s.maps * s.height * s.width

end Shape

namespace Tensor
variable {α : Type _}

/-- The dimensions of a tensor. -/
def shape (t : Tensor α) : Shape := ⟨t.samples, t.width, t.height, t.maps⟩

/-- `std::memcpy` of `n` elements between two buffers, as the element loop: reading or writing
outside a buffer is undefined. -/
def memcpy (source : Tensor α) (so : Nat) (target : Tensor α) (dst n : Nat) : Option (Tensor α) :=
  forLoop n (fun i t => (rd source.data (so + i)).bind fun v => t.putElem (dst + i) v) target

end Tensor

namespace Layers
open Tensor
variable {R : Type _}

/-! ## Concatenation -/

/-- `ConcatenationLayer::CreateOutputs` (src/net/ConcatenationLayer.cpp:19-52): a difference in
width and height is only logged, only the number of samples is checked. -/
def concatCreate (a b : Shape) : Option Shape :=
  if a.samples ≠ b.samples then none
  else some ⟨a.samples, a.width, b.height, a.maps + b.maps⟩

/-- `ConcatenationLayer::Connect` (src/net/ConcatenationLayer.cpp:54-96). -/
def concatConnect (a b output : Shape) : Bool :=
  if a.samples ≠ b.samples then false
  else if output.elements ≠ a.elements + b.elements then false
  else true

/-- `ConcatenationLayer::FeedForward` (src/net/ConcatenationLayer.cpp:98-107).  The result of
`CopyMap` is ignored by the code. -/
def concatForward [Zero R] (a b output : Tensor R) : Option (Tensor R) :=
  forLoop a.samples (fun s output =>
    (forLoop a.maps (fun m output => (copyMap a s m output s m).map (·.2)) output).bind
    (forLoop b.maps (fun m output => (copyMap b s m output s (a.maps + m)).map (·.2)))) output

/-- `ConcatenationLayer::BackPropagate` (src/net/ConcatenationLayer.cpp:109-118); the state is the
pair of the input deltas. -/
def concatBackward [Zero R] (outputDelta : Tensor R) (st : Tensor R × Tensor R) :
    Option (Tensor R × Tensor R) :=
  forLoop st.1.samples (fun s st' =>
    (forLoop st.1.maps (fun m da => (copyMap outputDelta s m da s m).map (·.2)) st'.1).bind fun da =>
    (forLoop st.2.maps (fun m db => (copyMap outputDelta s (st.1.maps + m) db s m).map (·.2))
      st'.2).map fun db => (da, db)) st

/-! ## Sum -/

/-- `SumLayer::CreateOutputs` (src/net/SumLayer.cpp:20-59). -/
def sumCreate (a b : Shape) : Option Shape :=
  if a.samples ≠ b.samples then none
  else if a.maps ≠ b.maps then none
  else some ⟨a.samples, a.width, b.height, a.maps⟩

/-- `SumLayer::Connect` (src/net/SumLayer.cpp:61-103).  If the first half of the size check fails,
the second half reads the number of elements through the member `output_`, which has not been set
yet: undefined. -/
def sumConnect (a b output : Shape) : Outcome Bool :=
  if a.samples ≠ b.samples then .done false
  else if output.elements ≠ a.elements then .undefined
  else .done true

/-- `SumLayer::FeedForward` (src/net/SumLayer.cpp:105-107). -/
def sumForward [CommRing R] (a b output : Tensor R) : Outcome (Tensor R) :=
  TensorMath.add a b output

/-- `SumLayer::BackPropagate` (src/net/SumLayer.cpp:109-114). -/
def sumBackward [Zero R] (outputDelta : Tensor R) (st : Tensor R × Tensor R) :
    Option (Tensor R × Tensor R) :=
  forLoop st.1.samples (fun sample st =>
    (copySample outputDelta sample st.1 sample).bind fun r =>
    (copySample outputDelta sample st.2 sample).map fun q => (r.2, q.2)) st

/-! ## Resize -/

/-- `ResizeLayer::CreateOutputs` (src/net/ResizeLayer.cpp:37-63). -/
def resizeCreate (bx by' : Nat) (input : Shape) : Shape :=
  ⟨input.samples, input.width + bx, input.height + by', input.maps⟩

/-- `ResizeLayer::Connect` (src/net/ResizeLayer.cpp:65-81). -/
def resizeConnect (bx by' : Nat) (input output : Shape) : Outcome Bool :=
  if input.maps ≠ output.maps ∨ input.width + bx ≠ output.width ∨
      input.height + by' ≠ output.height ∨ input.samples ≠ output.samples then .fatal
  else .done true

/-- `ResizeLayer::FeedForward` (src/net/ResizeLayer.cpp:83-103). -/
def resizeForward [Zero R] (bx by' : Nat) (input output : Tensor R) : Option (Tensor R) :=
  (output.clear 0 none).bind
  (forLoop input.samples fun sample => forLoop input.maps fun map => forLoop input.height
    fun y output => memcpy input (input.offset 0 y map sample) output
      (output.offset (bx / 2) (y + by' / 2) map sample) input.width)

/-- `ResizeLayer::BackPropagate` (src/net/ResizeLayer.cpp:105-129). -/
def resizeBackward [Zero R] (bx by' : Nat) (backpropEnabled : Bool) (outputDelta inputDelta : Tensor R) :
    Option (Tensor R) :=
  if backpropEnabled then
    (inputDelta.clear 0 none).bind
    (forLoop inputDelta.samples fun sample => forLoop inputDelta.maps fun map =>
      forLoop inputDelta.height fun y delta =>
        memcpy outputDelta (outputDelta.offset (bx / 2) (y + by' / 2) map sample) delta
          (delta.offset 0 y map sample) inputDelta.width)
  else some inputDelta

/-! ## Gradient accumulation -/

/-- `GradientAccumulationLayer::BackPropagate` (src/net/GradientAccumulationLayer.cpp:96-107), with
`samples_` and `elements_per_sample_` as set by `Connect` (lines 85-86) from the input; the list are
the deltas of the outputs. -/
def accumulate [Zero R] [Add R] (outputDeltas : List (Tensor R)) (inputDelta : Tensor R) :
    Option (Tensor R) :=
  (inputDelta.clear 0 none).bind
  (forLoop inputDelta.samples fun s =>
    forLoop (inputDelta.width * inputDelta.height * inputDelta.maps) fun e =>
      forLoop outputDeltas.length fun i delta =>
        (rd outputDeltas i).bind fun output =>
        (rd delta.data (s * (inputDelta.width * inputDelta.height * inputDelta.maps) + e)).bind fun v =>
        (rd output.data (s * (inputDelta.width * inputDelta.height * inputDelta.maps) + e)).bind fun w =>
        delta.putElem (s * (inputDelta.width * inputDelta.height * inputDelta.maps) + e) (v + w))

/-! ## Up-scaling and input down-sampling -/

/-- `UpscaleLayer::FeedForward` (src/net/UpscaleLayer.cpp:73-75). -/
def upscaleForward [Zero R] [One R] [Add R] [Mul R] (rw rh : Nat) (input output : Tensor R) : Option (Tensor R) :=
  TensorMath.up input output rw rh 1

/-- `UpscaleLayer::BackPropagate` (src/net/UpscaleLayer.cpp:77-79). -/
def upscaleBackward [CommRing R] (rw rh : Nat) (outputDelta inputDelta : Tensor R) :
    Option (Tensor R) :=
  TensorMath.down outputDelta inputDelta rw rh 1

/-- `InputDownSamplingLayer::FeedForward` (src/net/InputDownSamplingLayer.cpp:80-82). -/
def downsampleForward [Zero R] [One R] [Add R] [Mul R] [Div R] [NatCast R] (rw rh : Nat) (input output : Tensor R) :
    Option (Tensor R) :=
  TensorMath.down input output rw rh (1 / ((rw : R) * (rh : R)))

/-! ## Spatial prior -/

/-- `SpatialPriorLayer::FeedForward` (src/net/SpatialPriorLayer.cpp:60-81).  Every map is copied
once per row, as in the code. -/
def spatialForward [Field R] (input output : Tensor R) : Option (Tensor R) :=
  (output.clear 1 none).bind
  (forLoop input.samples fun sample output =>
    (forRange 2 (input.maps + 2) (fun map => forLoop input.height fun _ output =>
      (copyMap input sample (map - 2) output sample map).map (·.2)) output).bind
    (forLoop input.height fun y => forLoop input.width fun x output =>
      (output.put x y 0 sample ((x : R) / (input.width : R))).bind fun output =>
      output.put x y 1 sample ((y : R) / (input.height : R))))

/-- `SpatialPriorLayer::BackPropagate` (src/net/SpatialPriorLayer.cpp:83-93). -/
def spatialBackward [Zero R] (outputDelta inputDelta : Tensor R) : Option (Tensor R) :=
  forLoop inputDelta.samples (fun sample =>
    forRange 2 (inputDelta.maps + 2) fun map => forLoop inputDelta.height fun _ delta =>
      (copyMap outputDelta sample map delta sample (map - 2)).map (·.2)) inputDelta

end Layers
end CN24
