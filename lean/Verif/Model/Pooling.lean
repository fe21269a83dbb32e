import Verif.Model.Tensor
import Verif.Base.Outcome
import Mathlib.Algebra.Group.Defs

/-
Model of the two max-pooling layers, host path (no BUILD_OPENCL):
src/net/MaxPoolingLayer.cpp and src/net/AdvancedMaxPoolingLayer.cpp.

Simplifications: values are an arbitrary ordered type (no NaN), deltas an arbitrary type with
addition; `unsigned int` products do not overflow; parallel loops run in sequence.
-/

namespace CN24.Pooling
open CN24

/-- The value of `(float) n` for an unsigned integer: 24 significant bits, ties to even. -/
def toF32 (n : Nat) : Nat :=
  if n < 2 ^ 24 then n
  else
    let e := n.log2 - 23
    let q := n / 2 ^ e
    let r := n % 2 ^ e
    if 2 ^ (e - 1) < r ∨ (r = 2 ^ (e - 1) ∧ q % 2 = 1) then (q + 1) * 2 ^ e else q * 2 ^ e

/-- One step of the maximum search: `if (ival > maximum) { maximum = ival; mix = ix; miy = iy; }`
(src/net/MaxPoolingLayer.cpp:154-162, src/net/AdvancedMaxPoolingLayer.cpp:152-158). -/
def scanStep {α : Type _} [LT α] [DecidableLT α] (ix iy : Nat) (ival : α) (st : α × Nat × Nat) :
    α × Nat × Nat :=
  if st.1 < ival then (ival, ix, iy) else st

section MaxPooling
variable {α : Type _}

/-- `MaxPoolingLayer::CreateOutputs` (src/net/MaxPoolingLayer.cpp:36-70) for one non-null input:
size of the output, `none` for `return false`; a zero region is a division by zero. -/
def createOutputs (regionWidth regionHeight width height : Nat) : Outcome (Option (Nat × Nat)) :=
  if regionWidth = 0 then .undefined
  else if width % regionWidth ≠ 0 then .done none
  else if regionHeight = 0 then .undefined
  else if height % regionHeight ≠ 0 then .done none
  else .done (some (width / regionWidth, height / regionHeight))

/-- `MaxPoolingLayer::FeedForward` (src/net/MaxPoolingLayer.cpp:104-177).  The state is
`maximum_ix_`, `maximum_iy_` and the output; the recorded positions pass through `float`. -/
def forward [LT α] [DecidableLT α] (lowest : α) (rw rh : Nat) (input : Tensor α)
    (st : (Tensor Nat × Tensor Nat) × Tensor α) : Option ((Tensor Nat × Tensor Nat) × Tensor α) :=
  forLoop input.samples (fun sample => forLoop input.maps (fun map =>
    forLoop st.2.width (fun ox => forLoop st.2.height (fun oy st =>
      (forLoop rw (fun i => forLoop rh (fun j s =>
        (input.get (ox * rw + i) (oy * rh + j) map sample).map fun ival =>
          scanStep (ox * rw + i) (oy * rh + j) ival s)) (lowest, 0, 0)).bind fun r =>
      (st.1.1.put ox oy map sample (toF32 r.2.1)).bind fun mx =>
      (st.1.2.put ox oy map sample (toF32 r.2.2)).bind fun my =>
      (st.2.put ox oy map sample r.1).map fun out => ((mx, my), out))))) st

/-- `MaxPoolingLayer::BackPropagate` (src/net/MaxPoolingLayer.cpp:179-235). -/
def backward {β : Type _} [Zero β] (mx my : Tensor Nat) (outputDelta inputDelta : Tensor β) :
    Option (Tensor β) :=
  (inputDelta.clear 0 none).bind fun inputDelta =>
  forLoop inputDelta.samples (fun sample => forLoop inputDelta.maps (fun map =>
    forLoop outputDelta.width (fun ox => forLoop outputDelta.height (fun oy d =>
      (mx.get ox oy map sample).bind fun ix =>
      (my.get ox oy map sample).bind fun iy =>
      (outputDelta.get ox oy map sample).bind fun v =>
      d.put ix iy map sample v)))) inputDelta

end MaxPooling

section Advanced
variable {α : Type _}

/-- The output size in `AdvancedMaxPoolingLayer::CreateOutputs`
(src/net/AdvancedMaxPoolingLayer.cpp:62-63): `int` division truncates. -/
def advDim (input region stride : Nat) : Int := ((input : Int) - region).tdiv stride + 1

/-- `AdvancedMaxPoolingLayer::CreateOutputs` (src/net/AdvancedMaxPoolingLayer.cpp:44-74): never
refuses.  The sizes are those passed to the constructor of `CombinedTensor`, which takes unsigned
integers; a zero stride is a division by zero. -/
def advCreateOutputs (rw rh sw sh width height : Nat) : Outcome (Option (Int × Int)) :=
  if sw = 0 ∨ sh = 0 then .undefined
  else .done (some (advDim width rw sw, advDim height rh sh))

/-- `AdvancedMaxPoolingLayer::FeedForward` (src/net/AdvancedMaxPoolingLayer.cpp:100-172).  The
state is `maximum_mask_` and the output; the mask passes through `float`. -/
def advForward [LT α] [DecidableLT α] (lowest : α) (rw rh sw sh : Nat) (input : Tensor α)
    (st : Tensor Nat × Tensor α) : Option (Tensor Nat × Tensor α) :=
  forLoop input.samples (fun sample => forLoop input.maps (fun map =>
    forLoop st.2.width (fun ox => forLoop st.2.height (fun oy st =>
      (forLoop rh (fun j => forLoop rw (fun i s =>
        (input.get (ox * sw + i) (oy * sh + j) map sample).map fun ival =>
          scanStep (ox * sw + i) (oy * sh + j) ival s)) (lowest, 0, 0)).bind fun r =>
      (st.1.put ox oy map sample (toF32 (input.width * r.2.2 + r.2.1))).bind fun mask =>
      (st.2.put ox oy map sample r.1).map fun out => (mask, out))))) st

/-- First output column that may contain input column `i`
(src/net/AdvancedMaxPoolingLayer.cpp:222-223, 226-227). -/
def advStart (i region stride : Nat) : Nat := if i < region then 0 else (i - region) / stride + 1

/-- One past the last output column (src/net/AdvancedMaxPoolingLayer.cpp:224, 228). -/
def advEnd (i stride output : Nat) : Nat := min (i / stride + 1) output

/-- `AdvancedMaxPoolingLayer::BackPropagate` (src/net/AdvancedMaxPoolingLayer.cpp:174-243).  The
comparison converts the integer index to `float`. -/
def advBackward {β : Type _} [Zero β] [Add β] (rw rh sw sh : Nat) (mask : Tensor Nat)
    (outputDelta inputDelta : Tensor β) : Option (Tensor β) :=
  if sw = 0 ∨ sh = 0 then none
  else
    forLoop inputDelta.samples (fun sample => forLoop inputDelta.maps (fun map =>
      forLoop inputDelta.width (fun ix => forLoop inputDelta.height (fun iy d =>
        (forRange (advStart iy rh sh) (advEnd iy sh outputDelta.height) (fun oy =>
          forRange (advStart ix rw sw) (advEnd ix sw outputDelta.width) (fun ox sum =>
            (mask.get ox oy map sample).bind fun k =>
            if k = toF32 (ix + inputDelta.width * iy) then
              (outputDelta.get ox oy map sample).map fun v => sum + v
            else some sum)) 0).bind fun sum =>
        d.put ix iy map sample sum)))) inputDelta

end Advanced

end CN24.Pooling
