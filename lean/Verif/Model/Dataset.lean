import Verif.Model.Tensor
import Verif.Base.Outcome
import Mathlib.Algebra.Field.Basic
import Mathlib.Algebra.Order.Ring.Defs

/-
src/util/TensorStreamDataset.cpp on float tensor streams: announced dimensions and samples.
Streams are lists of tensors (see Model/Stream.lean for the files); memory mapping, `#pragma omp`
and the class names and colours are left out, apart from the check of their number.
-/

namespace CN24

/-- The four tensors an input layer passes to the dataset. -/
structure Outputs (R : Type _) where
  data : Tensor R
  label : Tensor R
  helper : Tensor R
  error : Tensor R
  deriving DecidableEq

namespace TensorStreamDataset

variable {R : Type _}

/-- `FloatTensorStream::GetWidth` (include/cn24/util/FloatTensorStream.h:33). -/
def streamWidth (stream : List (Tensor R)) (index : Nat) : Nat :=
  match stream[index]? with
  | some t => t.width
  | none => 0

/-- `FloatTensorStream::GetHeight` (include/cn24/util/FloatTensorStream.h:34). -/
def streamHeight (stream : List (Tensor R)) (index : Nat) : Nat :=
  match stream[index]? with
  | some t => t.height
  | none => 0

/-- `FloatTensorStream::GetMaps` (include/cn24/util/FloatTensorStream.h:35). -/
def streamMaps (stream : List (Tensor R)) (index : Nat) : Nat :=
  match stream[index]? with
  | some t => t.maps
  | none => 0

/-- `FloatTensorStream::CopySample` (src/util/FloatTensorStream.cpp:55-62). -/
def streamCopySample [Zero R] (stream : List (Tensor R)) (source sourceSample : Nat)
    (target : Tensor R) (targetSample : Nat) : Option (Bool × Tensor R) :=
  match stream[source]? with
  | some t => t.copySample sourceSample target targetSample
  | none => some (false, target)

/-- `if (w & bit) w += bit;` -/
def bump (bit w : Nat) : Nat := if w &&& bit ≠ 0 then w + bit else w

/-- The six steps of rounding (src/util/TensorStreamDataset.cpp:98-126). -/
def roundUp (w : Nat) : Nat := bump 32 (bump 16 (bump 8 (bump 4 (bump 2 (bump 1 w)))))

/-- `if (v > max) max = v` over `t` in `[a, b)` (src/util/TensorStreamDataset.cpp:82-96). -/
def maxOver (a b : Nat) (v : Nat → Nat) (start : Nat) : Nat :=
  (List.range (b - a)).foldl (fun m i => if v (a + i) > m then v (a + i) else m) start

/-- The members set by the constructor. -/
structure Dataset (R : Type _) where
  training : List (Tensor R)
  testing : List (Tensor R)
  classWeights : List R
  maxWidth : Nat
  maxHeight : Nat
  inputMaps : Nat
  labelMaps : Nat

/-- The constructor (src/util/TensorStreamDataset.cpp:30-146).  The error cache, which is never
read, is left out.  `classes`, `names`, `colors` are the counts compared in lines 48-51. -/
def construct (training testing : List (Tensor R)) (classes names colors : Nat)
    (classWeights : List R) : Outcome (Dataset R) :=
  if classes ≠ names ∨ classes ≠ colors then .fatal
  else if training.length % 2 = 1 then .fatal
  else if testing.length % 2 = 1 then .fatal
  else
    let tensors := (testing.length + training.length) / 2
    let w := maxOver (training.length / 2) tensors (fun t => streamWidth testing (2 * t))
      (maxOver 0 (training.length / 2) (fun t => streamWidth training (2 * t)) 0)
    let h := maxOver (training.length / 2) tensors (fun t => streamHeight testing (2 * t))
      (maxOver 0 (training.length / 2) (fun t => streamHeight training (2 * t)) 0)
    let from' := if training.length > 0 then training else testing
    .done { training, testing, classWeights, maxWidth := roundUp w, maxHeight := roundUp h,
            inputMaps := streamMaps from' 0, labelMaps := streamMaps from' 1 }

section
variable [Field R] [LinearOrder R]

/-- The spatial prior written to the helper tensor (src/util/TensorStreamDataset.cpp:206-221 and
252-267).  For images one pixel wide (or high) the C++ divides `0.0f` by `0.0f`; the model's division
by zero gives 0 there. -/
def writeHelper (dataWidth dataHeight width height sample : Nat) (helper : Tensor R) :
    Option (Tensor R) :=
  (forLoop dataHeight (fun y helper =>
    (forLoop dataWidth (fun x helper =>
      (helper.put x y 0 sample ((x : R) / ((dataWidth : R) - 1))).bind fun helper =>
        helper.put x y 1 sample ((y : R) / ((dataHeight : R) - 1))) helper).bind
    (forRange dataWidth width (fun x helper =>
      (helper.put x y 0 sample 0).bind fun helper => helper.put x y 1 sample 0))) helper).bind
  (forRange dataHeight height (fun y =>
    forLoop width (fun x helper =>
      (helper.put x y 0 sample 0).bind fun helper => helper.put x y 1 sample 0)))

/-- The error weights (src/util/TensorStreamDataset.cpp:227-235 and 273-281). -/
def writeWeights (lowest : R) (errorFunction : Nat → Nat → Nat → Nat → R) (classWeights : List R)
    (label : Tensor R) (dataWidth dataHeight sample : Nat) (weight : Tensor R) :
    Option (Tensor R) :=
  (weight.clear 0 (some sample)).bind
  (forLoop dataHeight (fun y =>
    forLoop dataWidth (fun x weight =>
      (label.pixelMaximum lowest x y sample).bind fun cls =>
      (rd classWeights cls).bind fun classWeight =>
      weight.put x y 0 sample (errorFunction x y dataWidth dataHeight * classWeight))))

/-- The common body of `GetTrainingSample` (lines 198-238) and `GetTestingSample` (lines 244-284),
which differ only in the stream. -/
def getSample (lowest : R) (errorFunction : Nat → Nat → Nat → Nat → R) (ds : Dataset R)
    (stream : List (Tensor R)) (outs : Outputs R) (sample index : Nat) :
    Option (Bool × Outputs R) :=
  (streamCopySample stream (2 * index) 0 outs.data sample).bind fun d =>
  (streamCopySample stream (2 * index + 1) 0 outs.label sample).bind fun l =>
  (writeHelper (streamWidth stream (2 * index)) (streamHeight stream (2 * index)) ds.maxWidth
    ds.maxHeight sample outs.helper).bind fun helper =>
  (writeWeights lowest errorFunction ds.classWeights l.2 (streamWidth stream (2 * index))
    (streamHeight stream (2 * index)) sample outs.error).bind fun error =>
  some (d.1 && l.1, { data := d.2, label := l.2, helper, error })

/-- `GetTrainingSample` (src/util/TensorStreamDataset.cpp:196-240). -/
def getTrainingSample (lowest : R) (errorFunction : Nat → Nat → Nat → Nat → R) (ds : Dataset R)
    (outs : Outputs R) (sample index : Nat) : Option (Bool × Outputs R) :=
  if index < ds.training.length / 2 then
    getSample lowest errorFunction ds ds.training outs sample index
  else some (false, outs)

/-- `GetTestingSample` (src/util/TensorStreamDataset.cpp:242-286). -/
def getTestingSample (lowest : R) (errorFunction : Nat → Nat → Nat → Nat → R) (ds : Dataset R)
    (outs : Outputs R) (sample index : Nat) : Option (Bool × Outputs R) :=
  if index < ds.testing.length / 2 then
    getSample lowest errorFunction ds ds.testing outs sample index
  else some (false, outs)

end
end TensorStreamDataset
end CN24
