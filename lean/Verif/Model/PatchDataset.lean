import Verif.Model.Dataset

/-
src/util/TensorStreamPatchDataset.cpp: index arithmetic (32-bit) and samples.  The streams are lists
of tensors (Model/Stream.lean has the files); memory mapping, class names and colours are left out,
apart from the check of their number.
-/

namespace CN24.PatchDataset
open CN24

variable {R : Type _}

/-- `unsigned int` subtraction. -/
def sub32 (a b : Nat) : Nat := (a + (2 ^ 32 - b % 2 ^ 32)) % 2 ^ 32

/-- `std::size_t` subtraction. -/
def sub64 (a b : Nat) : Nat := (a + (2 ^ 64 - b % 2 ^ 64)) % 2 ^ 64

/-- `unsigned int` conversion. -/
def u32 (a : Nat) : Nat := a % 2 ^ 32

/-- `unsigned int inner_width = width - (patchsize_x_ - 1);`, also for the height
(src/util/TensorStreamPatchDataset.cpp:125-126, 143-144, 223-224, 284-285). -/
def inner (size patch : Nat) : Nat := u32 (sub64 size (sub32 patch 1))

/-- The members set by the constructor. -/
structure Dataset (R : Type _) where
  px : Nat
  py : Nat
  data : List (Tensor R)
  labels : List (Tensor R)
  lastSample : List Nat
  training : Nat
  testing : Nat
  inputMaps : Nat
  labelMaps : Nat
  classWeights : List R

/-- `inner_width * inner_height` of image `t` (32-bit). -/
def area (px py : Nat) (t : Tensor R) : Nat := u32 (inner t.width px * inner t.height py)

/-- The loops that fill `last_sample_` (src/util/TensorStreamPatchDataset.cpp:122-156): the running
total, 32-bit.  `sum` is `last_sample_[t - 1]`, or 0 for the first image. -/
def lastSamples (px py : Nat) : Nat → List (Tensor R) → List Nat
  | _, [] => []
  | sum, t :: ts => u32 (sum + area px py t) :: lastSamples px py (u32 (sum + area px py t)) ts

/-- `sample_count_training_` and `sample_count_testing_`
(src/util/TensorStreamPatchDataset.cpp:133,151). -/
def sampleCount (px py : Nat) (images : List (Tensor R)) : Nat :=
  images.foldl (fun c t => u32 (c + area px py t)) 0

/-- Number of maps of the first tensor, 0 for the default tensor of an empty dataset
(src/util/TensorStreamPatchDataset.cpp:158-159). -/
def firstMaps : List (Tensor R) → Nat
  | [] => 0
  | t :: _ => t.maps

/-- The constructor (src/util/TensorStreamPatchDataset.cpp:35-160) on streams that hold the pairs
`training` and `testing` of images and labels.  `trainingTail`, `testingTail`: a tensor is left over
(odd count). -/
def construct (px py : Nat) (training testing : List (Tensor R × Tensor R))
    (trainingTail testingTail : Bool) (classes names colors : Nat) (classWeights : List R) :
    Outcome (Dataset R) :=
  if classes ≠ names ∨ classes ≠ colors then .fatal
  else if trainingTail then .fatal
  else if testingTail then .fatal
  else .done
    { px, py, classWeights
      data := training.map (·.1) ++ testing.map (·.1)
      labels := training.map (·.2) ++ testing.map (·.2)
      lastSample := lastSamples px py 0 (training.map (·.1) ++ testing.map (·.1))
      training := sampleCount px py (training.map (·.1))
      testing := sampleCount px py (testing.map (·.1))
      inputMaps := firstMaps (training.map (·.1) ++ testing.map (·.1))
      labelMaps := firstMaps (training.map (·.2) ++ testing.map (·.2)) }

/-- `while ((t < tensors_) && (index >= last_sample_[t])) t++;`
(src/util/TensorStreamPatchDataset.cpp:217-218,278-279). -/
def findPatch (index : Nat) : List Nat → Nat
  | [] => 0
  | l :: ls => if l ≤ index then findPatch index ls + 1 else 0

section
variable [Field R] [LinearOrder R]

/-- The copy of the patch (src/util/TensorStreamPatchDataset.cpp:234-240,295-301); `memcpy` is an
element-wise loop. -/
def copyPatch (image : Tensor R) (maps px py col row sample : Nat) (data : Tensor R) :
    Option (Tensor R) :=
  forLoop maps (fun map =>
    forLoop py (fun y =>
      forLoop px (fun i data =>
        (rd image.data (image.offset col (row + y) map 0 + i)).bind fun v =>
          data.putElem (data.offset 0 y map sample + i) v))) data

/-- The copy of the label (src/util/TensorStreamPatchDataset.cpp:243-246,304-307). -/
def copyLabel (label : Tensor R) (maps px py col row sample : Nat) (out : Tensor R) :
    Option (Tensor R) :=
  forLoop maps (fun map out =>
    (label.get (col + px / 2) (row + py / 2) map 0).bind fun v => out.put 0 0 map sample v) out

/-- The copies at a position (lines 233-266 of `GetTrainingSample`, 294-327 of `GetTestingSample`). -/
def fetchPatch (lowest : R) (errorFunction : Nat → Nat → Nat → Nat → R) (ds : Dataset R)
    (outs : Outputs R) (sample : Nat) (image label : Tensor R) (col row : Nat) :
    Option (Bool × Outputs R) :=
  (copyPatch image ds.inputMaps ds.px ds.py col row sample outs.data).bind fun data =>
  (copyLabel label ds.labelMaps ds.px ds.py col row sample outs.label).bind fun lab =>
  (outs.helper.put 0 0 0 sample
    (if 1 < image.width then (col : R) / ((image.width : R) - 1) else 0)).bind fun helper =>
  (helper.put 0 0 1 sample
    (if 1 < image.height then (row : R) / ((image.height : R) - 1) else 0)).bind fun helper =>
  (lab.pixelMaximum lowest 0 0 sample).bind fun cls =>
  (rd ds.classWeights cls).bind fun classWeight =>
  (outs.error.put 0 0 0 sample (errorFunction (col + ds.px / 2) (row + ds.py / 2) image.width
    image.height * classWeight)).bind fun error =>
  some (true, { data, label := lab, helper, error })

/-- Row of the patch in the image (lines 226-230, 287-291), `none` for a division by zero. -/
def patchRow (px py width height last index : Nat) : Option Nat :=
  if sub64 width (sub32 px 1) = 0 then none
  else some (u32 (sub32 index (sub32 last (u32 (inner width px * inner height py))) /
    sub64 width (sub32 px 1)))

/-- Column of the patch in row `row` of the image (lines 226-227,231 and 287-288,292). -/
def patchCol (px py width height last index row : Nat) : Nat :=
  u32 (sub64 (sub32 index (sub32 last (u32 (inner width px * inner height py))))
    (row * sub64 width (sub32 px 1)))

/-- Common body of `GetTrainingSample` (lines 212-266) and `GetTestingSample` (lines 273-327) once
`index` counts through the training and testing patches. -/
def getPatch (lowest : R) (errorFunction : Nat → Nat → Nat → Nat → R) (ds : Dataset R)
    (outs : Outputs R) (sample index : Nat) : Option (Bool × Outputs R) :=
  (rd ds.lastSample (findPatch index ds.lastSample)).bind fun last =>
  if last ≤ index then some (false, outs)
  else
    (rd ds.data (findPatch index ds.lastSample)).bind fun image =>
    (rd ds.labels (findPatch index ds.lastSample)).bind fun label =>
    (patchRow ds.px ds.py image.width image.height last index).bind fun row =>
    fetchPatch lowest errorFunction ds outs sample image label
      (patchCol ds.px ds.py image.width image.height last index row) row

/-- `GetTrainingSample` (src/util/TensorStreamPatchDataset.cpp:210-268). -/
def getTrainingSample (lowest : R) (errorFunction : Nat → Nat → Nat → Nat → R) (ds : Dataset R)
    (outs : Outputs R) (sample index : Nat) : Option (Bool × Outputs R) :=
  if index < ds.training then getPatch lowest errorFunction ds outs sample index
  else some (false, outs)

/-- `GetTestingSample` (src/util/TensorStreamPatchDataset.cpp:270-329).  Note line 272: the number of
*testing* samples is added to the index. -/
def getTestingSample (lowest : R) (errorFunction : Nat → Nat → Nat → Nat → R) (ds : Dataset R)
    (outs : Outputs R) (sample index : Nat) : Option (Bool × Outputs R) :=
  if index < ds.testing then
    getPatch lowest errorFunction ds outs sample (u32 (index + ds.testing))
  else some (false, outs)

end
end CN24.PatchDataset
