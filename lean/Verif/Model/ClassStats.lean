import Verif.Model.Dataset

/-
tools/tensorStreamStats.cpp: the tool that counts the pixels of every class of a dataset and suggests
how to correct the class weights.  Reading the dataset description is in Model/DatasetConfig.lean,
the samples are in Model/Dataset.lean.  `long double` sums are exact; the printed numbers are the
values before `operator<<` and before the casts to `long` of lines 97 and 111.
-/

namespace CN24.ClassStats
open CN24 CN24.TensorStreamDataset

variable {R : Type _}

/-- `pixel_counts` and `pixel_counts_weighted` (tools/tensorStreamStats.cpp:42-43). -/
structure Counts (R : Type _) where
  plain : List R
  weighted : List R
  deriving DecidableEq, Repr

/-- The arrays before the first sample (tools/tensorStreamStats.cpp:42-47). -/
def start [Zero R] (classes : Nat) : Counts R :=
  ⟨List.replicate classes 0, List.replicate classes 0⟩

section
variable [Field R] [LinearOrder R]

/-- One pixel (tools/tensorStreamStats.cpp:54-58).  `none`: a subscript is out of range. -/
def countPixel (lowest : R) (classWeights : List R) (label weight : Tensor R) (y x : Nat)
    (c : Counts R) : Option (Counts R) :=
  (label.pixelMaximum lowest x y 0).bind fun cls =>
  (weight.get x y 0 0).bind fun w =>
  (rd c.plain cls).bind fun a =>
  (wr c.plain cls (a + w)).bind fun plain =>
  (rd classWeights cls).bind fun cw =>
  (rd c.weighted cls).bind fun b =>
  (wr c.weighted cls (b + w * cw)).bind fun weighted =>
  some ⟨plain, weighted⟩

/-- The loops over the pixels (tools/tensorStreamStats.cpp:52-60). -/
def countSample (lowest : R) (ds : Dataset R) (o : Outputs R) (c : Counts R) : Option (Counts R) :=
  forLoop ds.maxHeight (fun y =>
    forLoop ds.maxWidth (fun x => countPixel lowest ds.classWeights o.label o.error y x)) c

/-- The body of the loop over the samples (tools/tensorStreamStats.cpp:49-61); the result of
`GetTrainingSample` is ignored.  The state is the four tensors and the arrays. -/
def countBody (lowest : R) (ef : Nat → Nat → Nat → Nat → R) (ds : Dataset R) (i : Nat)
    (st : Outputs R × Counts R) : Option (Outputs R × Counts R) :=
  (getTrainingSample lowest ef ds st.1 0 i).bind fun r =>
  (countSample lowest ds r.2 st.2).map fun c => (r.2, c)

/-- The counting part of the tool (tools/tensorStreamStats.cpp:42-61); `outs` are the four tensors of
lines 34-37, whose elements are not initialised. -/
def count (lowest : R) (ef : Nat → Nat → Nat → Nat → R) (ds : Dataset R) (classes : Nat)
    (outs : Outputs R) : Option (Counts R) :=
  (forLoop (ds.training.length / 2) (countBody lowest ef ds) (outs, start classes)).map (·.2)

/-- `total_pixels` (tools/tensorStreamStats.cpp:63-74). -/
def total (counts : List R) : R := counts.foldl (fun t c => t + c) 0

/-- `total_classes` (tools/tensorStreamStats.cpp:63-74). -/
def occurring (counts : List R) : R := counts.foldl (fun t c => if 0 < c then t + 1 else t) 0

/-- One line of a table (tools/tensorStreamStats.cpp:92-97 and 106-111). -/
structure Row (R : Type _) where
  count : R
  ratio : R
  correction : R
  corrected : R
  deriving DecidableEq, Repr

/-- The line of one class (tools/tensorStreamStats.cpp:91-98 and 105-112).  Without any pixel the C++
divides by zero and prints `nan`; the model's division by zero gives 0 there. -/
def row (counts : List R) (c : R) : Row R :=
  let expected := 1 / occurring counts
  let actual := c / total counts
  let correction := if 0 < c then expected / actual else 0
  ⟨c, actual, correction, correction * c⟩

/-- A table (tools/tensorStreamStats.cpp:75-112). -/
def table (counts : List R) : List (Row R) := counts.map (row counts)

end
end CN24.ClassStats
