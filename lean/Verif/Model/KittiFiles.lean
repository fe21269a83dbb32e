import Verif.Model.MatrixReport

/-
The names of the files of the KITTI road data (src/util/KITTIData.cpp:19-80, include/cn24/util/KITTIData.h:24-48).
Texts are lists of characters.
-/

namespace CN24.KittiFiles
open CN24 CN24.Config CN24.MatrixReport

/-- `KITTICategory` (include/cn24/util/KITTIData.h:24-29).  Numbers outside the enumeration are not modelled. -/
inductive Category where
  | um | umm | uu | urban
  deriving DecidableEq, Repr

/-- `KITTIData` (include/cn24/util/KITTIData.h:43-45). -/
structure Data where
  trainingImages : Str
  trainingTruth : Str
  testingImages : Str

/-- The constructor (src/util/KITTIData.cpp:19-24). -/
def create (source : Str) : Data where
  trainingImages := source ++ "training/image_2/".toList
  trainingTruth := source ++ "training/gt_image_2/".toList
  testingImages := source ++ "testing/image_2/".toList

/-- The prefix of a category (src/util/KITTIData.cpp:59-72). -/
def filePrefix : Category → Str
  | .um => "um_".toList
  | .umm => "umm_".toList
  | .uu => "uu_".toList
  | .urban => "urban_".toList

/-- `std::setfill('0') << std::right << std::setw(6) << number` (src/util/KITTIData.cpp:74-75): the zeros stand before the
sign. -/
def padded (number : Int) : Str := List.replicate (6 - (integer number).length) '0' ++ integer number

/-- `assembleFileName` (src/util/KITTIData.cpp:54-80). -/
def assembleFileName (category : Category) (number : Int) (infx : Str := []) : Str :=
  filePrefix category ++ infx ++ padded number ++ ".png".toList

/-- `getImage` (src/util/KITTIData.cpp:26-36). -/
def Data.getImage (d : Data) (category : Category) (number : Int) (testing : Bool := false) : Str :=
  (if testing then d.testingImages else d.trainingImages) ++ assembleFileName category number

/-- `getRoadGroundtruth` (src/util/KITTIData.cpp:38-44). -/
def Data.getRoadGroundtruth (d : Data) (category : Category) (number : Int) : Str :=
  d.trainingTruth ++ assembleFileName category number "road_".toList

/-- `getLaneGroundtruth` (src/util/KITTIData.cpp:46-52). -/
def Data.getLaneGroundtruth (d : Data) (category : Category) (number : Int) : Str :=
  d.trainingTruth ++ assembleFileName category number "lane_".toList

end CN24.KittiFiles
