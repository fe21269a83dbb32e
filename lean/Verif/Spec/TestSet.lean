import Verif.Props.Dataset
import Verif.Props.StatLayers

/-
Specification of the rates of a test: those of the pixels of all testing images, each image taken once and with its
own size, no matter how the images are put into batches.
-/

namespace CN24.TestSet
open CN24

variable {R : Type _} [Field R] [LinearOrder R]

/-- The first class with the largest score. -/
def FirstMax (n : Nat) (f : Nat → R) (k : Nat) : Prop := k < n ∧ ∀ c, c < n → f c ≤ f k ∧ (c < k → f c < f k)

/-- The picture shown to the network: the image in the upper left corner, zeros elsewhere. -/
def padded (image : Tensor R) (x y m : Nat) : R :=
  if x < image.width ∧ y < image.height then (image.get x y m 0).getD 0 else 0

/-- A network for batches of pictures of one size that treats every picture of the batch alone: the scores of picture
number `s` are given by `F` for that picture. -/
structure Imagewise (batch width height maps classes : Nat) (P : Tensor R → Tensor R)
    (F : (Nat → Nat → Nat → R) → Nat → Nat → Nat → R) : Prop where
  wf : ∀ d : Tensor R, d.WF → Tensor.Sh (⟨batch, width, height, maps, []⟩ : Tensor R) d →
    (P d).WF ∧ Tensor.Sh (⟨batch, width, height, classes, []⟩ : Tensor R) (P d)
  value : ∀ (d : Tensor R) f s, d.WF → Tensor.Sh (⟨batch, width, height, maps, []⟩ : Tensor R) d → s < batch →
    (∀ x y m, x < width → y < height → m < maps → d.get x y m s = some (f x y m)) →
    ∀ x y c, x < width → y < height → c < classes → (P d).get x y c s = some (F f x y c)

/-- What is to be counted for pixel (x, y) of an image: the class that the network finds, the class of the label, and
the weight of the pixel. -/
structure PixelOf (F : (Nat → Nat → Nat → R) → Nat → Nat → Nat → R) (ef : Nat → Nat → Nat → Nat → R)
    (classWeights : List R) (classes : Nat) (image label : Tensor R) (x y : Nat) (o : ConfusionMatrix.Obs R) : Prop where
  pred : FirstMax classes (F (padded image) x y) o.pred
  label : FirstMax classes (fun c => (label.get x y c 0).getD 0) o.label
  weight : ∃ cw, classWeights[o.label]? = some cw ∧ o.weight = ef x y image.width image.height * cw

/-- The sizes of the testing images. -/
def widthOf (ds : TensorStreamDataset.Dataset R) (j : Nat) : Nat := (ds.testing[2 * j]?.map Tensor.width).getD 0
def heightOf (ds : TensorStreamDataset.Dataset R) (j : Nat) : Nat := (ds.testing[2 * j]?.map Tensor.height).getD 0

/-- The pixels of the testing images, image by image. -/
def pixels (ds : TensorStreamDataset.Dataset R) (obs : Nat → Nat → Nat → ConfusionMatrix.Obs R) :
    List (ConfusionMatrix.Obs R) :=
  (List.range (ds.testing.length / 2)).flatMap fun j =>
    (List.range (heightOf ds j)).flatMap fun y => (List.range (widthOf ds j)).map fun x => obs j x y

/-- The three numbers of a row: overall and average recognition rate, and intersection over union (C43). -/
structure RatesOf (n first : Nat) (obs : List (ConfusionMatrix.Obs R)) (outs : List (Option R)) : Prop where
  null : ConfusionMatrix.weight obs < 1 →
    outs[first]? = some none ∧ outs[first + 1]? = some none ∧ outs[first + 2]? = some none
  overall : 1 ≤ ConfusionMatrix.weight obs →
    outs[first]? = some (some (100 * ConfusionMatrix.correct obs / ConfusionMatrix.weight obs))
  average : 1 ≤ ConfusionMatrix.weight obs →
    outs[first + 1]? = some (some (100 * (∑ c ∈ (Finset.range n).filter
      (fun c => 0 < ConfusionMatrix.labelled obs c),
      ConfusionMatrix.entry obs c c / ConfusionMatrix.labelled obs c) /
        (((Finset.range n).filter (fun c => 0 < ConfusionMatrix.labelled obs c)).card : R)))
  union : 1 ≤ ConfusionMatrix.weight obs →
    outs[first + 2]? = some (some (100 * (∑ t ∈ Finset.range n,
      if 0 < Props.eitherWeight obs t then
        ConfusionMatrix.entry obs t t / Props.eitherWeight obs t else 0) / (n : R)))

end CN24.TestSet
