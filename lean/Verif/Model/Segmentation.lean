import Verif.Model.Tensor
import Mathlib.Algebra.Order.Field.Basic

/-
src/util/Segmentation.cpp: patches around every pixel of an image, and their labels.
`datum` is an ordered field.  `int` arithmetic is over the integers: the sizes are assumed to fit.
-/

namespace CN24.Segmentation
variable {R : Type _}

/-- The image coordinate of cell `ip` of the patch of pixel `p`
(src/util/Segmentation.cpp:40-44, 47-51, 121-125, 128-132). -/
def source (size p ip offset : Int) : Int :=
  let i := p + ip - offset
  let i := if i < 0 then -i else i
  if size ≤ i then -1 + size + size - i else i

/-- `*data_ptr_const(x, y, map, sample)` with `int` coordinates (include/cn24/util/Tensor.h:128-135,
254-258).  The conversion to `std::size_t` wraps around, and so does the sum of the offset: what
counts is the integer value of the sum. -/
def getInt (t : Tensor R) (x y : Int) (map sample : Nat) : Option R :=
  let off : Int := ((sample * t.maps * t.width * t.height + map * t.width * t.height : Nat) : Int) +
    y * t.width + x
  if off < 0 then none else rd t.data off.toNat

/-- The three inner loops of `ExtractPatches` (src/util/Segmentation.cpp:39-61). -/
def copyPatch (px py psx psy : Nat) (image : Tensor R) (sample element : Nat) (target : Tensor R) :
    Option (Tensor R) :=
  forLoop psy (fun ipy => forLoop psx (fun ipx => forLoop image.maps (fun map target =>
    (getInt image (source image.width px ipx (psx / 2 : Nat)) (source image.height py ipy (psy / 2 : Nat))
      map sample).bind fun pixel => target.put ipx ipy map element pixel))) target

section
variable [Field R] [LinearOrder R]

/-- `fmax(0.0, fmin(size - (patchsize - 1), p - offset)) / size`
(src/util/Segmentation.cpp:64-67). -/
def position (size p patch : Nat) : R :=
  max 0 (min ((size : R) - ((patch : R) - 1)) ((p : R) - ((patch / 2 : Nat) : R))) / (size : R)

/-- The loops of `ExtractPatches` (src/util/Segmentation.cpp:36-69).  The targets are those after
`Resize`: the contents are arbitrary. -/
def patches (psx psy : Nat) (image : Tensor R) (sample : Nat) (target helper : Tensor R) :
    Option (Tensor R × Tensor R) :=
  forLoop image.width (fun px => forLoop image.height (fun py st =>
    let element := image.width * py + px
    (copyPatch px py psx psy image sample element st.1).bind fun target =>
    (st.2.putElem (2 * element) (position image.height py psy)).bind fun helper =>
    (helper.putElem (2 * element + 1) (position image.width px psx)).map fun helper =>
      (target, helper))) (target, helper)

/-- The sum of a patch (src/util/Segmentation.cpp:83-86). -/
def patchSum (perSample sample : Nat) (target : Tensor R) : Option R :=
  forLoop perSample (fun e sum => (rd target.data (sample * perSample + e)).map (sum + ·)) 0

/-- `substract_mean` (src/util/Segmentation.cpp:77-96). -/
def subtractMean (perSample : Nat) (target : Tensor R) : Option (Tensor R) :=
  forLoop target.samples (fun sample target =>
    (patchSum perSample sample target).bind fun sum =>
    forLoop perSample (fun e target =>
      (rd target.data (sample * perSample + e)).bind fun v =>
      target.putElem (sample * perSample + e) (v - sum / (perSample : R))) target) target

/-- `ExtractPatches` (src/util/Segmentation.cpp:16-97) for non-negative patch sizes, after `Resize`. -/
def extractPatches (psx psy : Nat) (image : Tensor R) (sample : Nat) (mean : Bool)
    (target helper : Tensor R) : Option (Tensor R × Tensor R) :=
  (patches psx psy image sample target helper).bind fun r =>
  if mean then (subtractMean (psx * psy * image.maps) r.1).map fun t => (t, r.2) else some r

/-- `ExtractLabels` (src/util/Segmentation.cpp:99-147), after `Resize`.  `ignored` is the comparison
of the bits of a label with `ignore_class`. -/
def extractLabels (psx psy : Nat) (image : Tensor R) (sample : Nat) (ignored : R → Bool)
    (labels weight : Tensor R) : Option (Tensor R × Tensor R) :=
  forLoop image.width (fun px => forLoop image.height (fun py st =>
    let element := image.width * py + px
    (getInt image (source image.width px ((psx / 2 : Nat) + 1) (psx / 2 : Nat))
      (source image.height py ((psy / 2 : Nat) + 1) (psy / 2 : Nat)) 0 sample).bind fun label =>
    (st.1.put 0 0 0 element label).bind fun labels =>
    (st.2.put 0 0 0 element (if ignored label then 0 else 1)).map fun weight =>
      (labels, weight))) (labels, weight)

end
end CN24.Segmentation
