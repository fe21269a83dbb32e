import Verif.Model.Image
import Verif.Model.Colorize
import Verif.Base.Outcome

/-
tools/classifyImage.cpp: an image is loaded, padded, given to the network, and its output is coloured, cropped and
written.  The network with its parameters is a function here (Model/NetConfig.lean and Model/NetGraph.lean); `H` is the
type of the numbers in the helper tensor.
-/

namespace CN24.Classify
open CN24 CN24.Image

/-- Padding of a width or height (tools/classifyImage.cpp:67-80), for sizes well below 2^32. -/
def pad (n : Nat) : Nat :=
  let n := if n % 2 = 1 then n + 1 else n
  let n := if n / 2 % 2 = 1 then n + 2 else n
  if n / 4 % 2 = 1 then n + 4 else n

/-- A tensor after its constructor and `Clear` (tools/classifyImage.cpp:82-85); without elements all sizes are zero
(src/util/Tensor.cpp:143-166).  Where the code does not clear the contents they are overwritten before they are read. -/
def blank {α : Type _} [Zero α] (width height maps : Nat) : Tensor α :=
  if maps * width * height = 0 then ⟨0, 0, 0, 0, []⟩
  else ⟨1, width, height, maps, List.replicate (maps * width * height) 0⟩

variable {H : Type _} [Zero H]

/-- Two assignments (tools/classifyImage.cpp:95-96, 99-100, 105-106). -/
def put2 (x y : Nat) (a b : H) (helper : Tensor H) : Option (Tensor H) :=
  (helper.put x y 0 0 a).bind fun helper => helper.put x y 1 0 b

/-- The coordinates in the helper tensor (tools/classifyImage.cpp:93-108); `rel i n` is the quotient of `i` and `n - 1`
in floating point.  The second loop over `x` runs up to the height. -/
def coordinates (rel : Nat → Nat → H) (originalWidth originalHeight width height : Nat) (helper : Tensor H) :
    Option (Tensor H) :=
  (forLoop originalHeight (fun y helper =>
    (forLoop originalWidth (fun x => put2 x y (rel x originalWidth) (rel y originalHeight)) helper).bind
    (forRange originalWidth width fun x => put2 x y 0 0)) helper).bind
  (forRange originalHeight height fun y => forLoop height fun x => put2 x y 0 0)

/-- The image without its padding (tools/classifyImage.cpp:140-144). -/
def crop (width height : Nat) (image : Tensor ℚ) : Option (Tensor ℚ) :=
  forLoop 3 (fun m => forLoop height fun y => forLoop width fun x small =>
    (image.get x y m 0).bind fun v => small.put x y m 0 v) (blank width height 3)

/-- The tool from loading the image on (tools/classifyImage.cpp:60-146). -/
def classify (rel : Nat → Nat → H) (net : Tensor ℚ → Tensor H → Outcome (Tensor ℚ)) (tiny : ℚ) (classes : Nat)
    (colors : List Nat) (jpeg : Pixels → Pixels) (fs : Files) (input output : List Char) : Outcome Files :=
  (loadFromFile fs input ⟨0, 0, 0, 0, []⟩).bind fun image =>
  (Outcome.ofOption (Tensor.copySample image 0 (blank (pad image.width) (pad image.height) image.maps) 0)).bind fun data =>
  (Outcome.ofOption (coordinates rel image.width image.height (pad image.width) (pad image.height)
    (blank (pad image.width) (pad image.height) 2))).bind fun helper =>
  (net data.2 helper).bind fun out =>
  (Outcome.ofOption (Colorize.colorize fromUchar tiny classes colors out (blank out.width out.height 3))).bind fun image' =>
  (Outcome.ofOption (crop image.width image.height image')).bind fun small =>
  writeToFile jpeg fs output small

end CN24.Classify
