import Verif.Base.Round
import Verif.Base.Outcome
import Verif.Model.Tensor

/-
Model of image files: src/util/PNGUtil.cpp, src/util/JPGUtil.cpp, src/util/Tensor.cpp:583-666, with the
conversions between bytes and numbers (include/cn24/util/Config.h:38-40) in single precision.

Trusted: libpng and libjpeg.  A file is what these libraries decode it to.  Both are enabled (BUILD_PNG, BUILD_JPG).
-/

namespace CN24.Image
open CN24

/-- `DATUM_FROM_UCHAR` (include/cn24/util/Config.h:38); the constant 0.003921569f is 8421505 / 2^31. -/
def fromUchar (k : Nat) : ℚ := fl (8421505 / 2147483648 * ((k % 256 : Nat) : ℚ))

/-- `DATUM_FROM_USHORT` (include/cn24/util/Config.h:39); the constant 0.0000152590219f is 65537 / 2^32. -/
def fromUshort (k : Nat) : ℚ := fl (65537 / 4294967296 * ((k % 65536 : Nat) : ℚ))

/-- `UCHAR_FROM_DATUM` (include/cn24/util/Config.h:40): the conversion cuts the fraction off; it is undefined
if the result does not fit. -/
def toUchar (v : ℚ) : Option Nat :=
  let w := fl (255 * v)
  if -1 < w ∧ w < 256 then some (Int.floor w).toNat else none

/-- A decoded image: the samples row by row, the channels of a pixel next to each other.  For a depth of 16 the
samples are the numbers a little-endian machine sees in the decoded rows. -/
structure Pixels where
  width : Nat
  height : Nat
  channels : Nat
  data : List Nat
  deriving DecidableEq, Repr

/-- What the decoders deliver: all samples, in the range of the depth. -/
structure Pixels.Ok (p : Pixels) (depth : Nat) : Prop where
  length : p.data.length = p.width * p.height * p.channels
  range : ∀ v ∈ p.data, v < 2 ^ depth

/-- Contents of a file.  `other`: neither library accepts it, for example an empty file. -/
inductive File
  | png (depth : Nat) (palette : Bool) (p : Pixels)
  | jpg (p : Pixels)
  | other
  deriving DecidableEq, Repr

/-- The files a program sees. -/
abbrev Files := List Char → Option File

/-- `tensor.Resize(1, width, height, channels)`: the new contents are uninitialised in the code, zero here. -/
def fresh (p : Pixels) : Tensor ℚ :=
  ⟨1, p.width, p.height, p.channels, List.replicate (p.channels * p.width * p.height) 0⟩

/-- The conversion loops (src/util/PNGUtil.cpp:133-144, 175-187); `conv` turns a sample into a number. -/
def toTensor (conv : Nat → ℚ) (p : Pixels) : Option (Tensor ℚ) :=
  forLoop p.channels (fun channel => forLoop p.height fun y => forLoop p.width fun x t =>
    (rd p.data (p.width * p.channels * y + p.channels * x + channel)).bind fun pixel =>
    t.putElem (t.offset 0 y channel 0 + x) (conv pixel)) (fresh p)

/-- `(pixel >> 8) | (pixel << 8)` for 16 bits (src/util/PNGUtil.cpp:182). -/
def swapBytes (v : Nat) : Nat := v / 256 + v % 256 * 256

/-- `PNGUtil::LoadFromStream` (src/util/PNGUtil.cpp:47-196) with its return value; the tensor is left alone where
it returns false. -/
def loadPng (f : File) (t : Tensor ℚ) : Option (Bool × Tensor ℚ) :=
  match f with
  | .png depth palette p =>
    if depth ≠ 8 ∧ depth ≠ 16 then some (false, t)
    else if palette then some (false, t)
    else if depth = 8 then (toTensor fromUchar p).map fun t => (true, t)
    else (toTensor (fun v => fromUshort (swapBytes v)) p).map fun t => (true, t)
  | _ => some (false, t)

/-- `JPGUtil::LoadFromFile` (src/util/JPGUtil.cpp:23-75) for a file that libjpeg accepts; otherwise libjpeg ends the
program (`.fatal`). -/
def loadJpg (f : File) : Outcome (Tensor ℚ) :=
  match f with
  | .jpg p => .ofOption (forLoop p.height (fun line => forLoop p.channels fun c => forLoop p.width fun x t =>
      (rd p.data (p.width * p.channels * line + (x * p.channels + c))).bind fun sample =>
      t.put x line c 0 (fromUchar sample)) (fresh p))
  | _ => .fatal

/-- `filename.compare(filename.length() - 3, 3, ext) == 0`; the substring has three characters. -/
def endsWith3 (name ext : List Char) : Bool := name.drop (name.length - 3) == ext

/-- `Tensor::LoadFromFile` (src/util/Tensor.cpp:583-623).  `compare` throws for names of less than three characters.
The return values of the loaders are not looked at.  Simplification: the last branch cannot be reached and
has no contents. -/
def loadFromFile (fs : Files) (name : List Char) (t : Tensor ℚ) : Outcome (Tensor ℚ) :=
  if name.length < 3 then .fatal
  else if endsWith3 name "png".toList || endsWith3 name "PNG".toList then
    match fs name with
    | none => .fatal
    | some f => .ofOption ((loadPng f t).map (·.2))
  else if endsWith3 name "jpg".toList || endsWith3 name "jpeg".toList || endsWith3 name "JPG".toList ||
      endsWith3 name "JPEG".toList then
    match fs name with
    | none => .done t
    | some f => loadJpg f
  else if endsWith3 name "Tensor".toList then .undefined
  else .fatal

/-- The three writes of a pixel (src/util/PNGUtil.cpp:253-258, src/util/JPGUtil.cpp:110-112). -/
def putPixel (t : Tensor ℚ) (x y base : Nat) (pixels : List Nat) : Option (List Nat) :=
  forLoop 3 (fun c pixels => (t.get x y c 0).bind fun v => (toUchar v).bind fun b => wr pixels (base + c) b) pixels

/-- The pixel array (src/util/PNGUtil.cpp:248-260); uninitialised at first, zero here. -/
def fromTensor (t : Tensor ℚ) : Option (List Nat) :=
  forLoop t.height (fun y => forLoop t.width fun x => putPixel t x y (3 * t.width * y + 3 * x))
    (List.replicate (3 * t.width * t.height) 0)

/-- `PNGUtil::WriteToStream` (src/util/PNGUtil.cpp:198-273): the contents of the file afterwards; nothing is written
where it returns false.  libpng ends the program for images without pixels. -/
def writePng (t : Tensor ℚ) : Outcome File :=
  if t.samples ≠ 1 then .done .other
  else if t.maps ≠ 3 then .done .other
  else if t.width = 0 ∨ t.height = 0 then .fatal
  else .ofOption ((fromTensor t).map fun d => .png 8 false ⟨t.width, t.height, 3, d⟩)

/-- The scanlines given to libjpeg (src/util/JPGUtil.cpp:104-115), one after the other. -/
def writeJpg (t : Tensor ℚ) : Option (List (List Nat)) :=
  forLoop t.height (fun y lines =>
    (forLoop t.width (fun x => putPixel t x y (3 * x)) (List.replicate (3 * t.width) 0)).map
      fun l => lines ++ [l]) []

/-- Assignment to a file. -/
def Files.set (fs : Files) (name : List Char) (f : File) : Files :=
  fun n => if n = name then some f else fs n

/-- `Tensor::WriteToFile` (src/util/Tensor.cpp:625-666), files that can be created.  `jpeg` is what libjpeg makes
of the scanlines. -/
def writeToFile (jpeg : Pixels → Pixels) (fs : Files) (name : List Char) (t : Tensor ℚ) : Outcome Files :=
  if name.length < 3 then .fatal
  else if endsWith3 name "png".toList || endsWith3 name "PNG".toList then
    (writePng t).bind fun f => .done (fs.set name f)
  else if endsWith3 name "jpg".toList || endsWith3 name "jpeg".toList || endsWith3 name "JPG".toList ||
      endsWith3 name "JPEG".toList then
    .ofOption ((writeJpg t).map fun lines => fs.set name (.jpg (jpeg ⟨t.width, t.height, 3, lines.flatten⟩)))
  else if endsWith3 name "Tensor".toList then .undefined
  else .fatal

end CN24.Image
