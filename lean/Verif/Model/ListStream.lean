import Verif.Model.Image
import Verif.Model.NetConfig

/-
Model of lists of image files: src/util/ListTensorStream.cpp, include/cn24/util/ListTensorStream.h and the
dispatch in src/util/TensorStream.cpp:31-43.
-/

namespace CN24.ListStream
open CN24 CN24.Config CN24.Image

/-- `ListTensorMetadata` (include/cn24/util/ListTensorStream.h:24-31). -/
structure Meta where
  filename : Str
  width : Nat
  height : Nat
  maps : Nat
  samples : Nat
  deriving DecidableEq, Repr

/-- The fields of `ListTensorStream` (include/cn24/util/ListTensorStream.h:51-52). -/
structure Stream where
  tensors : List Meta
  colors : List Nat
  deriving DecidableEq, Repr

/-- `GetTensorCount` (src/util/ListTensorStream.cpp:49-51). -/
def Stream.count (st : Stream) : Nat := st.tensors.length

/-- `GetWidth` (src/util/ListTensorStream.cpp:21-26). -/
def Stream.width (st : Stream) (index : Nat) : Nat := match st.tensors[index]? with | some m => m.width | none => 0

/-- `GetHeight` (src/util/ListTensorStream.cpp:28-33). -/
def Stream.height (st : Stream) (index : Nat) : Nat := match st.tensors[index]? with | some m => m.height | none => 0

/-- `GetMaps` (src/util/ListTensorStream.cpp:35-40). -/
def Stream.maps (st : Stream) (index : Nat) : Nat := match st.tensors[index]? with | some m => m.maps | none => 0

/-- `GetSamples` (src/util/ListTensorStream.cpp:42-47). -/
def Stream.samples (st : Stream) (index : Nat) : Nat := match st.tensors[index]? with | some m => m.samples | none => 0

/-- `Tensor(filename)` (src/util/Tensor.cpp:41-43). -/
def imageTensor (fs : Files) (name : Str) : Outcome (Tensor ℚ) := loadFromFile fs name ⟨0, 0, 0, 0, []⟩

/-- `if (directory.back() != '/') directory += "/"` (src/util/ListTensorStream.cpp:172-176); `back` of an empty
string is undefined. -/
def directory (d : Str) : Outcome Str :=
  match d.getLast? with
  | none => .undefined
  | some c => if c ≠ '/' then .done (d ++ ['/']) else .done d

/-- The loop of `LoadFiles` (src/util/ListTensorStream.cpp:194-222) over the lines of the two lists; a line beyond
the end of the label list is empty.  Simplification: the count does not wrap at 2^32. -/
def loadLoop (fs : Files) (classes : Nat) (idir ldir : Str) : List Str → List Str → List Meta → Nat →
    Outcome (List Meta × Nat)
  | [], _, tensors, count => .done (tensors, count)
  | i :: is, ls, tensors, count =>
    if i.length < 5 ∨ (ls.headD []).length < 5 then .done (tensors, count)
    else
      (imageTensor fs (idir ++ i)).bind fun image =>
      (imageTensor fs (ldir ++ ls.headD [])).bind fun label =>
      if image.width ≠ label.width ∨ image.height ≠ label.height then
        loadLoop fs classes idir ldir is ls.tail tensors count
      else
        loadLoop fs classes idir ldir is ls.tail
          (tensors ++ [⟨idir ++ i, image.width, image.height, image.maps, image.samples⟩,
            ⟨ldir ++ ls.headD [], label.width, label.height, classes, label.samples⟩]) (count + 2)

/-- `LoadFiles` (src/util/ListTensorStream.cpp:169-225); `texts` are the list files. -/
def loadFiles (texts : Str → Option Str) (fs : Files) (st : Stream) (ilist idir llist ldir : Str) :
    Outcome (Nat × Stream) :=
  (directory idir).bind fun idir => (directory ldir).bind fun ldir =>
  match texts ilist, texts llist with
  | some is, some ls =>
    (loadLoop fs st.colors.length idir ldir (NetConfig.linesOf is) (NetConfig.linesOf ls) st.tensors 0).bind
      fun r => .done (r.2, { st with tensors := r.1 })
  | _, _ => .fatal

/-- The text in front of the last `;` and the text behind it. -/
def splitLast : Str → Option (Str × Str)
  | [] => none
  | c :: cs =>
    match splitLast cs with
    | some (a, b) => some (c :: a, b)
    | none => if c = ';' then some ([], cs) else none

/-- The groups of `list:(.*);(.*);(.*);(.*)` (src/util/ListTensorStream.cpp:54-66).  The first group takes as much as
possible, so the last three semicolons separate the groups. -/
def descriptor (path : Str) : Option (Str × Str × Str × Str) :=
  if path.take 5 = "list:".toList then
    (splitLast (path.drop 5)).bind fun (r, d) => (splitLast r).bind fun (q, c) => (splitLast q).map fun (a, b) =>
      (a, b, c, d)
  else none

/-- `LoadFile` (src/util/ListTensorStream.cpp:53-74). -/
def loadFile (texts : Str → Option Str) (fs : Files) (st : Stream) (path : Str) : Outcome (Nat × Stream) :=
  match descriptor path with
  | some (il, id, ll, ld) => loadFiles texts fs st il id ll ld
  | none => .done (0, st)

/-- The list branch of `TensorStream::FromFile` (src/util/TensorStream.cpp:31-43): `none` if the path is not a list
description. -/
def fromList (texts : Str → Option Str) (fs : Files) (path : Str) (colors : List Nat) : Option (Outcome Stream) :=
  match descriptor path with
  | some _ => some ((loadFile texts fs ⟨[], colors⟩ path).bind fun r => .done r.2)
  | none => none

/-- Red, green and blue of a class colour as numbers (src/util/ListTensorStream.cpp:92-97, 103-106). -/
def colour (k : Nat) : ℚ × ℚ × ℚ := (fromUchar (k / 65536 % 256), fromUchar (k / 256 % 256), fromUchar (k % 256))

/-- Red, green and blue of a pixel (src/util/ListTensorStream.cpp:110-122, 137-149). -/
def pixelColour (t : Tensor ℚ) (x y : Nat) : Outcome (ℚ × ℚ × ℚ) :=
  if t.maps = 3 then
    .ofOption ((t.get x y 0 0).bind fun r => (t.get x y 1 0).bind fun g => (t.get x y 2 0).map fun b => (r, g, b))
  else if t.maps = 1 then .ofOption ((t.get x y 0 0).map fun g => (g, g, g))
  else .fatal

/-- The new label tensor, uninitialised in the code for one class (src/util/ListTensorStream.cpp:99, 133). -/
def blank (rgb : Tensor ℚ) (classes : Nat) : Tensor ℚ :=
  ⟨1, rgb.width, rgb.height, classes, List.replicate (rgb.width * rgb.height * classes) 0⟩

/-- The loop over the classes (src/util/ListTensorStream.cpp:151-154). -/
def markClasses (colors : List Nat) (x y : Nat) (l : ℚ × ℚ × ℚ) (label : Tensor ℚ) : Option (Tensor ℚ) :=
  forLoop colors.length (fun c label =>
    if l = colour (colors.getD c 0) then label.put x y c 0 1 else some label) label

/-- The labels of an image for several classes (src/util/ListTensorStream.cpp:131-157). -/
def hardLabels (colors : List Nat) (rgb : Tensor ℚ) : Outcome (Tensor ℚ) :=
  forO rgb.height (fun y => forO rgb.width fun x label =>
    (pixelColour rgb x y).bind fun l => .ofOption (markClasses colors x y l label)) (blank rgb colors.length)

/-- The labels of an image for one class (src/util/ListTensorStream.cpp:101-130); `near` is one minus twice the
scaled distance of two colours, computed in single and double precision. -/
def softLabels (near : ℚ × ℚ × ℚ → ℚ × ℚ × ℚ → ℚ) (color : Nat) (rgb : Tensor ℚ) : Outcome (Tensor ℚ) :=
  forO rgb.height (fun y => forO rgb.width fun x label =>
    (pixelColour rgb x y).bind fun l => .ofOption (label.put x y 0 0 (near l (colour color)))) (blank rgb 1)

/-- The image or label that is copied (src/util/ListTensorStream.cpp:77-163). -/
def tensorAt (near : ℚ × ℚ × ℚ → ℚ × ℚ × ℚ → ℚ) (fs : Files) (st : Stream) (m : Meta) (index : Nat) :
    Outcome (Tensor ℚ) :=
  (imageTensor fs m.filename).bind fun rgb =>
    if index % 2 = 1 then
      match st.colors with
      | [c] => softLabels near c rgb
      | cs => hardLabels cs rgb
    else .done rgb

/-- `CopySample` (src/util/ListTensorStream.cpp:76-167) up to its end: the return value, if the function returns one,
and the target. -/
def copyEnd (near : ℚ × ℚ × ℚ → ℚ × ℚ × ℚ → ℚ) (fs : Files) (st : Stream) (index sample : Nat) (target : Tensor ℚ)
    (targetSample : Nat) : Outcome (Option Bool × Tensor ℚ) :=
  match st.tensors[index]? with
  | none => .done (some false, target)
  | some m => (tensorAt near fs st m index).bind fun t =>
    .ofOption ((Tensor.copySample t sample target targetSample).map fun r => (none, r.2))

/-- `CopySample`: reaching the end without a return value is undefined. -/
def copySample (near : ℚ × ℚ × ℚ → ℚ × ℚ × ℚ → ℚ) (fs : Files) (st : Stream) (index sample : Nat)
    (target : Tensor ℚ) (targetSample : Nat) : Outcome (Bool × Tensor ℚ) :=
  (copyEnd near fs st index sample target targetSample).bind fun r =>
    match r.1 with
    | some b => .done (b, r.2)
    | none => .undefined

end CN24.ListStream
