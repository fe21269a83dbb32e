import Verif.Model.Stream
import Verif.Model.ListStream

/-
Model of the tools that write tensor stream files: tools/tensorStreamTool.cpp, tools/compressTensorStream.cpp,
tools/makeTensorStream.cpp and tools/makeCompressedTensorStream.cpp.
-/

namespace CN24.StreamTools
open CN24 CN24.Tensor CN24.Compress CN24.Config CN24.Image

/-- A stream opened for reading; of a missing file, only the fail bit is set. -/
def openIn : Option (List Byte) → IStream
  | some bytes => { bytes }
  | none => { bytes := [], fail := true }

/-- The values of a tensor, if all of them are determined by the file it was read from. -/
def determined (t : Tensor (Option F32)) : Option (Tensor F32) :=
  (t.data.mapM id).map fun d => ⟨t.samples, t.width, t.height, t.maps, d⟩

/-- The loop that counts the tensors (tools/tensorStreamTool.cpp:29-35).  `fuel` bounds the number of iterations;
`none` means it ran out. -/
def countLoop : Nat → IStream → Nat → Option Nat
  | 0, _, _ => none
  | fuel + 1, s, n =>
    if s.eof then some n
    else countLoop fuel (deserialize false false s).2.peek ((n + 1) % 4294967296)

/-- The loop that reads the tensors to be kept (tools/tensorStreamTool.cpp:51-54). -/
def readLoop : Nat → IStream → List (Tensor (Option F32))
  | 0, _ => []
  | n + 1, s => (deserialize false false s).1 :: readLoop n (deserialize false false s).2

/-- What the tool does to the file. -/
inductive Action where
  /-- the file is not opened for writing -/
  | leave
  /-- the file is emptied, then these bytes are written -/
  | rewrite (bytes : List Byte)
  /-- contents that the file does not determine would be written -/
  | undetermined
  deriving DecidableEq, Repr

/-- The branches behind the count (tools/tensorStreamTool.cpp:37-69). -/
def trimAction (bytes : List Byte) (count keep : Nat) : Action :=
  if count < keep then .leave
  else if count = keep then .leave
  else match (readLoop keep { bytes }).mapM determined with
    | some ts => .rewrite (ts.flatMap serialize)
    | none => .undetermined

/-- tools/tensorStreamTool.cpp:12-73 on an existing file.  `none`: the loop does not end, or the number does not fit
an `int`. -/
def trim (bytes : List Byte) (number : Str) : Option Action :=
  (atoi number).bind fun k =>
    (countLoop (bytes.length + 3) { bytes } 0).map fun n => trimAction bytes n (toUInt k)

/-- What can be found in the file when the tool is interrupted, or when it has ended: the old contents until the file
is opened for writing, then any part of what has been written so far. -/
inductive Found (old : List Byte) (a : Action) : List Byte → Prop
  | old : Found old a old
  | part {new c : List Byte} : a = .rewrite new → c <+: new → Found old a c

/-- The data a tensor has after `Deserialize`: `Resize` keeps the old buffer if the number of
elements stays the same (src/util/Tensor.cpp:135, 174-194), so what could not be read is what was
there before.  Simplification: a value cut off between its bytes is left undetermined. -/
def over (new old : Tensor (Option F32)) : Tensor (Option F32) :=
  if new.data.length = old.data.length then
    { new with data := List.zipWith (fun n o => n.or o) new.data old.data }
  else new

/-- `Tensor::Deserialize` (src/util/Tensor.cpp:267-320) of a tensor that may hold data, without
memory mapping. -/
def deserializeInto (old : Tensor (Option F32)) (s : IStream) : Tensor (Option F32) × IStream :=
  (over (deserialize false false s).1 old, (deserialize false false s).2)

/-- The loop of the compression tool (tools/compressTensorStream.cpp:40-67): the bytes appended to the output.  All
records are read into, and decompressed into, the same tensor (`old`).
Simplification: `long` totals, used for the report only, are left out. -/
def compressLoop : Nat → Tensor (Option F32) → IStream → List Byte → Outcome (List Byte)
  | 0, _, _, _ => .undefined
  | fuel + 1, old, s, out =>
    if s.eof then .done out
    else
      (Outcome.ofOption (determined (deserializeInto old s).1)).bind fun t =>
      (Outcome.ofOption (compress t)).bind fun c =>
      match decompress c with
      | .ok u =>
        if u.elements * 4 % 4294967296 ≠ t.elements * 4 % 4294967296 then .fatal
        else compressLoop fuel ⟨u.samples, u.width, u.height, u.maps, u.data.map some⟩ (deserializeInto old s).2.peek
          (out ++ c.serialize)
      | .fatal => .fatal
      | .ub => .undefined

/-- Files by name. -/
abbrev Disk := Str → Option (List Byte)

/-- A file is given contents. -/
def Disk.set (d : Disk) (name : Str) (bytes : List Byte) : Disk := fun n => if n = name then some bytes else d n

/-- tools/compressTensorStream.cpp:13-72 with both arguments: the outcome and the files afterwards.  The output is
emptied before the input is checked and read.  Simplifications: the output can be opened; what is written before a
`FATAL` is left out; what is written reaches the file when the program ends, so an input that is the same file reads
as empty. -/
def compressTool (d : Disk) (input output : Str) : Outcome Unit × Disk :=
  match d input with
  | none => (.fatal, d.set output [])
  | some _ =>
    match (d.set output []) input with
    | none => (.fatal, d.set output [])
    | some bytes =>
      match compressLoop (bytes.length + 3) ⟨0, 0, 0, 0, []⟩ { bytes } (leBytes 8 magic) with
      | .done out => (.done (), d.set output out)
      | .fatal => (.fatal, d.set output [])
      | .undefined => (.undefined, d.set output [])

/-- A label image whose channels are the labels (tools/makeTensorStream.cpp:114-122). -/
def directLabels (rgb : Tensor ℚ) : Outcome (Tensor ℚ) :=
  forO rgb.height (fun y => forO rgb.width fun x => forO 3 fun c label =>
    (Outcome.ofOption (rgb.get x y c 0)).bind fun v => .ofOption (label.put x y c 0 v)) (ListStream.blank rgb 3)

/-- The label tensor (tools/makeTensorStream.cpp:107-179). -/
def makeLabel (near : ℚ × ℚ × ℚ → ℚ × ℚ × ℚ → ℚ) (direct : Bool) (colors : List Nat) (rgb : Tensor ℚ) :
    Outcome (Tensor ℚ) :=
  if direct then directLabels rgb
  else match colors with
    | [c] => ListStream.softLabels near c rgb
    | cs => ListStream.hardLabels cs rgb

/-- The loop of the conversion tools (tools/makeTensorStream.cpp:88-183,
tools/makeCompressedTensorStream.cpp:92-192) over the lines of the two lists: the tensors that are written. -/
def makeLoop (near : ℚ × ℚ × ℚ → ℚ × ℚ × ℚ → ℚ) (fs : Files) (direct : Bool) (colors : List Nat) (idir ldir : Str) :
    List Str → List Str → List (Tensor ℚ) → Outcome (List (Tensor ℚ))
  | [], _, ts => .done ts
  | i :: is, ls, ts =>
    if i.length < 5 ∨ (ls.headD []).length < 5 then .done ts
    else
      (ListStream.imageTensor fs (idir ++ i)).bind fun image =>
      (ListStream.imageTensor fs (ldir ++ ls.headD [])).bind fun rgb =>
      if image.width ≠ rgb.width ∨ image.height ≠ rgb.height then
        makeLoop near fs direct colors idir ldir is ls.tail ts
      else
        (makeLabel near direct colors rgb).bind fun label =>
        makeLoop near fs direct colors idir ldir is ls.tail (ts ++ [image, label])

/-- The tensors written by tools/makeTensorStream.cpp:19-186 and tools/makeCompressedTensorStream.cpp:19-195.  `texts`
are the list files, `colors` the colours of the data set, one per class (theorem `C69_accepted`). -/
def makeTensors (near : ℚ × ℚ × ℚ → ℚ × ℚ × ℚ → ℚ) (texts : Str → Option Str) (fs : Files) (direct : Bool)
    (colors : List Nat) (ilist idir llist ldir : Str) : Outcome (List (Tensor ℚ)) :=
  (ListStream.directory idir).bind fun idir => (ListStream.directory ldir).bind fun ldir =>
  match texts ilist, texts llist with
  | some is, some ls => makeLoop near fs direct colors idir ldir (NetConfig.linesOf is) (NetConfig.linesOf ls) []
  | _, _ => .fatal

/-- A tensor in memory: `bits` gives the bit pattern of a value; without elements, `Resize` has left all dimensions at
zero (src/util/Tensor.cpp:131-182). -/
def stored (bits : ℚ → F32) (t : Tensor ℚ) : Tensor F32 :=
  if t.elements = 0 then ⟨0, 0, 0, 0, []⟩ else ⟨t.samples, t.width, t.height, t.maps, t.data.map bits⟩

/-- The output file of tools/makeTensorStream.cpp:19-186. -/
def makeFile (bits : ℚ → F32) (ts : List (Tensor ℚ)) : List Byte := ts.flatMap fun t => serialize (stored bits t)

/-- The output file of tools/makeCompressedTensorStream.cpp:19-195. -/
def makeCompressedFile (bits : ℚ → F32) (ts : List (Tensor ℚ)) : Option (List Byte) := writeFile (ts.map (stored bits))

end CN24.StreamTools
