import Verif.Model.Stream
import Verif.Model.PatchDataset
import Verif.Model.DatasetConfig

/-
src/util/TensorStreamPatchDataset.cpp: how the patch dataset gets its tensors out of the files, and the whole of
`CreateFromConfiguration`.
-/

namespace CN24.PatchLoad
open CN24 CN24.Tensor

/-- `Tensor::Deserialize(input, false, true, fd)` (src/util/Tensor.cpp:267-320) of an empty tensor.  `fd` is `none`
for the descriptor 0; otherwise it holds the contents of the file that the descriptor belongs to, which the code
does not compare with the stream.  Simplifications as in `Tensor.deserialize`, which is the special case of the same
file (theorem `deserializeFd_own`). -/
def deserializeFd (fd : Option (List Byte)) (s : IStream) : Tensor (Option F32) × IStream :=
  let (samples, s) := s.readU64
  let (width, s) := s.readU64
  let (height, s) := s.readU64
  let (maps, s) := s.readU64
  let elements := u64 (samples * maps * width * height)
  if 0 < elements then
    match fd with
    | some m =>
      let data := if s.fail then List.replicate elements none else cells elements (m.drop s.pos)
      (⟨samples, width, height, maps, data⟩, s.skip (u64 (elements * 4)))
    | none =>
      let (got, s) := s.read (u64 (elements * 4))
      (⟨samples, width, height, maps, cells elements got⟩, s)
  else (⟨0, 0, 0, 0, []⟩, s)

/-- The counting loops (src/util/TensorStreamPatchDataset.cpp:59-69, 78-88); `none` when the fuel runs out. -/
def countLoop : Nat → IStream → Nat → Option Nat
  | 0, _, _ => none
  | fuel + 1, s, n =>
    if s.eof then some n
    else
      let r := deserialize true false s
      if r.1.elements = 0 then some n else countLoop fuel r.2.peek (n + 1)

/-- The number of tensors in a file. -/
def count (bytes : List Byte) : Option Nat := countLoop (bytes.length + 3) { bytes } 0

/-- The reading loops (src/util/TensorStreamPatchDataset.cpp:122-138, 140-156), without the sample counts (those
are in `PatchDataset.construct`). -/
def readPairs (fd : Option (List Byte)) : Nat → IStream → List (Tensor (Option F32) × Tensor (Option F32))
  | 0, _ => []
  | n + 1, s =>
    let a := deserializeFd fd s
    let b := deserializeFd fd a.2
    (a.1, b.1) :: readPairs fd n b.2

/-- An opened file: the contents read through the stream and those of the descriptor. -/
structure File where
  bytes : List Byte
  fd : Option (List Byte)

/-- The constructor (src/util/TensorStreamPatchDataset.cpp:35-160).  Both streams are reset after counting
(lines 99-102).  `undefined` stands for a counting loop without end (it does not happen: theorem
`C70_count_terminates`). -/
def load (px py : Nat) (training testing : File) (classes names colors : Nat) (classWeights : List (Option F32)) :
    Outcome (PatchDataset.Dataset (Option F32)) :=
  (Outcome.ofOption (count training.bytes)).bind fun n =>
  (Outcome.ofOption (count testing.bytes)).bind fun m =>
  PatchDataset.construct px py (readPairs training.fd (n / 2) { bytes := training.bytes })
    (readPairs testing.fd (m / 2) { bytes := testing.bytes }) (n % 2 == 1) (m % 2 == 1) classes names colors classWeights

/-- The contents behind an opened stream and its descriptor; an empty `istringstream` and the descriptor 0 for a
file that is not loaded (src/util/TensorStreamPatchDataset.cpp:432-434, 451-453). -/
def contents (file : Config.Str → Option (List Byte)) : Option DatasetConfig.Opened → File
  | none => ⟨[], none⟩
  | some o => ⟨(file o.stream).getD [], o.map.bind file⟩

/-- `TensorStreamPatchDataset::CreateFromConfiguration` (src/util/TensorStreamPatchDataset.cpp:331-464) in a file
system `file`.  The parser is the one of Model/DatasetConfig.lean; its check of the counts of names and colours is
the one the constructor makes, which ends the program either way. -/
def create (conv : Config.Str → F32) (one : F32) (file : Config.Str → Option (List Byte)) (mmap dontLoad : Bool)
    (sel : DatasetConfig.Selection) (px py : Nat) (text : Config.Str) : Outcome (PatchDataset.Dataset (Option F32)) :=
  (DatasetConfig.create conv one text).bind fun c =>
  (DatasetConfig.patchFiles (fun f => (file f).isSome) mmap dontLoad sel c).bind fun o =>
  load px py (contents file o.1) (contents file o.2) c.classes c.names.length c.colors.length (c.weights.map some)

end CN24.PatchLoad
