import Verif.Base.Bytes
import Verif.Model.Tensor
import Verif.Model.Compress

/-
Model of tensor (de)serialization and of the tensor stream files.
Sources: src/util/Tensor.cpp, src/util/CompressedTensor.cpp, src/util/TensorStream.cpp,
src/util/FloatTensorStream.cpp, src/util/CompressedTensorStream.cpp.
-/

namespace CN24

/-- A `std::ifstream`: file contents, read position and the state bits.  Simplification: no
I/O errors (`badbit`). -/
structure IStream where
  bytes : List Byte
  pos : Nat := 0
  eof : Bool := false
  fail : Bool := false
  deriving DecidableEq, Repr

namespace IStream

/-- `good()`. -/
def good (s : IStream) : Bool := !s.eof && !s.fail

/-- `read(buffer, n)` of the C++ standard library: the bytes stored into the buffer and the
new stream.  On a stream that is not good nothing is read; when fewer than `n` bytes are
left they are stored and both state bits are set. -/
def read (s : IStream) (n : Nat) : List Byte × IStream :=
  if s.good then
    let got := (s.bytes.drop s.pos).take n
    if got.length < n then (got, { s with pos := s.pos + got.length, eof := true, fail := true })
    else (got, { s with pos := s.pos + n })
  else ([], { s with fail := true })

/-- `seekg(n, std::ios::cur)`: clears the eof bit, does nothing else on a failed stream, may
move beyond the end of the file. -/
def skip (s : IStream) (n : Nat) : IStream :=
  if s.fail then { s with eof := false } else { s with eof := false, pos := s.pos + n }

/-- `peek()`, used for its effect on the eof bit. -/
def peek (s : IStream) : IStream :=
  if s.good then (if s.pos < s.bytes.length then s else { s with eof := true })
  else { s with fail := true }

/-- Reading a zero-initialised `uint64_t`. -/
def readU64 (s : IStream) : Nat × IStream :=
  let r := s.read 8
  (ofLe r.1, r.2)

end IStream

/-- `std::size_t` arithmetic. -/
def u64 (n : Nat) : Nat := n % 2 ^ 64

namespace Tensor

/-- `Tensor::Serialize(output, convert = false)` (src/util/Tensor.cpp:220-265): the bytes
appended to the output stream. -/
def serialize (t : Tensor F32) : List Byte :=
  leBytes 8 t.samples ++ leBytes 8 t.width ++ leBytes 8 t.height ++ leBytes 8 t.maps ++
    (if 0 < t.elements then t.data.flatMap datumBytes else [])

/-- The values at the start of a byte sequence: `n` values, those that are not completely
present being unknown (`none`). -/
def cells : Nat → List Byte → List (Option F32)
  | 0, _ => []
  | n + 1, bs =>
    (if 4 ≤ bs.length then some (datumOf (bs.take 4)) else none) :: cells n (bs.drop 4)

/-- `Tensor::Deserialize` (src/util/Tensor.cpp:267-320) of an empty tensor.  `mmap` selects the
memory-mapping branch (try_mmap with a valid file descriptor, the only one used on Linux by
the stream classes) instead of reading into a fresh buffer; `headOnly` skips the data.  A
cell of the result is `none` where its contents are not determined by the file
(uninitialised memory, or a mapping beyond the end of the file).  Simplifications: the
allocation and the mapping itself never fail; a mapping made at the position of a failed
stream has undetermined contents. -/
def deserialize (headOnly mmap : Bool) (s : IStream) : Tensor (Option F32) × IStream :=
  let (samples, s) := s.readU64
  let (width, s) := s.readU64
  let (height, s) := s.readU64
  let (maps, s) := s.readU64
  let elements := u64 (samples * maps * width * height)
  let empty : Tensor (Option F32) := ⟨0, 0, 0, 0, []⟩
  if 0 < elements ∧ headOnly = false then
    if mmap then
      let data := if s.fail then List.replicate elements none
        else cells elements (s.bytes.drop s.pos)
      (⟨samples, width, height, maps, data⟩, s.skip (u64 (elements * 4)))
    else
      let (got, s) := s.read (u64 (elements * 4))
      (⟨samples, width, height, maps, cells elements got⟩, s)
  else if headOnly then
    (if mmap ∨ elements = 0 then empty
     else ⟨samples, width, height, maps, List.replicate elements none⟩, s.skip (u64 (elements * 4)))
  else (empty, s)

end Tensor

/-- The loop of `FloatTensorStream::LoadFile` (src/util/FloatTensorStream.cpp:37-51).  `fuel`
bounds the number of iterations; `none` means it ran out. -/
def floatLoop (mmap : Bool) : Nat → IStream → List (Tensor (Option F32)) →
    Option (List (Tensor (Option F32)))
  | 0, _, _ => none
  | fuel + 1, s, acc =>
    if s.eof then some acc
    else
      let r := Tensor.deserialize false mmap s
      if r.1.elements = 0 then some acc
      else floatLoop mmap fuel r.2.peek (acc ++ [r.1])

/-- `FloatTensorStream::LoadFile` (src/util/FloatTensorStream.cpp:21-53) on the contents of an
existing file.  Every iteration but the last consumes at least one byte or fails, so the
fuel suffices (theorem `C03_load_terminates`). -/
def floatLoad (mmap : Bool) (bytes : List Byte) : Option (List (Tensor (Option F32))) :=
  floatLoop mmap (bytes.length + 3) { bytes } []

namespace Compress

/-- `CompressedTensor::Serialize` (src/util/CompressedTensor.cpp:105-120). -/
def CTensor.serialize (c : CTensor) : List Byte :=
  leBytes 8 c.samples ++ leBytes 8 c.width ++ leBytes 8 c.height ++ leBytes 8 c.maps ++
    leBytes 8 c.bytes.length ++ (if 0 < c.elements then c.bytes else [])

/-- `CompressedTensor::Deserialize` (src/util/CompressedTensor.cpp:122-170) of an empty object,
data included.  The contents behind the end of a truncated file are modelled as missing: the
byte list is then shorter than announced. -/
def deserialize (mmap : Bool) (s : IStream) : CTensor × IStream :=
  let (samples, s) := s.readU64
  let (width, s) := s.readU64
  let (height, s) := s.readU64
  let (maps, s) := s.readU64
  let (len, s) := s.readU64
  if 0 < len then
    if mmap then
      let data := if s.fail then [] else (s.bytes.drop s.pos).take len
      (⟨samples, width, height, maps, data⟩, s.skip len)
    else
      let (got, s) := s.read len
      (⟨samples, width, height, maps, got⟩, s)
  else (⟨0, 0, 0, 0, []⟩, s)

/-- `CN24_CTS_MAGIC` (include/cn24/util/CompressedTensorStream.h:23). -/
def magic : Nat := 0xC24CC24CC24CC24C

/-- The loop of `CompressedTensorStream::LoadFile`
(src/util/CompressedTensorStream.cpp:44-61). -/
def loadLoop (mmap : Bool) : Nat → IStream → List CTensor → Option (List CTensor)
  | 0, _, _ => none
  | fuel + 1, s, acc =>
    if s.eof then some acc
    else
      let r := deserialize mmap s
      if u64 r.1.elements = 0 then some acc
      else loadLoop mmap fuel r.2.peek (acc ++ [r.1])

/-- `CompressedTensorStream::LoadFile` (src/util/CompressedTensorStream.cpp:21-65).  `.fatal` is
the `FATAL` on a wrong magic number; `.ub` stands for a loop that does not end. -/
def load (mmap : Bool) (bytes : List Byte) : Res (List CTensor) :=
  let (m, s) := ({ bytes } : IStream).readU64
  if m ≠ magic then .fatal
  else match loadLoop mmap (bytes.length + 3) s [] with
    | some ts => .ok ts
    | none => .ub

/-- A compressed file as written by the tools (tools/compressTensorStream.cpp:37-51,
tools/makeCompressedTensorStream.cpp): the magic number, then the compressed tensors. -/
def writeFile (ts : List (Tensor F32)) : Option (List Byte) :=
  (ts.mapM compress).map fun cs => leBytes 8 magic ++ cs.flatMap CTensor.serialize

/-- `CompressedTensorStream::CopySample` (src/util/CompressedTensorStream.cpp:67-90).  `max` is
`max_elements_`, the capacity of `temp_tensor_`.  In the fast branch the data are
decompressed straight into the target buffer at `data_ptr(0, 0, 0, target_sample)`, without
any check of `target_sample`; the room there is what is left of the target buffer. -/
def copySample [Zero F32] (tensors : List CTensor) (max : Nat) (source sourceSample : Nat)
    (target : Tensor F32) (targetSample : Nat) : Res (Bool × Tensor F32) :=
  match tensors[source]? with
  | none => .ok (false, target)
  | some c =>
    if sourceSample = 0 ∧ c.width = target.width ∧ c.height = target.height ∧
        c.maps = target.maps ∧ c.samples = 1 then
      let off := target.offset 0 0 0 targetSample
      match decompressData ((target.data.length - off) * charsPerDatum) c.bytes with
      | .ok (n, out) =>
        if n ≠ c.elements then .fatal
        else .ok (true, { target with
          data := target.data.take off ++ datums out ++ target.data.drop (off + (datums out).length) })
      | .fatal => .fatal
      | .ub => .ub
    else
      match decompressData (max * charsPerDatum) c.bytes with
      | .ok (n, out) =>
        if n ≠ c.elements then .fatal
        else
          match Tensor.copySample ⟨c.samples, c.width, c.height, c.maps, datums out⟩ sourceSample
            target targetSample with
          | some r => .ok r
          | none => .ub
      | .fatal => .fatal
      | .ub => .ub

/-- The dispatch of `TensorStream::FromFile` on the first eight bytes
(src/util/TensorStream.cpp:48-66), for a path that is not a `list:` description. -/
def isCompressedFile (bytes : List Byte) : Bool :=
  (({ bytes } : IStream).readU64).1 == magic

/-- `max_elements_` after loading (src/util/CompressedTensorStream.cpp:55-56). -/
def maxElements (ts : List CTensor) : Nat := ts.foldl (fun m c => if m < c.elements then c.elements else m) 0

end Compress
end CN24
