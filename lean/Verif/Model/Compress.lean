import Verif.Base.Loop
import Verif.Base.Bytes
import Verif.Model.Tensor

/-
Model of the run-length compression of tensors.
Source: src/util/CompressedTensor.cpp, include/cn24/util/CompressedTensor.h.
-/

namespace CN24.Compress

/-- `rl_marker` and `rl_doublemarker` (src/util/CompressedTensor.cpp:209-210), `'X'`. -/
def marker : Byte := 88#8
/-- `rl_rle` (src/util/CompressedTensor.cpp:211), `'Y'`. -/
def rle : Byte := 89#8
/-- `rl_max` (src/util/CompressedTensor.cpp:213): `(1 << 8) - 3`. -/
def rlMax : Nat := 253
/-- `rl_min` (src/util/CompressedTensor.cpp:214): `1 + (5 + 1) / 4`. -/
def rlMin : Nat := 2
/-- `chars_per_datum` (src/util/CompressedTensor.cpp:37). -/
def charsPerDatum : Nat := 4

/-- The local variables of `CompressData` (src/util/CompressedTensor.cpp:218-225): `out` holds
the bytes before `output_ptr`. -/
structure CState where
  lastSymbol : F32
  runningLength : Nat
  bytesOut : Nat
  out : List Byte
  deriving DecidableEq, Repr

/-- `*output_ptr = b; output_ptr++; bytes_out++` (for example
src/util/CompressedTensor.cpp:262-263) into a buffer of `cap` bytes; writing beyond it is
undefined. -/
def emit (cap : Nat) (b : Byte) (st : CState) : Option CState :=
  if st.out.length < cap then
    some { st with out := st.out ++ [b], bytesOut := st.bytesOut + 1 }
  else none

/-- Emission of a run (src/util/CompressedTensor.cpp:249-285). -/
def emitRun (cap : Nat) (st : CState) : Option CState :=
  if 0 < st.runningLength ∧ st.runningLength < rlMin then
    forLoop st.runningLength (fun _ st =>
      forLoop charsPerDatum (fun b st =>
        (rd (datumBytes st.lastSymbol) b).bind fun c =>
          if c = marker then (emit cap marker st).bind (emit cap marker)
          else emit cap c st) st) st
  else if rlMin ≤ st.runningLength then
    (emit cap marker st).bind fun st =>
    (emit cap rle st).bind fun st =>
    -- one byte: rl_bytes = 1, so the only shift is by 0 bits
    (emit cap (BitVec.ofNat 8 (st.runningLength % 256)) st).bind fun st =>
    forLoop charsPerDatum (fun b st =>
      (rd (datumBytes st.lastSymbol) b).bind fun c => emit cap c st) st
  else some st

/-- One iteration of the loop (src/util/CompressedTensor.cpp:227-295).  At the last position
the C++ leaves `current_symbol` uninitialised; it is then only copied to the dead variable
`last_symbol`, here `last_symbol` keeps its value. -/
def step (cap : Nat) (data : List F32) (pos : Nat) (st : CState) : Option CState :=
  if pos < data.length then
    (rd data pos).bind fun cur =>
      let st := if feq cur st.lastSymbol then { st with runningLength := st.runningLength + 1 } else st
      if !(feq cur st.lastSymbol) ∨ st.runningLength = rlMax then
        (emitRun cap st).map fun st =>
          { st with
            runningLength := if st.runningLength = rlMax then 0 else 1
            lastSymbol := cur }
      else some { st with lastSymbol := cur }
  else
    (emitRun cap st).map fun st =>
      { st with runningLength := if st.runningLength = rlMax then 0 else 1 }

/-- `CompressData` (src/util/CompressedTensor.cpp:216-297) into a buffer of `cap` bytes.  The
result is the final state: `bytesOut` is the reported length, `out` the bytes written. -/
def compressData (cap : Nat) (data : List F32) : Option CState :=
  forLoop (data.length + 1) (step cap data) { lastSymbol := 0, runningLength := 0, bytesOut := 0, out := [] }

/-- A `CompressedTensor` (include/cn24/util/CompressedTensor.h:24-124). -/
structure CTensor where
  samples : Nat
  width : Nat
  height : Nat
  maps : Nat
  bytes : List Byte
  deriving DecidableEq, Repr

/-- `elements_` (src/util/CompressedTensor.cpp:101). -/
def CTensor.elements (c : CTensor) : Nat := c.samples * c.width * c.height * c.maps

/-- `CompressedTensor::Compress` (src/util/CompressedTensor.cpp:47-59) with `Resize` (79-103):
the buffer has `2 * elements * 4 + 2` bytes; a compressed length of 0 leaves the object
empty. -/
def compress (t : Tensor F32) : Option CTensor :=
  (compressData (2 * t.elements * charsPerDatum + 2) t.data).map fun st =>
    if st.bytesOut = 0 then ⟨0, 0, 0, 0, []⟩
    else ⟨t.samples, t.width, t.height, t.maps, st.out.take st.bytesOut⟩

/-- Outcomes of decompression. -/
inductive Res (α : Type _) where
  /-- normal return -/
  | ok (a : α)
  /-- `FATAL`: an exception -/
  | fatal
  /-- an access outside the compressed bytes or outside the output buffer, or a loop whose
  32-bit counter can never reach its bound -/
  | ub
  deriving DecidableEq, Repr

/-- The loop of `DecompressData` (src/util/CompressedTensor.cpp:299-346).  Arguments: size of
the output buffer in bytes, the bytes from `pos` on, the bytes written so far.  A run of
length 0 reads nothing and skips four bytes (line 332), which may step over the end. -/
def decLoop (cap : Nat) : List Byte → List Byte → Res (List Byte)
  | [], out => .ok out
  | b :: rest, out =>
    if b = marker then
      match rest with
      | [] => .ub
      | c :: rest =>
        if c = marker then
          if out.length < cap then decLoop cap rest (out ++ [marker]) else .ub
        else if c = rle then
          match rest with
          | [] => .ub
          | n :: rest =>
            match rest with
            | x0 :: x1 :: x2 :: x3 :: rest =>
              if out.length + n.toNat * 4 ≤ cap then
                decLoop cap rest (out ++ (List.replicate n.toNat [x0, x1, x2, x3]).flatten)
              else .ub
            | _ => if n = 0#8 then .ok out else .ub
        else .fatal
    else
      if out.length < cap then decLoop cap rest (out ++ [b]) else .ub

/-- The `datum` values held by a byte buffer. -/
def datums : List Byte → List F32
  | a :: b :: c :: d :: rest => datumOf [a, b, c, d] :: datums rest
  | _ => []

/-- `DecompressData` (src/util/CompressedTensor.cpp:299-346).  `pos` and `bytes_out` are 32-bit
(`unsigned int`): compressed data of 2^32 bytes or more make the loop endless (reported as
`ub`), and the element count is computed from the byte count modulo 2^32.  Result: the
element count and the bytes written. -/
def decompressData (cap : Nat) (bytes : List Byte) : Res (Nat × List Byte) :=
  if 2 ^ 32 ≤ bytes.length then .ub
  else match decLoop cap bytes [] with
    | .ok out =>
      if (out.length % 2 ^ 32) % charsPerDatum ≠ 0 then .fatal
      else .ok ((out.length % 2 ^ 32) / charsPerDatum, out)
    | .fatal => .fatal
    | .ub => .ub

/-- `CompressedTensor::Decompress` (src/util/CompressedTensor.cpp:61-76) into a fresh buffer of
`elements_` values. An empty result leaves the target empty (`Tensor::Resize`). -/
def decompress (c : CTensor) : Res (Tensor F32) :=
  match decompressData (c.elements * charsPerDatum) c.bytes with
  | .ok (n, out) =>
    if n ≠ c.elements then .fatal
    else if c.elements = 0 then .ok ⟨0, 0, 0, 0, []⟩
    else .ok ⟨c.samples, c.width, c.height, c.maps, datums out⟩
  | .fatal => .fatal
  | .ub => .ub

end CN24.Compress
