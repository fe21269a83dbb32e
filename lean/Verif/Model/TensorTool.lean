import Verif.Model.StreamTools

/-
tools/tensorTool.cpp: the interactive tool that shows, changes and writes back one tensor of a file.
`show` (only with a graphical interface) is left out, and what is printed as well.
-/

namespace CN24.TensorTool
open CN24 CN24.Tensor CN24.Config CN24.StreamTools

/-- The loop to the tensor with the given number (tools/tensorTool.cpp:50-52). -/
def seek : Nat → Tensor (Option F32) → IStream → Tensor (Option F32)
  | 0, t, _ => t
  | n + 1, t, s => seek n (deserializeInto t s).1 (deserializeInto t s).2

/-- The tensor the tool starts with (tools/tensorTool.cpp:34-54): `number` is the second argument,
`"0"` if it is missing.  `tid + 1` is an `unsigned int`.  `none`: the number does not fit an `int`. -/
def start (file : Option (List Byte)) (number : Str) : Option (Tensor (Option F32)) :=
  (atoi number).map fun k => seek ((toUInt k + 1) % 4294967296) ⟨0, 0, 0, 0, []⟩ (openIn file)

/-- `std::cin`: the characters that have not been read, and the fail bit.  At the end of the input
the next extraction fails. -/
structure Keys where
  chars : Str
  fail : Bool := false
  deriving DecidableEq, Repr

/-- `std::string entry; std::cin >> entry;` -/
def Keys.word (k : Keys) : Str × Keys :=
  if k.fail then ([], k)
  else
    let s := k.chars.dropWhile isSpace
    if s = [] then ([], ⟨[], true⟩)
    else (s.takeWhile (fun c => !isSpace c), ⟨s.dropWhile (fun c => !isSpace c), false⟩)

/-- `unsigned int n; std::cin >> n;` (base ten).  `none`: nothing is stored, because the stream has
failed before or its end is reached. -/
def Keys.number (k : Keys) : Option Nat × Keys :=
  if k.fail then (none, k)
  else
    let s := k.chars.dropWhile isSpace
    if s = [] then (none, ⟨[], true⟩)
    else
      let s := sign s
      let digits := s.2.takeWhile Char.isDigit
      let rest := s.2.dropWhile Char.isDigit
      if digits = [] then (some 0, ⟨rest, true⟩)
      else if 4294967295 < digitsValue digits then (some 4294967295, ⟨rest, true⟩)
      else
        (some (if s.1 then (4294967296 - digitsValue digits) % 4294967296 else digitsValue digits),
          ⟨rest, false⟩)

/-- `Tensor::Reshape` (src/util/Tensor.cpp:174-194) in `size_t` arithmetic; a refused call leaves the
tensor as it is. -/
def reshape (t : Tensor (Option F32)) (samples width height maps : Nat) : Tensor (Option F32) :=
  if t.data = [] then t
  else if t.data.length ≠ u64 (samples * maps * width * height) then t
  else { t with samples, width, height, maps }

/-- `Tensor::Serialize(output, true)` (src/util/Tensor.cpp:225-248): the bytes appended to the output.
`byteOf` is `MCHAR_FROM_DATUM`, `none` where the conversion to `unsigned char` is undefined. -/
def serializeBytes (byteOf : F32 → Option Byte) (t : Tensor F32) : Option (List Byte) :=
  if t.maps = 3 then
    ((List.range t.samples).flatMap fun s => (List.range (t.width * t.height)).flatMap fun i =>
      (List.range 3).map fun c => t.width * t.height * t.maps * s + t.width * t.height * c + i).mapM
      fun e => (rd t.data e).bind byteOf
  else
    (List.range t.elements).mapM fun e => (rd t.data e).bind byteOf

/-- What the commands depend on: `patches` is `ExtractPatches` (see C45) with the patch width, the
patch height and the sample, `byteOf` see `serializeBytes`, `writable` tells which files can be
opened for writing. -/
structure Env where
  patches : Nat → Nat → Nat → Tensor (Option F32) → Outcome (Tensor (Option F32))
  byteOf : F32 → Option Byte
  writable : Str → Bool

/-- The tool between two commands. -/
structure State where
  tensor : Tensor (Option F32)
  disk : Disk
  keys : Keys

/-- A variable that is used must have been stored to. -/
def stored (r : Option Nat × Keys) : Outcome (Nat × Keys) :=
  match r.1 with
  | some n => .done (n, r.2)
  | none => .undefined

/-- The branch `reshape` (tools/tensorTool.cpp:87-100). -/
def doReshape (st : State) : Outcome State :=
  let w := st.keys.number
  let h := w.2.number
  let m := h.2.number
  let s := m.2.number
  (stored w).bind fun w => (stored h).bind fun h => (stored m).bind fun m => (stored s).bind fun s =>
  .done ⟨reshape st.tensor s.1 w.1 h.1 m.1, st.disk, s.2⟩

/-- The branch `extractpatches` (tools/tensorTool.cpp:102-114).  The two new tensors are never
deleted, so the shadow stays valid. -/
def doPatches (env : Env) (st : State) : Outcome State :=
  let s := if st.tensor.samples ≠ 1 then
      (match st.keys.number with | (none, k) => (some 0, k) | (some n, k) => (some n, k))
    else (some 0, st.keys)
  let x := s.2.number
  let y := x.2.number
  (stored s).bind fun s => (stored x).bind fun x => (stored y).bind fun y =>
  (env.patches x.1 y.1 s.1 st.tensor).bind fun t => .done ⟨t, st.disk, y.2⟩

/-- The branch `write` (tools/tensorTool.cpp:116-120). -/
def doWrite (env : Env) (file : Str) (st : State) : Outcome State :=
  if env.writable file then
    (Outcome.ofOption (determined st.tensor)).bind fun t =>
      .done { st with disk := st.disk.set file t.serialize }
  else .done st

/-- `"binoutput.data"` (tools/tensorTool.cpp:123). -/
def binFile : Str := "binoutput.data".toList

/-- The branch `bin` (tools/tensorTool.cpp:122-132). -/
def doBin (env : Env) (st : State) : Outcome State :=
  if env.writable binFile then
    (Outcome.ofOption (determined st.tensor)).bind fun t =>
    (Outcome.ofOption (serializeBytes env.byteOf t)).bind fun bs =>
      .done { st with disk := st.disk.set binFile bs }
  else .done st

/-- The branches of a command that does not end the tool (tools/tensorTool.cpp:78-155). -/
def act (env : Env) (file entry : Str) (st : State) : Outcome State :=
  if entry = "help".toList then .done st
  else if entry = "size".toList then .done st
  else if entry = "transpose".toList then
    (Outcome.ofOption st.tensor.transpose).bind fun t => .done { st with tensor := t }
  else if entry = "reshape".toList then doReshape st
  else if entry = "extractpatches".toList then doPatches env st
  else if entry = "write".toList then doWrite env file st
  else if entry = "bin".toList then doBin env st
  else .done st

/-- `parseCommand` (tools/tensorTool.cpp:71-158): whether the tool goes on, and the new state. -/
def parseCommand (env : Env) (file : Str) (st : State) : Outcome (Bool × State) :=
  let r := st.keys.word
  let st := { st with keys := r.2 }
  if r.1 = "q".toList ∨ r.1 = "quit".toList then .done (false, st)
  else (act env file r.1 st).bind fun st => .done (true, st)

/-- The first `n` rounds of the loop over the commands (tools/tensorTool.cpp:62-65): whether the tool
is still running, and the state. -/
def rounds (env : Env) (file : Str) : Nat → State → Outcome (Bool × State)
  | 0, st => .done (true, st)
  | n + 1, st => (parseCommand env file st).bind fun r =>
    if r.1 then rounds env file n r.2 else .done (false, r.2)

end CN24.TensorTool
