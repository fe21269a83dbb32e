import Verif.Base.Outcome
import Verif.Model.Config
import Verif.Model.NetConfig

/-
Model of reading a dataset description: `TensorStreamDataset::CreateFromConfiguration`
(src/util/TensorStreamDataset.cpp:288-388) and `TensorStreamPatchDataset::CreateFromConfiguration`
(src/util/TensorStreamPatchDataset.cpp:331-462), up to the choice of the files.
-/

namespace CN24.DatasetConfig
open CN24 CN24.Config

/-- The local variables (src/util/TensorStreamDataset.cpp:289-296); `kitti` is the choice of the error function,
`noMmap` exists only in the patch version (src/util/TensorStreamPatchDataset.cpp:341). -/
structure Cfg (D : Type _) where
  classes : Nat
  names : List Str
  colors : List Nat
  weights : List D
  kitti : Bool
  training : Str
  testing : Str
  noMmap : Bool
  deriving DecidableEq, Repr

/-- Initial values. -/
def Cfg.new (D : Type _) : Cfg D := ⟨0, [], [], [], false, [], [], false⟩

/-- `isxdigit`. -/
def isHex (c : Char) : Bool := c.isDigit || ('a' ≤ c && c ≤ 'f') || ('A' ≤ c && c ≤ 'F')

/-- Value of a hexadecimal digit. -/
def hexVal (c : Char) : Nat :=
  if c.isDigit then c.toNat - 48 else if 'a' ≤ c ∧ c ≤ 'f' then c.toNat - 87 else c.toNat - 55

/-- Value of a sequence of hexadecimal digits. -/
def hexValue (s : Str) : Nat := s.foldl (fun n c => n * 16 + hexVal c) 0

/-- `std::strtoul(s, nullptr, 16)` with 64 bits: white space, a sign, `0x`, digits; too large numbers give the
maximum, negative ones wrap around. -/
def strtoul16 (s : Str) : Nat :=
  let s := sign (s.dropWhile isSpace)
  let d := if s.2.take 2 = ['0', 'x'] ∨ s.2.take 2 = ['0', 'X'] then s.2.drop 2 else s.2
  let v := hexValue (d.takeWhile isHex)
  if 18446744073709551616 ≤ v then 18446744073709551615
  else if s.1 then (18446744073709551616 - v) % 18446744073709551616
  else v

/-- The `for` loops with `std::getline` (src/util/TensorStreamDataset.cpp:310-314, 321-323, 337-340): the lines and
what remains; a line beyond the end is empty. -/
def nextLines : Nat → List Str → List Str × List Str
  | 0, rest => ([], rest)
  | n + 1, rest => (rest.headD [] :: (nextLines n rest.tail).1, (nextLines n rest.tail).2)

/-- The same with the counter `int c`, whose increment overflows for 2^31 lines and more. -/
def sectionLines (n : Nat) (rest : List Str) : Outcome (List Str × List Str) :=
  if n < 2147483648 then .done (nextLines n rest) else .undefined

/-- The colour loop (src/util/TensorStreamDataset.cpp:321-331). -/
def readColors : List Str → Outcome (List Nat)
  | [] => .done []
  | l :: ls => if strtoul16 l < 4294967296 then (readColors ls).bind fun cs => .done (strtoul16 l :: cs) else .fatal

/-- The weight loop (src/util/TensorStreamDataset.cpp:337-346).  `conv` is the conversion by `operator>>`; for a line
without anything but white space the variable stays uninitialised. -/
def readWeights {D : Type _} (conv : Str → D) : List Str → Outcome (List D)
  | [] => .done []
  | l :: ls => if l.all isSpace then .undefined else (readWeights conv ls).bind fun ws => .done (conv l :: ws)

variable {D : Type _}

/-- `classes` (src/util/TensorStreamDataset.cpp:307-317). -/
def readClasses (line : Str) (rest : List Str) (c : Cfg D) : Outcome (List Str × Cfg D) :=
  if startsWithIdentifier line "classes".toList then
    (Outcome.ofOption (parseCount line "classes".toList c.classes)).bind fun n =>
    (sectionLines n rest).bind fun r =>
    .done (r.2, { c with classes := n, names := c.names ++ r.1 })
  else .done (rest, c)

/-- `colors` (src/util/TensorStreamDataset.cpp:319-333). -/
def readColorSection (line : Str) (rest : List Str) (c : Cfg D) : Outcome (List Str × Cfg D) :=
  if startsWithIdentifier line "colors".toList then
    (sectionLines c.classes rest).bind fun r =>
    (readColors r.1).bind fun cs => .done (r.2, { c with colors := c.colors ++ cs })
  else .done (rest, c)

/-- `weights` (src/util/TensorStreamDataset.cpp:335-348). -/
def readWeightSection (conv : Str → D) (line : Str) (rest : List Str) (c : Cfg D) : Outcome (List Str × Cfg D) :=
  if startsWithIdentifier line "weights".toList then
    (sectionLines c.classes rest).bind fun r =>
    (readWeights conv r.1).bind fun ws => .done (r.2, { c with weights := c.weights ++ ws })
  else .done (rest, c)

/-- `localized_error` (src/util/TensorStreamDataset.cpp:350-361).  `compare("default")` is zero for "default", so
that name changes nothing; the exception of `substr` ends the program. -/
def readError (line : Str) (c : Cfg D) : Outcome (Cfg D) :=
  match setting line "localized_error".toList with
  | none => .fatal
  | some none => .done c
  | some (some name) =>
    if name = "kitti".toList then .done { c with kitti := true }
    else if name ≠ "default".toList then .done { c with kitti := false }
    else .done c

/-- `ParseStringIfPossible(line, "training", …)` and the same for `testing`
(src/util/TensorStreamDataset.cpp:363-364). -/
def readFiles (line : Str) (c : Cfg D) : Outcome (Cfg D) :=
  match setting line "training".toList, setting line "testing".toList with
  | some a, some b => .done { c with training := a.getD c.training, testing := b.getD c.testing }
  | _, _ => .fatal

/-- One iteration (src/util/TensorStreamDataset.cpp:302-365). -/
def step (conv : Str → D) (line : Str) (rest : List Str) (c : Cfg D) : Outcome (List Str × Cfg D) :=
  let c := { c with noMmap := c.noMmap || startsWithIdentifier line "nommap".toList }
  (readClasses line rest c).bind fun r =>
  (readColorSection line r.1 r.2).bind fun r =>
  (readWeightSection conv line r.1 r.2).bind fun r =>
  (readError line r.2).bind fun c =>
  (readFiles line c).bind fun c => .done (r.1, c)

/-- `while (!file.eof())`: the stream is at its end when no line remains.  Each iteration reads a line, so `fuel` is
enough if it is the number of lines. -/
def readLoop (conv : Str → D) : Nat → List Str → Cfg D → Outcome (Cfg D)
  | 0, _, c => .done c
  | _ + 1, [], c => .done c
  | n + 1, line :: rest, c => (step conv line rest c).bind fun r => readLoop conv n r.1 r.2

/-- Weights for all classes unless the number is right (src/util/TensorStreamDataset.cpp:371-374). -/
def padWeights (one : D) (c : Cfg D) : Cfg D :=
  if c.weights.length ≠ c.classes then { c with weights := c.weights ++ List.replicate c.classes one } else c

/-- The description that the constructor accepts (src/util/TensorStreamDataset.cpp:49-52); loading the files is not
part of this model. -/
def create (conv : Str → D) (one : D) (text : Str) : Outcome (Cfg D) :=
  (readLoop conv (NetConfig.linesOf text).length (NetConfig.linesOf text) (Cfg.new D)).bind fun c =>
  if (padWeights one c).classes ≠ (padWeights one c).names.length ∨
      (padWeights one c).classes ≠ (padWeights one c).colors.length then .fatal
  else .done (padWeights one c)

/-- `DatasetLoadSelection` (include/cn24/util/Dataset.h). -/
inductive Selection
  | both
  | trainingOnly
  | testingOnly
  deriving DecidableEq, Repr

/-- The files given to `TensorStream::FromFile` for the training and the testing stream
(src/util/TensorStreamDataset.cpp:376-384). -/
def streamFiles (dontLoad : Bool) (sel : Selection) (c : Cfg D) : Option Str × Option Str :=
  (if !dontLoad && (sel = .both || sel = .trainingOnly) && decide (0 < c.training.length) then some c.training else none,
    if !dontLoad && (sel = .both || sel = .testingOnly) && decide (0 < c.testing.length) then some c.testing else none)

/-- A file of the patch version: the file the headers are read from and the file the memory map shows, if there
is one. -/
structure Opened where
  stream : Str
  map : Option Str
  deriving DecidableEq, Repr

/-- The files opened by the patch version (src/util/TensorStreamPatchDataset.cpp:419-452), `isFile` telling which
files can be opened; `mmap` is BUILD_POSIX. -/
def patchFiles (isFile : Str → Bool) (mmap dontLoad : Bool) (sel : Selection) (c : Cfg D) :
    Outcome (Option Opened × Option Opened) :=
  let train : Outcome (Option Opened) :=
    if !dontLoad && (sel = .both || sel = .trainingOnly) && decide (0 < c.training.length) then
      if isFile c.training = false then .fatal
      else if mmap && !c.noMmap then
        (if isFile c.training then .done (some ⟨c.training, some c.training⟩) else .fatal)
      else .done (some ⟨c.training, none⟩)
    else .done none
  let test : Outcome (Option Opened) :=
    if !dontLoad && (sel = .both || sel = .testingOnly) && decide (0 < c.testing.length) then
      if isFile c.testing = false then .fatal
      else if mmap && !c.noMmap then
        (if isFile c.training then .done (some ⟨c.testing, some c.training⟩) else .fatal)
      else .done (some ⟨c.testing, none⟩)
    else .done none
  train.bind fun a => test.bind fun b => .done (a, b)

end CN24.DatasetConfig
