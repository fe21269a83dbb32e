import Verif.Spec.Tool
import Verif.Model.Config
import Verif.Model.NetConfig
import Verif.Model.NetGraph

/-
The commands of the training tool (tools/trainNetwork.cpp): how a line is read, what it does, scripts and the prompt.

What training, testing and the initialisation do to the parameters is a parameter here (see Model/Session.lean); saving
and loading are those of Model/NetGraph.lean.  Not modelled: messages, the layer viewer, statistics of single nodes, and
the second network for testing (Model/Hybrid.lean).
-/

namespace CN24.Tool
open CN24 CN24.Config CN24.Net

/-- `ParseCountIfPossible`. -/
def count (command key : Str) (default : Nat) : Outcome Nat := .ofOption (parseCount command key default)

/-- `ParseStringParamIfPossible` into an empty string. -/
def text (command key : Str) : Outcome Str := (Outcome.ofOption (param command key)).bind fun s => .done (s.getD [])

/-- A command that needs a name (tools/trainNetwork.cpp:337-338, 373-374, 387-391, 424-425). -/
def named (name : Str) (a : Action) : Action := if name.length = 0 then .message else a

/-- The case distinction of `parseCommand` (tools/trainNetwork.cpp:293-482).  `compare (0, n, word)` is
`startsWithIdentifier`. -/
def parse (command : Str) : Outcome Action :=
  if command = "q".toList ∨ command = "quit".toList then .done .quit
  else if startsWithIdentifier command "train".toList then
    (count command "view".toList 0).bind fun view =>
    (count command "epochs".toList 1).bind fun epochs =>
    (count command "no_snapshots".toList 0).bind fun no =>
    .done (.train epochs (decide (view = 1)) (decide (no ≠ 1)))
  else if startsWithIdentifier command "test".toList then
    (count command "view".toList 0).bind fun view => .done (.test (decide (view = 1)))
  else if startsWithIdentifier command "load".toList then
    (text command "file".toList).bind fun file =>
    (count command "last_layer".toList 0).bind fun last => .done (named file (.load file last))
  else if startsWithIdentifier command "save".toList then
    (text command "file".toList).bind fun file => .done (named file (.save file))
  else if startsWithIdentifier command "set experiment".toList then
    (text command "name".toList).bind fun name => .done (named name (.experiment name))
  else if startsWithIdentifier command "set epoch".toList then
    (count command "epoch".toList 0).bind fun epoch => .done (.setEpoch epoch)
  else if startsWithIdentifier command "reset".toList then .done .reset
  else if startsWithIdentifier command "help".toList then .done .help
  else if startsWithIdentifier command "graph".toList then
    (text command "file".toList).bind fun file =>
    .done (named file (.graph file (find "test".toList command).isSome))
  else if startsWithIdentifier command "wstat".toList then
    (text command "node".toList).bind fun node => .done (.weightStats node)
  else if startsWithIdentifier command "dstat".toList then
    (text command "node".toList).bind fun node => .done (.dataStats node)
  else if startsWithIdentifier command "tstat".toList then
    (count command "enable".toList 1).bind fun on => .done (.trainingStats (decide (on = 1)))
  else .done .message

/-- The parameters of a network; `none` is a value that was never written. -/
abbrev Parameters := List (List (Tensor (Option F32)))

/-- The parts of the program that the commands use.  `canWrite`: the file can be opened for writing; `drawing`: what
`PrintGraph` writes. -/
structure Engine (σ : Type _) where
  params : σ → Parameters
  setParams : Parameters → σ → σ
  train : Nat → Bool → σ → Outcome σ
  test : σ → Outcome σ
  setEpoch : Nat → σ → σ
  reset : σ → Outcome σ
  experiment : Str → σ → Outcome σ
  trainingStats : Bool → σ → σ
  canWrite : Str → Bool
  drawing : Bool → σ → List Byte

/-- The state of the program and the files by name. -/
structure World (σ : Type _) where
  state : σ
  files : Str → Option (List Byte)

variable {σ : Type _}

/-- A file with new contents. -/
def World.write (w : World σ) (file : Str) (bytes : List Byte) : World σ :=
  { w with files := fun f => if f = file then some bytes else w.files f }

/-- A tensor all of whose values have been written. -/
def valueOf (t : Tensor (Option F32)) : Option (Tensor F32) :=
  (t.data.mapM id).map fun d => ⟨t.samples, t.width, t.height, t.maps, d⟩

/-- The parameters to be saved; reading a value that was never written is undefined. -/
def valuesOf (ps : Parameters) : Option (List (List (Tensor F32))) := ps.mapM fun l => l.mapM valueOf

/-- The text around the drawing (tools/trainNetwork.cpp:428-436), in ASCII. -/
def ascii (s : Str) : List Byte := s.map fun c => BitVec.ofNat 8 c.toNat

/-- What `parseCommand` does (tools/trainNetwork.cpp:293-482), except to end. -/
def exec (e : Engine σ) (a : Action) (w : World σ) : Outcome (World σ) :=
  match a with
  | .train n _ snapshots => (e.train n snapshots w.state).bind fun s => .done { w with state := s }
  | .test _ => (e.test w.state).bind fun s => .done { w with state := s }
  | .load file last =>
    match w.files file with
    | none => .done w
    | some bytes => (Outcome.ofOption (deserializeParameters (e.params w.state) { bytes } last)).bind fun r =>
        .done { w with state := e.setParams r.1 w.state }
  | .save file =>
    if e.canWrite file then
      (Outcome.ofOption (valuesOf (e.params w.state))).bind fun ps => .done (w.write file (serializeParameters ps))
    else .done w
  | .experiment name => (e.experiment name w.state).bind fun s => .done { w with state := s }
  | .setEpoch n => .done { w with state := e.setEpoch n w.state }
  | .reset => (e.reset w.state).bind fun s => .done { w with state := s }
  | .graph file testing =>
    if e.canWrite file then
      .done (w.write file (ascii "digraph G {".toList ++ e.drawing testing w.state ++ ascii "}".toList))
    else .done w
  | .trainingStats on => .done { w with state := e.trainingStats on w.state }
  | .quit => .done w
  | .help => .done w
  | .weightStats _ => .done w
  | .dataStats _ => .done w
  | .message => .done w

/-- `parseCommand`: the new state, and whether to go on. -/
def command (e : Engine σ) (line : Str) (w : World σ) : Outcome (World σ × Bool) :=
  (parse line).bind fun a => (exec e a w).bind fun w => .done (w, decide (a ≠ .quit))

/-- The loop over a script (tools/trainNetwork.cpp:247-253), for the lines that are left. -/
def lines (e : Engine σ) : List Str → World σ → Outcome (World σ)
  | [], w => .done w
  | l :: ls, w => (command e l w).bind fun (r : World σ × Bool) => if r.2 then lines e ls r.1 else .done r.1

/-- A script; `getline` delivers the parts between the line feeds, the last one with the end of the file. -/
def script (e : Engine σ) (contents : Str) (w : World σ) : Outcome (World σ) := lines e (NetConfig.linesOf contents) w

/-- `n` rounds at the prompt (tools/trainNetwork.cpp:257-264): the state and whether the loop goes on.  After the end of
the input `getline` delivers empty lines. -/
def prompt (e : Engine σ) : Nat → List Str → World σ → Outcome (World σ × Bool)
  | 0, _, w => .done (w, true)
  | n + 1, input, w => (command e (input.headD []) w).bind fun (r : World σ × Bool) =>
      if r.2 then prompt e n input.tail r.1 else .done r

end CN24.Tool
