import Verif.Model.CsvFiles
import Verif.Model.MatrixReport

/-
The sink that prints statistics: include/cn24/util/ConsoleStatSink.h.  Everything it prints goes to the standard output, the
text of which is the second component of the state.  The formatting of a `double` is a parameter.
-/

namespace CN24.Console
open CN24 CN24.Stats CN24.Config CN24.MatrixReport

/-- What the sink depends on: the log level, the places named in debug output and information, description and unit of the
registered statistics, the formatting of a value and the value of a statistic (`none` if it is null). -/
structure Env (S D : Type _) where
  level : Nat
  initPlace : Str
  experimentPlace : Str
  descs : List (Str × Str)
  real : D → Str
  value : S → Option D

variable {S D : Type _}

/-- `LOGDEBUG << text` (include/cn24/util/Log.h:49-51). -/
def debug (e : Env S D) (text : Str) : Str :=
  if e.level < 3 then [] else '\n' :: ("DBG [ ".toList ++ e.initPlace ++ " ] ".toList ++ text)

/-- `LOGINFO << text` (include/cn24/util/Log.h:46-48). -/
def info (e : Env S D) (text : Str) : Str :=
  if e.level < 2 then [] else '\n' :: ("\x1b[1mINF [ ".toList ++ e.experimentPlace ++ " ] \x1b[0m".toList ++ text)

/-- `std::setw(w) << s`. -/
def pad (w : Nat) (s : Str) : Str := List.replicate (w - s.length) ' ' ++ s

/-- `Initialize` (include/cn24/util/ConsoleStatSink.h:32-38) with the first `n` descriptors. -/
def register (e : Env S D) (n : Nat) (st : List (Str × Str) × Str) : List (Str × Str) × Str :=
  (e.descs.take n, st.2 ++ debug e "Initializing ConsoleStatSink. Registered Stats:".toList ++
    (e.descs.take n).flatMap fun d => debug e (" - ".toList ++ d.1))

/-- The line of a statistic (include/cn24/util/ConsoleStatSink.h:43). -/
def statLine (e : Env S D) (d : Str × Str) (v : D) : Str :=
  pad 32 d.1 ++ ": ".toList ++ pad 24 (e.real v) ++ " ".toList ++ d.2

/-- `Process` (include/cn24/util/ConsoleStatSink.h:39-46). -/
def process (e : Env S D) (hard : Hard) (stats : List S) (st : List (Str × Str) × Str) : Option (List (Str × Str) × Str) :=
  (forLoop st.1.length (fun s out =>
    (rd stats s).bind fun x =>
    match e.value x with
    | none => some out
    | some v => (rd st.1 s).map fun d => out ++ result hard.isTraining (statLine e d v))
    (st.2 ++ result hard.isTraining ("Stats for epoch ".toList ++ digitsOf hard.epoch ++ ":".toList))).map fun out => (st.1, out)

/-- `SetCurrentExperiment` (include/cn24/util/ConsoleStatSink.h:47-49). -/
def setExperiment (e : Env S D) (name : Str) (st : List (Str × Str) × Str) : List (Str × Str) × Str :=
  (st.1, st.2 ++ info e ("Beginning Experiment: ".toList ++ name))

/-- One call of the collector. -/
def onEvent (e : Env S D) (st : List (Str × Str) × Str) : SinkEvent S → Option (List (Str × Str) × Str)
  | .initialize n => some (register e n st)
  | .process hard stats => process e hard stats st
  | .setExperiment name => some (setExperiment e name.toList st)

/-- Several calls. -/
def sinkRun (e : Env S D) (events : List (SinkEvent S)) (st : List (Str × Str) × Str) : Option (List (Str × Str) × Str) :=
  events.foldlM (onEvent e) st

end CN24.Console
