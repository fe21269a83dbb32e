import Verif.Model.Stats

/-
Model of the files that the CSV sink writes: include/cn24/util/CSVStatSink.h, src/util/CSVStatSink.cpp.

A file is its text; files are told apart by their path as written (links and `..` are not resolved).  Every stream
operation of the sink ends with a flush, so between two calls the text in the file is the text written.
-/

namespace CN24.Csv
open CN24.Stats

abbrev Str := List Char

/-- The texts of the files of the disk. -/
abbrev Files := Str → Option Str

def Files.set (fs : Files) (path text : Str) : Files := fun p => if p = path then some text else fs p

/-- What the sink depends on: which files can be opened, the descriptions of the registered statistics, the formatting
of numbers, the elapsed seconds of a number of clock ticks and the value of an output statistic (`none` if it is
null). -/
structure Env (S D : Type _) where
  canOpen : Str → Bool
  descriptions : List Str
  nat : Nat → Str
  real : D → Str
  seconds : Int → D
  value : S → Option D

/-- The members (include/cn24/util/CSVStatSink.h:38-39); the stream is the path of its file, `none` the null
pointer. -/
structure Sink where
  descs : List Str := []
  stream : Option Str := none
  deriving DecidableEq, Repr

variable {S D : Type _}

/-- The path (src/util/CSVStatSink.cpp:64-66). -/
def csvPath (name : Str) : Str := "csv/".toList ++ name ++ ".csv".toList

/-- The line that `Process` writes (src/util/CSVStatSink.cpp:31-47) for `n` descriptors; `none` if it reads behind the
statistics. -/
def rowLine (e : Env S D) (n : Nat) (hard : Hard) (stats : List S) : Option Str :=
  if n ≤ stats.length then
    some (csvRow e.nat e.real hard.isTraining hard.epoch hard.iterations (e.seconds hard.secondsElapsed)
      ((stats.take n).map e.value) ++ ['\n'])
  else none

/-- `Process` (src/util/CSVStatSink.cpp:27-50). -/
def process (e : Env S D) (hard : Hard) (stats : List S) (st : Sink × Files) : Option (Sink × Files) :=
  match st.1.stream with
  | none => some st
  | some path =>
    (rowLine e st.1.descs.length hard stats).map fun l => (st.1, st.2.set path ((st.2 path).getD [] ++ l))

/-- `SetCurrentExperiment` (src/util/CSVStatSink.cpp:56-92).  Opening for output empties the file; if that fails the
null pointer is dereferenced. -/
def setExperiment (e : Env S D) (name : Str) (st : Sink × Files) : Option (Sink × Files) :=
  if e.canOpen (csvPath name) then
    some ({ st.1 with stream := some (csvPath name) }, st.2.set (csvPath name) (csvHeader st.1.descs ++ ['\n']))
  else none

/-- One call of the collector; `Initialize` copies the list of descriptors (src/util/CSVStatSink.cpp:23-25). -/
def onEvent (e : Env S D) (st : Sink × Files) : SinkEvent S → Option (Sink × Files)
  | .initialize n => some ({ st.1 with descs := e.descriptions.take n }, st.2)
  | .process hard stats => process e hard stats st
  | .setExperiment name => setExperiment e name.toList st

/-- Several calls. -/
def sinkRun (e : Env S D) (events : List (SinkEvent S)) (st : Sink × Files) : Option (Sink × Files) :=
  events.foldlM (onEvent e) st

/-- What the disk may hold if the program is killed during a call: some of the text of the call may have reached the
file; a file that is being opened may still be as it was. -/
inductive LeftBy (e : Env S D) : Sink × Files → SinkEvent S → Files → Prop
  | same (st : Sink × Files) (ev : SinkEvent S) : LeftBy e st ev st.2
  | row (s : Sink) (fs : Files) (hard : Hard) (stats : List S) (path l w : Str) (hs : s.stream = some path)
      (hl : rowLine e s.descs.length hard stats = some l) (hw : w <+: l) :
      LeftBy e (s, fs) (.process hard stats) (fs.set path ((fs path).getD [] ++ w))
  | header (s : Sink) (fs : Files) (name : String) (w : Str) (ho : e.canOpen (csvPath name.toList) = true)
      (hw : w <+: csvHeader s.descs ++ ['\n']) :
      LeftBy e (s, fs) (.setExperiment name) (fs.set (csvPath name.toList) w)

end CN24.Csv
