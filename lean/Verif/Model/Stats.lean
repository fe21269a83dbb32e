import Verif.Base.Loop

/-
Model of the statistics collector and of the CSV sink.
Sources: include/cn24/util/StatAggregator.h, src/util/StatAggregator.cpp,
src/util/CSVStatSink.cpp.
-/

namespace CN24.Stats

/-- `StatAggregatorState` (include/cn24/util/StatAggregator.h:88-89). -/
inductive Phase where
  | init | stopped | recording
  deriving DecidableEq, Repr

/-- `HardcodedStats` (include/cn24/util/StatAggregator.h:33-46).  Times are whole numbers of
clock ticks. -/
structure Hard where
  secondsElapsed : Int := 0
  iterations : Nat := 0
  weights : Nat := 0
  epoch : Nat := 0
  isTraining : Bool := false
  deriving DecidableEq, Repr

/-- `HardcodedStats::Reset` (include/cn24/util/StatAggregator.h:41-45). -/
def Hard.reset (h : Hard) : Hard := { h with secondsElapsed := 0, iterations := 0, weights := 0 }

/-- `StatDescriptor` (include/cn24/util/StatAggregator.h:53-66): the three functions.  `S` is
the type of a `Stat`, `V` of the reported values. -/
structure Desc (S V : Type _) where
  initF : S → S
  updateF : S → V → S
  outputF : Hard → S → S

/-- What a sink is told (include/cn24/util/StatSink.h). -/
inductive SinkEvent (S : Type _) where
  | initialize (descriptors : Nat)
  | process (hard : Hard) (outputs : List S)
  | setExperiment (name : String)
  deriving DecidableEq, Repr

/-- `StatAggregator` (include/cn24/util/StatAggregator.h:68-103).  A sink is the list of calls it
received. -/
structure Agg (S V : Type _) where
  phase : Phase := .init
  startTime : Int := 0
  hard : Hard := {}
  stats : List S := []
  descs : List (Desc S V) := []
  sinks : List (List (SinkEvent S)) := []
  experiment : String := "unnamed"

namespace Agg
variable {S V : Type _}

/-- Calling every sink (for example src/util/StatAggregator.cpp:34-36). -/
def tell (a : Agg S V) (e : SinkEvent S) : Agg S V := { a with sinks := a.sinks.map (· ++ [e]) }

/-- `RegisterSink` (src/util/StatAggregator.cpp:15-19). -/
def registerSink (a : Agg S V) : Agg S V × Nat :=
  ({ a with sinks := a.sinks ++ [[]] }, a.sinks.length)

/-- `RegisterStat` (src/util/StatAggregator.cpp:21-26). -/
def registerStat (a : Agg S V) (d : Desc S V) : Agg S V × Nat :=
  ({ a with descs := a.descs ++ [d] }, a.descs.length)

/-- `Reset` (src/util/StatAggregator.cpp:88-101).  `stats_[s]` outside the vector is
undefined. -/
def reset (a : Agg S V) : Option (Agg S V) :=
  if a.phase ≠ .stopped then some a
  else
    (forLoop a.descs.length (fun s stats =>
      (rd a.descs s).bind fun d => (rd stats s).bind fun x => wr stats s (d.initF x)) a.stats).map
      fun stats => { a with hard := a.hard.reset, stats := stats }

/-- `SetCurrentExperiment` (src/util/StatAggregator.cpp:142-151). -/
def setCurrentExperiment (a : Agg S V) (name : String) : Agg S V :=
  if a.phase ≠ .stopped then a else a.tell (.setExperiment name)

/-- `Initialize` (src/util/StatAggregator.cpp:28-50); `dflt` is a default-constructed `Stat`. -/
def initAll (dflt : S) (a : Agg S V) : Option (Agg S V) :=
  if a.phase ≠ .init then some a
  else
    let a := a.tell (.initialize a.descs.length)
    let a := { a with stats := a.stats ++ List.replicate a.descs.length dflt, phase := .stopped }
    a.reset.map fun a => a.setCurrentExperiment a.experiment

/-- `Generate` (src/util/StatAggregator.cpp:52-73). -/
def generate (a : Agg S V) : Option (Agg S V) :=
  (forLoop a.descs.length (fun s out =>
    (rd a.descs s).bind fun d => (rd a.stats s).map fun x => out ++ [d.outputF a.hard x]) []).map
    fun out => a.tell (.process a.hard out)

/-- `Update` (src/util/StatAggregator.cpp:76-86). -/
def update (a : Agg S V) (id : Nat) (v : V) : Option (Agg S V) :=
  if a.phase ≠ .recording then some a
  else if id < a.descs.length then
    (rd a.descs id).bind fun d => (rd a.stats id).bind fun x =>
      (wr a.stats id (d.updateF x v)).map fun stats => { a with stats := stats }
  else some a

/-- `StartRecording` (src/util/StatAggregator.cpp:103-113) at clock time `now`. -/
def startRecording (a : Agg S V) (now : Int) : Agg S V :=
  if a.phase ≠ .stopped then a else { a with startTime := now, phase := .recording }

/-- `StopRecording` (src/util/StatAggregator.cpp:115-129) at clock time `now`. -/
def stopRecording (a : Agg S V) (now : Int) : Agg S V :=
  if a.phase ≠ .recording then a
  else { a with
    hard := { a.hard with secondsElapsed := a.hard.secondsElapsed + (now - a.startTime) }
    phase := .stopped }

/-- `Snapshot` (src/util/StatAggregator.cpp:131-140). -/
def snapshot (a : Agg S V) (now now' : Int) : Option (Agg S V) :=
  if a.phase ≠ .recording then some a
  else ((a.stopRecording now).generate.bind reset).map fun a => a.startRecording now'

end Agg

/-- The calls a user (or, for `hardcode`, the friend classes `Trainer` and `NetStatus`, which
write `hardcoded_stats_` directly) can make. -/
inductive Op (S V : Type _) where
  | registerSink
  | registerStat (d : Desc S V)
  | initialize
  | update (id : Nat) (v : V)
  | generate
  | startRecording (now : Int)
  | stopRecording (now : Int)
  | reset
  | snapshot (now now' : Int)
  | setCurrentExperiment (name : String)
  | hardcode (h : Hard)

/-- One call. -/
def exec {S V : Type _} (dflt : S) (a : Agg S V) : Op S V → Option (Agg S V)
  | .registerSink => some a.registerSink.1
  | .registerStat d => some (a.registerStat d).1
  | .initialize => a.initAll dflt
  | .update id v => a.update id v
  | .generate => a.generate
  | .startRecording t => some (a.startRecording t)
  | .stopRecording t => some (a.stopRecording t)
  | .reset => a.reset
  | .snapshot t t' => a.snapshot t t'
  | .setCurrentExperiment n => some (a.setCurrentExperiment n)
  | .hardcode h => some { a with hard := h }

/-- A call sequence on a new collector. -/
def run {S V : Type _} (dflt : S) (ops : List (Op S V)) : Option (Agg S V) :=
  ops.foldlM (exec dflt) {}

/-! ### CSV sink -/

/-- One line of the header loop and of the value loop (src/util/CSVStatSink.cpp:38-46, 81-89):
write entry `s`, and a comma unless it is the last one. -/
def csvBody (entries : List (List Char)) : List Char :=
  (List.range entries.length).flatMap fun s =>
    (entries[s]?.getD []) ++ (if s < entries.length - 1 then [','] else [])

/-- `description.erase(std::remove_if(..., isnalnum))` (src/util/CSVStatSink.cpp:52-54, 85). -/
def strip (s : List Char) : List Char := s.filter Char.isAlphanum

/-- The header line written by `SetCurrentExperiment` (src/util/CSVStatSink.cpp:77-90), without
the newline. -/
def csvHeader (descriptions : List (List Char)) : List Char :=
  "IsTraining,Epoch,Iterations,SecondsElapsed,".toList ++ csvBody (descriptions.map strip)

/-- The row written by `Process` (src/util/CSVStatSink.cpp:31-47), without the newline.
`nat`, `real` print an unsigned number and a double; a null statistic is `none`. -/
def csvRow {D : Type _} (nat : Nat → List Char) (real : D → List Char) (isTraining : Bool)
    (epoch iterations : Nat) (seconds : D) (stats : List (Option D)) : List Char :=
  (if isTraining then "1".toList else "0".toList) ++ [','] ++ nat epoch ++ [','] ++
  nat iterations ++ [','] ++ real seconds ++ [','] ++
  csvBody (stats.map fun | some v => real v | none => [])

end CN24.Stats
