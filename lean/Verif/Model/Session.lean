import Verif.Model.Trainer
import Verif.Model.Stats

/-
A training session: the trainer (src/net/Trainer.cpp) driven by the commands of the tool
(tools/trainNetwork.cpp:293-482), with the statistics (Model/Stats.lean) and the source of the samples
(Model/Sampling.lean).

Not modelled here: output on the console, the layer viewer, the statistics other than the loss
(Model/Progress.lean), and the layers that count errors (Model/StatLayers.lean; in a session: Model/Rates.lean).
-/

namespace CN24.Session
open CN24

/-- The parameters of a network by node. -/
abbrev Weights (R : Type _) := List (List (List R))

/-- A `TrainingLayer` (include/cn24/net/TrainingLayer.h) as the trainer uses it: `SetTestingMode`, and one
forward pass, which gives the batch. -/
structure Source (τ B : Type _) where
  setTesting : Bool → τ → τ
  forward : τ → Outcome (B × τ)

/-- A statistic (include/cn24/util/StatAggregator.h:48-51); `none` is `is_null`. -/
abbrev Stat (R : Type _) := Option R

/-- What does not change during a session.  `hybrid` (tools/trainNetwork.cpp:186-233): the network is tested
with a second network and a second trainer, whose parameters are shadows of the first ones.  `gradients` and
`loss` are the passes of the network for a value of `IsTesting` (include/cn24/net/NetStatus.h:28); `loss` is
the sum over the loss functions (src/net/Trainer.cpp:276-281, 360-365).  `iterations` and `testIterations` are
the counts of src/net/Trainer.cpp:260-263, 323-328; `clock n` is the `n`-th reading of the clock. -/
structure Machine (R τ B : Type _) where
  hybrid : Bool
  cfg : Trainer.Settings R
  rate : Nat → R
  localLr : List R
  iterations : Nat
  testIterations : Nat
  weightCount : Nat
  source : Source τ B
  testSource : Source τ B
  testSampleCount : Nat
  gradients : Bool → Weights R → B → Weights R
  loss : Bool → Weights R → B → R
  testLoss : Bool → Weights R → B → R
  lossId : Nat
  clock : Nat → Int

/-- The state of a session: the trainer with the parameters of the network, its epoch, the epoch of the trainer
that tests (the same trainer unless `hybrid`), the two training layers, the flag of the trained network, and the
statistics. -/
structure State (R τ : Type _) where
  opt : Trainer.State R
  epoch : Nat
  testEpoch : Nat
  src : τ
  testSrc : τ
  isTesting : Bool
  agg : Stats.Agg (Stat R) R
  ticks : Nat

variable {R τ B : Type _} [Field R] [LinearOrder R]

/-- `hardcoded_stats_` is written directly (a friend class). -/
def setHard (f : Stats.Hard → Stats.Hard) (st : State R τ) : State R τ :=
  { st with agg := { st.agg with hard := f st.agg.hard } }

/-- `NetStatus::SetIsTesting` (include/cn24/net/NetStatus.h:35-38) on the trained network. -/
def setIsTesting (b : Bool) (st : State R τ) : State R τ :=
  setHard (fun h => { h with isTraining := !b }) { st with isTesting := b }

/-- The end of an iteration (src/net/Trainer.cpp:282-288, 396-402): `value` is reported as the loss. -/
def report (m : Machine R τ B) (value : R) (st : State R τ) : Outcome (State R τ) :=
  let st := if st.agg.phase = .recording then setHard (fun h => { h with iterations := h.iterations + 1 }) st else st
  (Outcome.ofOption (st.agg.update m.lossId value)).bind fun agg => .done { st with agg := agg }

/-- A pass forward and backward (src/net/Trainer.cpp:357-387): layer, accumulated gradients and loss. -/
def pass (m : Machine R τ B) (flag : Bool) (weights : Weights R) (x : τ × List (List R) × R) :
    Outcome (τ × List (List R) × R) :=
  (m.source.forward x.1).bind fun b =>
  (Outcome.ofOption (Trainer.accumulate (m.gradients flag weights b.1) x.2.1)).bind fun acc =>
  .done (b.2, acc, x.2.2 + m.loss flag weights b.1)

/-- An iteration of `Epoch` (src/net/Trainer.cpp:350-402). -/
def iteration (m : Machine R τ B) (i : Nat) (st : State R τ) : Outcome (State R τ) :=
  (forO m.cfg.sbatchsize (fun _ => pass m st.isTesting st.opt.weights)
    (st.src, Trainer.clearAll st.opt.accumulated, 0)).bind fun x =>
  (Outcome.ofOption (Trainer.applyGradients m.cfg (m.rate (Trainer.lrIndex st.epoch m.iterations i)) m.localLr
    { st.opt with accumulated := x.2.1 })).bind fun opt =>
  report m (Trainer.reportedLoss m.cfg x.2.2)
    { st with src := x.1, opt := opt }

/-- `Trainer::Epoch` (src/net/Trainer.cpp:314-426). -/
def epoch (m : Machine R τ B) (st : State R τ) : Outcome (State R τ) :=
  let st := setHard (fun h => { h with epoch := st.epoch }) st
  (forO m.iterations (iteration m) { st with src := m.source.setTesting false st.src }).bind fun st =>
  .done { st with epoch := Trainer.u32 (st.epoch + 1) }

/-- `StatAggregator::Snapshot` reads the clock twice. -/
def snapshot (m : Machine R τ B) (st : State R τ) : Outcome (State R τ) :=
  (Outcome.ofOption (st.agg.snapshot (m.clock st.ticks) (m.clock (st.ticks + 1)))).bind fun agg =>
  .done { st with agg := agg, ticks := st.ticks + 2 }

/-- The loop body of `Trainer::Train` (src/net/Trainer.cpp:240-245). -/
def trainStep (m : Machine R τ B) (snapshots : Bool) (st : State R τ) : Outcome (State R τ) :=
  (epoch m st).bind fun st =>
  if snapshots then
    (snapshot m st).bind fun st => .done (setHard (fun h => { h with weights := m.weightCount }) st)
  else .done st

/-- `Trainer::Train` (src/net/Trainer.cpp:232-249). -/
def train (m : Machine R τ B) (epochs : Nat) (snapshots : Bool) (st : State R τ) : Outcome (State R τ) :=
  forO epochs (fun _ => trainStep m snapshots)
    (setIsTesting false (setHard (fun h => { h with weights := m.weightCount }) st))

/-- An iteration of `Test` (src/net/Trainer.cpp:274-288) of a trainer without its own network. -/
def testIteration (m : Machine R τ B) (st : State R τ) : Outcome (State R τ) :=
  (m.source.forward st.src).bind fun b =>
  report m (m.loss st.isTesting st.opt.weights b.1 / (m.cfg.sampleCount : R)) { st with src := b.2 }

/-- An iteration of `Test` of the second trainer. -/
def hybridIteration (m : Machine R τ B) (st : State R τ) : Outcome (State R τ) :=
  (m.testSource.forward st.testSrc).bind fun b =>
  report m (m.testLoss true st.opt.weights b.1 / (m.testSampleCount : R)) { st with testSrc := b.2 }

/-- `Trainer::Test` (src/net/Trainer.cpp:251-312) of the trainer that tests. -/
def test (m : Machine R τ B) (st : State R τ) : Outcome (State R τ) :=
  let st := setHard (fun h => { h with weights := m.weightCount }) st
  if m.hybrid then
    (forO m.testIterations (fun _ => hybridIteration m)
      (setHard (fun h => { h with isTraining := false })
        { st with testSrc := m.testSource.setTesting true st.testSrc })).bind fun st =>
    .done { st with testSrc := m.testSource.setTesting false st.testSrc }
  else
    (forO m.testIterations (fun _ => testIteration m)
      (setIsTesting true { st with src := m.source.setTesting true st.src })).bind fun st =>
    .done { st with src := m.source.setTesting false st.src }

/-- `testing_trainer.SetEpoch (trainer.epoch())` (tools/trainNetwork.cpp:307, 322, 395;
include/cn24/net/Trainer.h:96-99): without a second trainer this resets the only one. -/
def syncEpoch (m : Machine R τ B) (st : State R τ) : State R τ :=
  if m.hybrid then { st with testEpoch := st.epoch }
  else { st with testEpoch := st.epoch, opt := Trainer.reset st.opt }

/-- The commands that act on the session.  `reset` and `load` come with the parameters that
`NetGraph::InitializeWeights` draws and `NetGraph::DeserializeParameters` reads. -/
inductive Command (R : Type _) where
  | train (epochs : Nat) (snapshots : Bool)
  | test
  | setEpoch (epoch : Nat)
  | reset (weights : Weights R)
  | load (weights : Weights R)

/-- `StartRecording`. -/
def startRecording (m : Machine R τ B) (st : State R τ) : State R τ :=
  { st with agg := st.agg.startRecording (m.clock st.ticks), ticks := st.ticks + 1 }

/-- `StopRecording`. -/
def stopRecording (m : Machine R τ B) (st : State R τ) : State R τ :=
  { st with agg := st.agg.stopRecording (m.clock st.ticks), ticks := st.ticks + 1 }

/-- A call of the statistics. -/
def onAgg (f : Stats.Agg (Stat R) R → Option (Stats.Agg (Stat R) R)) (st : State R τ) : Outcome (State R τ) :=
  (Outcome.ofOption (f st.agg)).bind fun agg => .done { st with agg := agg }

/-- The end of a command that generates statistics. -/
def generateIf (b : Bool) (st : State R τ) : Outcome (State R τ) :=
  if b then onAgg Stats.Agg.generate st else .done st

/-- `parseCommand` (tools/trainNetwork.cpp:293-482) for the commands above. -/
def exec (m : Machine R τ B) (c : Command R) (st : State R τ) : Outcome (State R τ) :=
  match c with
  | .train n snapshots =>
    (train m n snapshots (startRecording m st)).bind fun st =>
    (generateIf (!snapshots) (stopRecording m (syncEpoch m st))).bind (onAgg Stats.Agg.reset)
  | .test =>
    (test m (syncEpoch m (startRecording m st))).bind fun st =>
    (generateIf true (stopRecording m st)).bind (onAgg Stats.Agg.reset)
  | .setEpoch e =>
    let st := syncEpoch m { st with epoch := e, opt := Trainer.reset st.opt }
    .done { st with opt := Trainer.reset st.opt }
  | .reset w => .done { st with opt := Trainer.reset { st.opt with weights := w } }
  | .load w => .done { st with opt := { st.opt with weights := w } }

/-- A session. -/
def run (m : Machine R τ B) : List (Command R) → State R τ → Outcome (State R τ)
  | [], st => .done st
  | c :: cs, st => (exec m c st).bind (run m cs)

/-- The statistic "Average Aggregate Loss" (src/net/Trainer.cpp:42-60). -/
def lossDesc : Stats.Desc (Stat R) R where
  initF := fun _ => none
  updateF := fun s v => some (s.getD 0 + v)
  outputF := fun h s => if 0 < h.iterations then some (s.getD 0 / (h.iterations : R)) else none

end CN24.Session
