import Verif.Model.Session
import Verif.Model.StatLayers

/-
The layers that count errors (Model/StatLayers.lean) during a session of the training tool
(Model/Session.lean): when they count, when they are reset and what reaches the statistics.

Simplifications: one such layer for each network (tools/trainNetwork.cpp:272-290 adds one for each output node);
the layer counts the batches of an iteration before the rest of the iteration takes place, where the code
alternates; the two do not share data.  Output on the console is not modelled.
-/

namespace CN24.Rates
open CN24

/-- A `StatLayer` (include/cn24/net/StatLayer.h) that is also a layer: `FeedForward` when enabled on output, labels and
weights, `Reset`, and the calls of `StatAggregator::Update` that `UpdateAll` makes.  `ids` are the numbers of its
statistics. -/
structure Meter (σ R : Type _) where
  ids : List Nat
  feed : Tensor R × Tensor R × Tensor R → σ → Option σ
  reset : σ → Option σ
  updateAll : σ → Option (List (Nat × R))

/-- The descriptors of the rates (src/net/ConfusionMatrixLayer.cpp:32-61, src/net/BinaryStatLayer.cpp:51-91): `none` is
`is_null`.  The first one of each layer also resets the layer, see `resetLayers`. -/
def rateDesc {R : Type _} : Stats.Desc (Session.Stat R) R where
  initF := fun _ => none
  updateF := fun _ v => some v
  outputF := fun _ s => s

variable {R : Type _} [Field R] [LinearOrder R]

/-- A confusion matrix layer (src/net/ConfusionMatrixLayer.cpp:63-67, 112-115): its three statistics are registered
one after the other. -/
def confusion (lowest : R) (first : Nat) : Meter (ConfusionMatrix.State R) R where
  ids := [first, first + 1, first + 2]
  feed := fun t st => ConfusionMatrix.feedForward lowest false t.1 t.2.1 t.2.2 st
  reset := ConfusionMatrix.reset
  updateAll := fun st => (ConfusionMatrix.updateAll st).map fun
    | none => []
    | some r => [(first, r.1), (first + 1, r.2.1), (first + 2, r.2.2)]

/-- A binary statistics layer (src/net/BinaryStatLayer.cpp:93-98, 160-166). -/
def binary (first : Nat) : Meter (BinaryStat.State R) R where
  ids := [first, first + 1, first + 2, first + 3, first + 4, first + 5]
  feed := fun t st => BinaryStat.feedForward false t.1 t.2.1 t.2.2 st
  reset := fun st => some (BinaryStat.reset st)
  updateAll := fun st => (BinaryStat.updateAll st).map fun r =>
    [(first, r.fpr), (first + 1, r.fnr), (first + 2, r.precision), (first + 3, r.recall), (first + 4, r.accuracy),
      (first + 5, r.f1)].filterMap fun (u : Nat × Option R) => u.2.map fun v => (u.1, v)

/-- A session with layers that count errors: `predict` is what reaches the layer in the network (output, labels,
weights), `testPredict` the same for the second network of hybrid training; `during` is
`stats_during_training` (include/cn24/net/Trainer.h:45). -/
structure Machine (R τ B σ : Type _) extends Session.Machine R τ B where
  predict : Bool → Session.Weights R → B → Tensor R × Tensor R × Tensor R
  testPredict : Bool → Session.Weights R → B → Tensor R × Tensor R × Tensor R
  during : Bool
  meter : Meter σ R
  testMeter : Meter σ R

/-- The session, the counters of the two layers, and `disabled_` of the first one. -/
structure State (R τ σ : Type _) where
  base : Session.State R τ
  counts : σ
  testCounts : σ
  disabled : Bool

variable {τ B σ : Type _}

/-- `FeedForward` of the layer (src/net/ConfusionMatrixLayer.cpp:186-187, src/net/BinaryStatLayer.cpp:233-234). -/
def feedIf (M : Meter σ R) (disabled : Bool) (t : Tensor R × Tensor R × Tensor R) (s : σ) : Option σ :=
  if disabled then some s else M.feed t s

/-- The layer in the passes of an iteration (src/net/Trainer.cpp:357-358). -/
def countPasses (m : Machine R τ B σ) (st : State R τ σ) : Outcome σ :=
  (forO m.cfg.sbatchsize (fun _ (x : τ × σ) =>
    (m.source.forward x.1).bind fun b =>
    (Outcome.ofOption (feedIf m.meter st.disabled (m.predict st.base.isTesting st.base.opt.weights b.1) x.2)).bind fun s =>
    .done (b.2, s)) (st.base.src, st.counts)).bind fun x => .done x.2

/-- An iteration of `Epoch` (src/net/Trainer.cpp:350-402). -/
def iteration (m : Machine R τ B σ) (i : Nat) (st : State R τ σ) : Outcome (State R τ σ) :=
  (countPasses m st).bind fun s =>
  (Session.iteration m.toMachine i st.base).bind fun base => .done { st with base := base, counts := s }

/-- The calls of `Update`. -/
def updates {S V : Type _} (l : List (Nat × V)) (a : Stats.Agg S V) : Option (Stats.Agg S V) :=
  l.foldlM (fun a u => a.update u.1 u.2) a

/-- `UpdateAll` of a layer in state `s` (src/net/Trainer.cpp:300-304, 416-420). -/
def updateAll (M : Meter σ R) (s : σ) (st : State R τ σ) : Outcome (State R τ σ) :=
  (Outcome.ofOption (M.updateAll s)).bind fun l =>
  (Outcome.ofOption (updates l st.base.agg)).bind fun agg => .done { st with base := { st.base with agg := agg } }

/-- `Trainer::Epoch` (src/net/Trainer.cpp:314-426). -/
def epoch (m : Machine R τ B σ) (st : State R τ σ) : Outcome (State R τ σ) :=
  let base := Session.setHard (fun h => { h with epoch := st.base.epoch }) st.base
  (forO m.iterations (iteration m) { st with base := { base with src := m.source.setTesting false base.src } }).bind fun st =>
  (if m.during then updateAll m.meter st.counts st else .done st).bind fun st =>
  .done { st with base := { st.base with epoch := Trainer.u32 (st.base.epoch + 1) } }

/-- The effect of the first `init_function` of each layer (src/net/ConfusionMatrixLayer.cpp:36,
src/net/BinaryStatLayer.cpp:53), which `StatAggregator::Reset` (src/util/StatAggregator.cpp:88-101) calls unless it is
recording. -/
def resetLayers (m : Machine R τ B σ) (resets : Bool) (st : State R τ σ) : Outcome (State R τ σ) :=
  if resets then
    (Outcome.ofOption (m.meter.reset st.counts)).bind fun s =>
    (Outcome.ofOption (m.testMeter.reset st.testCounts)).bind fun t => .done { st with counts := s, testCounts := t }
  else .done st

/-- `StatAggregator::Snapshot`, which stops recording, generates and resets (src/util/StatAggregator.cpp:131-140). -/
def snapshot (m : Machine R τ B σ) (st : State R τ σ) : Outcome (State R τ σ) :=
  (Session.snapshot m.toMachine st.base).bind fun base =>
  resetLayers m (decide (st.base.agg.phase = .recording)) { st with base := base }

/-- The loop body of `Trainer::Train` (src/net/Trainer.cpp:240-245). -/
def trainStep (m : Machine R τ B σ) (snapshots : Bool) (st : State R τ σ) : Outcome (State R τ σ) :=
  (epoch m st).bind fun st =>
  if snapshots then
    (snapshot m st).bind fun st =>
    .done { st with base := Session.setHard (fun h => { h with weights := m.weightCount }) st.base }
  else .done st

/-- `Trainer::Train` (src/net/Trainer.cpp:232-249) with `NetGraph::SetStatLayersEnabled`
(src/net/NetGraph.cpp:71-76). -/
def train (m : Machine R τ B σ) (epochs : Nat) (snapshots : Bool) (st : State R τ σ) : Outcome (State R τ σ) :=
  (forO epochs (fun _ => trainStep m snapshots)
    { st with
      base := Session.setIsTesting false (Session.setHard (fun h => { h with weights := m.weightCount }) st.base)
      disabled := !m.during }).bind fun st => .done { st with disabled := false }

/-- An iteration of `Test` (src/net/Trainer.cpp:274-288) of a trainer without its own network. -/
def testIteration (m : Machine R τ B σ) (st : State R τ σ) : Outcome (State R τ σ) :=
  (m.source.forward st.base.src).bind fun b =>
  (Outcome.ofOption (feedIf m.meter st.disabled (m.predict st.base.isTesting st.base.opt.weights b.1) st.counts)).bind fun s =>
  (Session.testIteration m.toMachine st.base).bind fun base => .done { st with base := base, counts := s }

/-- An iteration of `Test` of the second trainer, whose layer is never disabled. -/
def hybridIteration (m : Machine R τ B σ) (st : State R τ σ) : Outcome (State R τ σ) :=
  (m.testSource.forward st.base.testSrc).bind fun b =>
  (Outcome.ofOption (m.testMeter.feed (m.testPredict true st.base.opt.weights b.1) st.testCounts)).bind fun s =>
  (Session.hybridIteration m.toMachine st.base).bind fun base => .done { st with base := base, testCounts := s }

/-- `Trainer::Test` (src/net/Trainer.cpp:251-312) of the trainer that tests. -/
def test (m : Machine R τ B σ) (st : State R τ σ) : Outcome (State R τ σ) :=
  let base := Session.setHard (fun h => { h with weights := m.weightCount }) st.base
  if m.hybrid then
    (forO m.testIterations (fun _ => hybridIteration m)
      { st with base := (Session.setHard (fun h => { h with isTraining := false })
        { base with testSrc := m.testSource.setTesting true base.testSrc }) }).bind fun st =>
    (updateAll m.testMeter st.testCounts st).bind fun st =>
    .done { st with base := { st.base with testSrc := m.testSource.setTesting false st.base.testSrc } }
  else
    (forO m.testIterations (fun _ => testIteration m)
      { st with base := Session.setIsTesting true { base with src := m.source.setTesting true base.src } }).bind fun st =>
    (updateAll m.meter st.counts st).bind fun st =>
    .done { st with base := { st.base with src := m.source.setTesting false st.base.src } }

/-- The end of a command (tools/trainNetwork.cpp:311-314, 327-329): `StopRecording`, `Generate`, `Reset`. -/
def finish (m : Machine R τ B σ) (generate : Bool) (st : State R τ σ) : Outcome (State R τ σ) :=
  (Session.generateIf generate (Session.stopRecording m.toMachine st.base)).bind fun base =>
  (Session.onAgg Stats.Agg.reset base).bind fun base' =>
  resetLayers m (decide (base.agg.phase = .stopped)) { st with base := base' }

/-- `parseCommand` (tools/trainNetwork.cpp:293-482) as in `Session.exec`. -/
def exec (m : Machine R τ B σ) (c : Session.Command R) (st : State R τ σ) : Outcome (State R τ σ) :=
  match c with
  | .train n snapshots =>
    (train m n snapshots { st with base := Session.startRecording m.toMachine st.base }).bind fun st =>
    finish m (!snapshots) { st with base := Session.syncEpoch m.toMachine st.base }
  | .test =>
    (test m { st with base := Session.syncEpoch m.toMachine (Session.startRecording m.toMachine st.base) }).bind
      (finish m true)
  | c => (Session.exec m.toMachine c st.base).bind fun base => .done { st with base := base }

/-- A session. -/
def run (m : Machine R τ B σ) : List (Session.Command R) → State R τ σ → Outcome (State R τ σ)
  | [], st => .done st
  | c :: cs, st => (exec m c st).bind (run m cs)

end CN24.Rates
