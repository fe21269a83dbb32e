import Verif.Model.Session

/-
The statistics of a session other than the loss (src/net/Trainer.cpp:61-180): which of its rules QuickProp used, and
how many pixels and images were processed per second.

`double` is a field.  Counts are not bounded here: `qp_caseA`, `weight_count_` and `sample_count_` are `unsigned int`.
-/

namespace CN24.Progress
open CN24

/-- The rules that `ApplyGradients` counts (src/net/Trainer.cpp:499-527): `A` the step is the last one times `mu`, `B` the
step to the vertex of the parabola, `C` the slope is flat.  `qp_caseM` is never incremented. -/
inductive Case where
  | A | B | C
  deriving DecidableEq, Repr

section
variable {R : Type _} [Field R] [LinearOrder R]

/-- The counter that is incremented for a weight (src/net/Trainer.cpp:499-519), if any. -/
def caseOf (mu : R) (first : Bool) (currentSlope lastSlope lastStep : R) : Option Case :=
  if first then none
  else if |currentSlope| ≤ 1 / 10 ^ 15 then some .C
  else if |currentSlope| < |mu * (lastSlope - currentSlope)| ∧
      Trainer.sgn lastStep ≠ Trainer.sgn (lastSlope - currentSlope) then some .B
  else some .A

/-- `qp_caseA`, `qp_caseB`, `qp_caseC` (src/net/Trainer.cpp:430). -/
structure Counts where
  a : Nat := 0
  b : Nat := 0
  c : Nat := 0
  deriving DecidableEq, Repr

/-- An increment. -/
def Counts.add (k : Counts) : Option Case → Counts
  | none => k
  | some .A => { k with a := k.a + 1 }
  | some .B => { k with b := k.b + 1 }
  | some .C => { k with c := k.c + 1 }

/-- The counter for the weight of a cell; none for gradient descent (src/net/Trainer.cpp:451-521). -/
def cellCase (cfg : Trainer.Settings R) (localLr : List R) (c : Trainer.Cell) (st : Trainer.State R) :
    Option (Option Case) :=
  match cfg.method with
  | .gradientDescent => some none
  | .quickprop =>
    (rd localLr c.node).bind fun layerLr =>
    (Trainer.at3 st.weights c.node c.param c.elem).bind fun weight =>
    (Trainer.at2 st.accumulated c.flat c.elem).bind fun wGradient =>
    (Trainer.at2 st.lastDeltas c.flat c.elem).bind fun lastStep =>
    (Trainer.at2 st.lastGradients c.flat c.elem).map fun lastSlope =>
    caseOf cfg.mu st.firstIteration (Trainer.direction cfg layerLr wGradient weight) lastSlope lastStep

/-- The loops of `Trainer::ApplyGradients` (src/net/Trainer.cpp:428-542) with the counters. -/
def applyCounting (cfg : Trainer.Settings R) (lr : R) (localLr : List R) (st : Trainer.State R) :
    Option (Trainer.State R × Counts) :=
  Trainer.visit (Trainer.sizes st.weights) (fun c x =>
    (cellCase cfg localLr c x.1).bind fun o =>
    (Trainer.updateWeight cfg lr localLr c x.1).map fun s => (s, x.2.add o)) (st, {})

/-- `weight_count_` (src/net/Trainer.cpp:200-223). -/
def weightCount (weights : Session.Weights R) : Nat := (weights.flatten.map List.length).sum

/-- `stat_qp_caseA_` and its siblings (src/net/Trainer.cpp:61-139); `none` is `is_null`. -/
def caseDesc : Stats.Desc (Session.Stat R) R where
  initF := fun _ => none
  updateF := fun s v => some (s.getD 0 + v)
  outputF := fun h s =>
    if 0 < h.iterations ∧ 0 < h.weights then s.map fun v => 100 * v / ((h.iterations : R) * (h.weights : R)) else none

/-- `stat_sps_` and `stat_fps_` (src/net/Trainer.cpp:141-169).  For no elapsed time the C++ gives an infinity or no
number. -/
def speedDesc : Stats.Desc (Session.Stat R) R where
  initF := fun _ => none
  updateF := fun s v => some (s.getD 0 + v)
  outputF := fun h s => s.map fun v => v / (h.secondsElapsed : R)

end

/-- A session with these statistics: their numbers, and `GetBatchSize` of the layers of the two trainers (the number of
pixels in a batch, `sample_count_`, is in `cfg` and `testSampleCount`). -/
structure Machine (R τ B : Type _) extends Session.Machine R τ B where
  idA : Nat
  idB : Nat
  idC : Nat
  idM : Nat
  pixelsId : Nat
  framesId : Nat
  batch : Nat
  testBatch : Nat

variable {R τ B : Type _} [Field R] [LinearOrder R]

/-- Calls of `StatAggregator::Update`. -/
def updates (l : List (Nat × R)) (st : Session.State R τ) : Outcome (Session.State R τ) :=
  (Outcome.ofOption (l.foldlM (fun a u => a.update u.1 u.2) st.agg)).bind fun agg => .done { st with agg := agg }

/-- The end of `ApplyGradients` (src/net/Trainer.cpp:544-550). -/
def caseUpdates (m : Machine R τ B) (k : Counts) : List (Nat × R) :=
  match m.cfg.method with
  | .gradientDescent => []
  | .quickprop => [(m.idA, (k.a : R)), (m.idB, (k.b : R)), (m.idC, (k.c : R)), (m.idM, 0)]

/-- An iteration of `Epoch` (src/net/Trainer.cpp:350-402). -/
def iteration (m : Machine R τ B) (i : Nat) (st : Session.State R τ) : Outcome (Session.State R τ) :=
  (forO m.cfg.sbatchsize (fun _ => Session.pass m.toMachine st.isTesting st.opt.weights)
    (st.src, Trainer.clearAll st.opt.accumulated, 0)).bind fun x =>
  (Outcome.ofOption (applyCounting m.cfg (m.rate (Trainer.lrIndex st.epoch m.iterations i)) m.localLr
    { st.opt with accumulated := x.2.1 })).bind fun r =>
  (updates (caseUpdates m r.2) { st with src := x.1, opt := r.1 }).bind fun st =>
  Session.report m.toMachine (Trainer.reportedLoss m.cfg x.2.2) st

/-- `Trainer::Epoch` (src/net/Trainer.cpp:314-426). -/
def epoch (m : Machine R τ B) (st : Session.State R τ) : Outcome (Session.State R τ) :=
  let st := Session.setHard (fun h => { h with epoch := st.epoch }) st
  (forO m.iterations (iteration m) { st with src := m.source.setTesting false st.src }).bind fun st =>
  (updates [(m.pixelsId, (m.cfg.sampleCount : R) * (m.iterations : R) * (m.cfg.sbatchsize : R)),
    (m.framesId, (m.batch : R) * (m.iterations : R) * (m.cfg.sbatchsize : R))] st).bind fun st =>
  .done { st with epoch := Trainer.u32 (st.epoch + 1) }

/-- The loop body of `Trainer::Train` (src/net/Trainer.cpp:240-245). -/
def trainStep (m : Machine R τ B) (snapshots : Bool) (st : Session.State R τ) : Outcome (Session.State R τ) :=
  (epoch m st).bind fun st =>
  if snapshots then
    (Session.snapshot m.toMachine st).bind fun st =>
    .done (Session.setHard (fun h => { h with weights := m.weightCount }) st)
  else .done st

/-- `Trainer::Train` (src/net/Trainer.cpp:232-249). -/
def train (m : Machine R τ B) (epochs : Nat) (snapshots : Bool) (st : Session.State R τ) : Outcome (Session.State R τ) :=
  forO epochs (fun _ => trainStep m snapshots)
    (Session.setIsTesting false (Session.setHard (fun h => { h with weights := m.weightCount }) st))

/-- The performance statistics of `Test` (src/net/Trainer.cpp:292-294). -/
def testUpdates (m : Machine R τ B) : List (Nat × R) :=
  [(m.pixelsId, ((if m.hybrid then m.testSampleCount else m.cfg.sampleCount : Nat) : R) * (m.testIterations : R)),
    (m.framesId, ((if m.hybrid then m.testBatch else m.batch : Nat) : R) * (m.testIterations : R))]

/-- `Trainer::Test` (src/net/Trainer.cpp:251-312); setting the mode of the layer back comes before the statistics here,
the two do not share data. -/
def test (m : Machine R τ B) (st : Session.State R τ) : Outcome (Session.State R τ) :=
  (Session.test m.toMachine st).bind (updates (testUpdates m))

/-- `parseCommand` (tools/trainNetwork.cpp:293-482) as in `Session.exec`. -/
def exec (m : Machine R τ B) (c : Session.Command R) (st : Session.State R τ) : Outcome (Session.State R τ) :=
  match c with
  | .train n snapshots =>
    (train m n snapshots (Session.startRecording m.toMachine st)).bind fun st =>
    (Session.generateIf (!snapshots) (Session.stopRecording m.toMachine (Session.syncEpoch m.toMachine st))).bind
      (Session.onAgg Stats.Agg.reset)
  | .test =>
    (test m (Session.syncEpoch m.toMachine (Session.startRecording m.toMachine st))).bind fun st =>
    (Session.generateIf true (Session.stopRecording m.toMachine st)).bind (Session.onAgg Stats.Agg.reset)
  | c => Session.exec m.toMachine c st

/-- A session. -/
def run (m : Machine R τ B) : List (Session.Command R) → Session.State R τ → Outcome (Session.State R τ)
  | [], st => .done st
  | c :: cs, st => (exec m c st).bind (run m cs)

end CN24.Progress
