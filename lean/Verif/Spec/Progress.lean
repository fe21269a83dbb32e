import Verif.Model.Progress
import Verif.Proof.Trainer
import Verif.Proof.SessionRows
import Mathlib.Data.Sign.Defs

/-
Specification of the statistics on QuickProp and on speed: what is counted for a step of the optimiser, and the numbers
of a row.
-/

namespace CN24.Progress
open CN24

variable {R τ B : Type _} [Field R] [LinearOrder R]

/-- The slope of a weight, the slope before, the step before. -/
def slope (cfg : Trainer.Settings R) (localLr : List R) (st : Trainer.State R) (c : Trainer.Cell) : R :=
  Trainer.direction cfg ((rd localLr c.node).getD 0) ((Trainer.at2 st.accumulated c.flat c.elem).getD 0)
    ((Trainer.at3 st.weights c.node c.param c.elem).getD 0)

@[inherit_doc slope] def lastSlope (st : Trainer.State R) (c : Trainer.Cell) : R :=
  (Trainer.at2 st.lastGradients c.flat c.elem).getD 0

@[inherit_doc slope] def lastStep (st : Trainer.State R) (c : Trainer.Cell) : R :=
  (Trainer.at2 st.lastDeltas c.flat c.elem).getD 0

/-- Nothing to gain: the slope is (almost) zero. -/
def Flat (cfg : Trainer.Settings R) (localLr : List R) (st : Trainer.State R) (c : Trainer.Cell) : Prop :=
  |slope cfg localLr st c| ≤ 1 / 10 ^ 15

/-- The step to the vertex of the parabola through the two slopes is not longer than `mu` times the last one, and does
not go uphill. -/
def Reaches (cfg : Trainer.Settings R) (localLr : List R) (st : Trainer.State R) (c : Trainer.Cell) : Prop :=
  |slope cfg localLr st c| < |cfg.mu * (lastSlope st c - slope cfg localLr st c)| ∧
    SignType.sign (lastStep st c) ≠ SignType.sign (lastSlope st c - slope cfg localLr st c)

/-- The steps of the optimiser one after the other, each with fresh gradients, and what is counted in each. -/
inductive Steps (m : Machine R τ B) : List Counts → Trainer.State R → Trainer.State R → Prop
  | nil (p : Trainer.State R) : Steps m [] p p
  | snoc {ks : List Counts} {p q r : Trainer.State R} {k : Counts} (acc : List (List R)) (lr : R) :
      Steps m ks p q → applyCounting m.cfg lr m.localLr { q with accumulated := acc } = some (r, k) →
      Steps m (ks ++ [k]) p r

/-- The numbers of the statistics. -/
def ids (m : Machine R τ B) : List Nat := [m.idA, m.idB, m.idC, m.idM, m.pixelsId, m.framesId]

/-- The statistics are set up: each has a number of its own. -/
structure Registered (m : Machine R τ B) (a : Stats.Agg (Session.Stat R) R) : Prop where
  ok : a.stats.length = a.descs.length
  distinct : (m.lossId :: ids m).Nodup
  descA : a.descs[m.idA]? = some caseDesc
  descB : a.descs[m.idB]? = some caseDesc
  descC : a.descs[m.idC]? = some caseDesc
  descM : a.descs[m.idM]? = some caseDesc
  descP : a.descs[m.pixelsId]? = some speedDesc
  descF : a.descs[m.framesId]? = some speedDesc

/-- Between two commands: nothing is recorded, the statistics are null, and the network has the weights that were counted
when the trainer was constructed. -/
structure Ready (m : Machine R τ B) (st : Session.State R τ) : Prop where
  registered : Registered m st.agg
  stopped : st.agg.phase = .stopped
  null : ∀ id ∈ ids m, st.agg.stats[id]? = some none
  iterations : st.agg.hard.iterations = 0
  weights : weightCount st.opt.weights = m.weightCount

/-- New parameters are as many as the old ones. -/
def Fits (m : Machine R τ B) : Session.Command R → Prop
  | .reset w => weightCount w = m.weightCount
  | .load w => weightCount w = m.weightCount
  | _ => True

/-- The percentages of a row for the counts `ks` of its steps. -/
def Percentages (m : Machine R τ B) (ks : List Counts) (outs : List (Session.Stat R)) : Prop :=
  outs[m.idA]? = some (some (100 * (((ks.map (·.a)).sum : Nat) : R) / ((ks.length : R) * (m.weightCount : R)))) ∧
  outs[m.idB]? = some (some (100 * (((ks.map (·.b)).sum : Nat) : R) / ((ks.length : R) * (m.weightCount : R)))) ∧
  outs[m.idC]? = some (some (100 * (((ks.map (·.c)).sum : Nat) : R) / ((ks.length : R) * (m.weightCount : R)))) ∧
  outs[m.idM]? = some (some 0)

/-- No percentages. -/
def NoPercentages (m : Machine R τ B) (outs : List (Session.Stat R)) : Prop :=
  outs[m.idA]? = some none ∧ outs[m.idB]? = some none ∧ outs[m.idC]? = some none ∧ outs[m.idM]? = some none

/-- The speed in a row, for a number of pixels and of images. -/
def Speed (m : Machine R τ B) (pixels frames : Nat) (hard : Stats.Hard) (outs : List (Session.Stat R)) : Prop :=
  hard.secondsElapsed ≠ 0 →
    outs[m.pixelsId]? = some (some ((pixels : R) / (hard.secondsElapsed : R))) ∧
    outs[m.framesId]? = some (some ((frames : R) / (hard.secondsElapsed : R)))

end CN24.Progress
