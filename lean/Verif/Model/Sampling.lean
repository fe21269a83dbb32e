import Verif.Model.Dataset
import Verif.Model.Trainer

/-
src/net/DatasetInputLayer.cpp: the choice of samples.  The dataset is a record of functions; see
Model/Dataset.lean and Model/PatchDataset.lean for the two datasets of the library.
-/

namespace CN24.Sampling
open CN24

variable {R G : Type _}

/-- The interface `Dataset` (include/cn24/util/Dataset.h) as far as the input layer uses it.  The
functions return `none` for undefined behaviour, otherwise success and the new output tensors. -/
structure Data (R : Type _) where
  fcn : Bool
  training : Nat
  testing : Nat
  getTraining : Outputs R → Nat → Nat → Option (Bool × Outputs R)
  getTesting : Outputs R → Nat → Nat → Option (Bool × Outputs R)

/-- The random number generator: `shuffle` is `std::shuffle (..., generator_)`, `draw` is
`dist_ (generator_)`. -/
structure Random (R G : Type _) where
  shuffle : G → List Nat → List Nat × G
  draw : G → R × G

/-- A call made to the dataset: testing or training set, position in the batch, sample number. -/
structure Request where
  testing : Bool
  position : Nat
  index : Nat
  deriving DecidableEq, Repr

/-- The members of the input layer, its output tensors, and the calls made so far. -/
structure State (R G : Type _) where
  perm : List Nat
  current : Nat
  currentTesting : Nat
  testing : Bool
  gen : G
  outs : Outputs R
  requests : List Request

/-- `RedoPermutation` (src/net/DatasetInputLayer.cpp:237-240). -/
def redoPermutation (rnd : Random R G) (st : State R G) : State R G :=
  { st with perm := (rnd.shuffle st.gen st.perm).1, gen := (rnd.shuffle st.gen st.perm).2 }

/-- The constructor (src/net/DatasetInputLayer.cpp:25-60) and the member initialisers of
include/cn24/net/DatasetInputLayer.h:84-100. -/
def construct (rnd : Random R G) (ds : Data R) (seed : G) (outs : Outputs R) : State R G :=
  redoPermutation rnd
    { perm := List.range ds.training, current := 0, currentTesting := 0, testing := false,
      gen := seed, outs := outs, requests := [] }

/-- `SetTestingMode` (src/net/DatasetInputLayer.cpp:242-255). -/
def setTestingMode (testing : Bool) (st : State R G) : State R G :=
  { st with currentTesting := if testing ≠ st.testing ∧ testing then 0 else st.currentTesting,
            testing := testing }

/-- The choice of the next sample (src/net/DatasetInputLayer.cpp:150-176): sample number,
`force_no_weight` and the new state.  `none`: `perm_[current_element_]` does not exist. -/
def select (rnd : Random R G) (ds : Data R) (st : State R G) : Option (Nat × Bool × State R G) :=
  if st.testing then
    if ds.testing ≤ st.currentTesting then some (0, true, st)
    else some (st.currentTesting, false, { st with currentTesting := st.currentTesting + 1 })
  else
    (rd st.perm st.current).map fun e =>
      let st := { st with current := st.current + 1 }
      if st.perm.length ≤ st.current then
        (e, false, redoPermutation rnd { st with current := 0 })
      else (e, false, st)

/-- Loss sampling for one sample (src/net/DatasetInputLayer.cpp:190-205): blocks of 12 x 12 pixels
are dropped if the draw exceeds the probability.  State: generator and weight tensor. -/
def lossSampling [Zero R] [LT R] [DecidableLT R] (rnd : Random R G) (p : R) (sample : Nat)
    (gen : G) (error : Tensor R) : Option (G × Tensor R) :=
  forLoop ((error.height + 11) / 12) (fun by' =>
    forLoop ((error.width + 11) / 12) (fun bx st =>
      let d := rnd.draw st.1
      if p < d.1 then
        (forRange (12 * by') (min (12 * by' + 12) error.height) (fun iy =>
          forRange (12 * bx) (min (12 * bx + 12) error.width) (fun ix e =>
            e.put ix iy 0 sample 0)) st.2).map fun e => (d.2, e)
      else some (d.2, st.2))) (gen, error)

section
variable [Zero R] [LT R] [DecidableLT R]

/-- One position of the batch (src/net/DatasetInputLayer.cpp:149-210). -/
def fillPosition (rnd : Random R G) (p : R) (ds : Data R) (sample : Nat) (st : State R G) :
    Outcome (State R G) :=
  (Outcome.ofOption (select rnd ds st)).bind fun (sel : Nat × Bool × State R G) =>
  let st : State R G :=
    { sel.2.2 with requests := sel.2.2.requests ++ [⟨sel.2.2.testing, sample, sel.1⟩] }
  (Outcome.ofOption (if st.testing then ds.getTesting st.outs sample sel.1
    else ds.getTraining st.outs sample sel.1)).bind fun (r : Bool × Outputs R) =>
  if !r.1 then .fatal
  else
    (if !st.testing && !sel.2.1 && ds.fcn then
      Outcome.ofOption ((lossSampling rnd p sample st.gen r.2.error).map fun (l : G × Tensor R) =>
        { st with gen := l.1, outs := { r.2 with error := l.2 } })
    else .done { st with outs := r.2 }).bind fun (st : State R G) =>
    if sel.2.1 then
      Outcome.ofOption ((st.outs.error.clear 0 (some sample)).map fun e =>
        { st with outs := { st.outs with error := e } })
    else .done st

/-- `FeedForward` (src/net/DatasetInputLayer.cpp:142-211) on the host. -/
def feedForward (rnd : Random R G) (p : R) (ds : Data R) (batch : Nat) (st : State R G) :
    Outcome (State R G) :=
  forO batch (fillPosition rnd p ds) st

/-- What a user does with the layer. -/
inductive Op where
  | setTesting (b : Bool)
  | forward
  deriving DecidableEq, Repr

/-- A history of calls. -/
def run (rnd : Random R G) (p : R) (ds : Data R) (batch : Nat) : List Op → State R G →
    Outcome (State R G)
  | [], st => .done st
  | .setTesting b :: ops, st => run rnd p ds batch ops (setTestingMode b st)
  | .forward :: ops, st =>
    (feedForward rnd p ds batch st).bind (run rnd p ds batch ops)

end
end CN24.Sampling
