import Verif.Model.Layers
import Verif.Model.Tensor
import Mathlib.Algebra.Order.Field.Basic

/-
src/net/ConfusionMatrixLayer.cpp and src/net/BinaryStatLayer.cpp: counters and reported rates.
`datum` and `long double` are an ordered field: infinities are not modelled, the NaN of the F1 value is.
The counting of `BinaryStatLayer` needs an addition only, so that it can also be that of single precision
numbers (Base/Flt.lean, C93).  `#pragma omp` is ignored (each threshold has its own counters).
-/

namespace CN24

namespace ConfusionMatrix
variable {R : Type _}

/-- The counters (include/cn24/net/ConfusionMatrixLayer.h:86-89).  `counters` is `none` until
`Connect` allocates `matrix_` and `per_class_`. -/
structure State (R : Type _) where
  classes : Nat
  counters : Option (List R × List R) := none
  total : R
  right : R

/-- `Reset` (src/net/ConfusionMatrixLayer.cpp:211-222); a null pointer is dereferenced before
`Connect`, unless there are no classes. -/
def reset [Zero R] (st : State R) : Option (State R) :=
  match st.counters with
  | none => if st.classes = 0 then some { st with total := 0, right := 0 } else none
  | some c => some { st with counters := some (c.1.map fun _ => 0, c.2.map fun _ => 0),
                             total := 0, right := 0 }

/-- `CreateOutputs` and `Connect` (src/net/ConfusionMatrixLayer.cpp:118-183) for three non-null
inputs and no outputs: the check, then the state. -/
def connect [Zero R] (first second third : Shape) (st : State R) : Option (Option (State R)) :=
  if first.elements = second.elements ∧ first.samples = third.samples ∧
      first.samples = second.samples then
    (reset { st with counters := some (List.replicate (st.classes * st.classes) 0,
                                       List.replicate st.classes 0) }).map some
  else some none

/-- `+=` on an array element. -/
def bumpAt [Add R] (l : List R) (i : Nat) (w : R) : Option (List R) :=
  (rd l i).bind fun v => wr l i (v + w)

/-- The body of the loops of `FeedForward` (src/net/ConfusionMatrixLayer.cpp:192-200). -/
def count [Add R] (first second : Nat) (weight : R) (st : State R) : Option (State R) :=
  st.counters.bind fun c =>
  (bumpAt c.1 (first * st.classes + second) weight).bind fun matrix =>
  (bumpAt c.2 second weight).map fun perClass =>
    { st with counters := some (matrix, perClass), total := st.total + weight,
              right := if first = second then st.right + weight else st.right }

/-- `FeedForward` (src/net/ConfusionMatrixLayer.cpp:185-205). -/
def feedForward [Add R] [LT R] [DecidableLT R] (lowest : R) (disabled : Bool)
    (first second third : Tensor R) (st : State R) : Option (State R) :=
  if disabled then some st
  else
    forLoop first.samples (fun sample => forLoop first.height (fun y => forLoop first.width (fun x st =>
      (first.pixelMaximum lowest x y sample).bind fun firstClass =>
      (second.pixelMaximum lowest x y sample).bind fun secondClass =>
      (third.get x y 0 sample).bind fun weight =>
      count firstClass secondClass weight st))) st

section
variable [Field R] [LinearOrder R]

/-- The average recognition rate: sum and number of the classes that occur
(src/net/ConfusionMatrixLayer.cpp:81-92). -/
def average (classes : Nat) (matrix perClass : List R) : Option (R × R) :=
  forLoop classes (fun c s =>
    (rd perClass c).bind fun n =>
    if 0 < n then (rd matrix (c * classes + c)).map fun v => (s.1 + v / n, s.2 + 1)
    else some s) (0, 0)

/-- The intersection over union, summed over the classes (src/net/ConfusionMatrixLayer.cpp:94-110). -/
def iouSum (classes : Nat) (matrix : List R) : Option R :=
  forLoop classes (fun t sum =>
    (forLoop classes (fun c unionn =>
      if c ≠ t then
        (rd matrix (t * classes + c)).bind fun a =>
        (rd matrix (c * classes + t)).map fun b => unionn + a + b
      else some unionn) 0).bind fun unionn =>
    (rd matrix (t * classes + t)).map fun d =>
      sum + if 0 < unionn + d then d / (unionn + d) else 0) 0

/-- `UpdateAll` (src/net/ConfusionMatrixLayer.cpp:69-116): overall rate, average rate and average
intersection over union, or nothing. -/
def updateAll (st : State R) : Option (Option (R × R × R)) :=
  if st.total < 1 then some none
  else
    st.counters.bind fun c =>
    (average st.classes c.1 c.2).bind fun a =>
    (iouSum st.classes c.1).map fun i =>
      some (100 * st.right / st.total, 100 * a.1 / a.2, 100 * i / (st.classes : R))

end
end ConfusionMatrix

namespace BinaryStat
variable {R : Type _}

/-- The counters of one threshold. -/
structure Counts (R : Type _) where
  tp : R
  fp : R
  tn : R
  fn : R
  deriving DecidableEq

/-- The members of the layer that change. -/
structure State (R : Type _) where
  values : List R
  counts : List (Counts R)
  deriving DecidableEq

/-- The four cases of `FeedForward` (src/net/BinaryStatLayer.cpp:239-252). -/
def Counts.add [Add R] (c : Counts R) (sign expected : Bool) (w : R) : Counts R :=
  match sign, expected with
  | true, true => { c with tp := c.tp + w }
  | true, false => { c with fp := c.fp + w }
  | false, true => { c with fn := c.fn + w }
  | false, false => { c with tn := c.tn + w }

/-- `FeedForward` (src/net/BinaryStatLayer.cpp:232-256). -/
def feedForward [Zero R] [Add R] [LT R] [DecidableLT R] (disabled : Bool) (first second third : Tensor R) (st : State R) :
    Option (State R) :=
  if disabled then some st
  else
    (forLoop st.values.length (fun t counts =>
      (rd st.values t).bind fun threshold =>
      forLoop first.elements (fun s counts =>
        (rd first.data s).bind fun a =>
        (rd second.data s).bind fun b =>
        (rd third.data s).bind fun w =>
        (rd counts t).bind fun c =>
        wr counts t (c.add (decide (threshold < a)) (decide (0 < b)) w)) counts) st.counts).map
      fun counts => { st with counts }

/-- `Reset` (src/net/BinaryStatLayer.cpp:262-270). -/
def reset [Zero R] (st : State R) : State R := { st with counts := st.counts.map fun _ => ⟨0, 0, 0, 0⟩ }

section
variable [Field R] [LinearOrder R]

/-- `threshold_values_` (src/net/BinaryStatLayer.cpp:30-38). -/
def thresholds (n : Nat) (minT maxT : R) : List R :=
  if n = 1 then [(minT + maxT) / 2]
  else (List.range n).map fun (t : Nat) => minT + (maxT - minT) / ((n - 1 : Nat) : R) * (t : R)

/-- The constructor (src/net/BinaryStatLayer.cpp:16-40). -/
def construct (n : Nat) (minT maxT : R) : Outcome (State R) :=
  if n < 1 then .fatal
  else .done ⟨thresholds n minT maxT, List.replicate n ⟨0, 0, 0, 0⟩⟩

/-- `CreateOutputs` and `Connect` for three non-null inputs and no outputs
(src/net/BinaryStatLayer.cpp:169-230). -/
def accepts (first second third : Shape) : Bool :=
  first.samples = second.samples && first.elements = second.elements &&
    first.samples = third.samples

/-- `precision`, -1 if undefined (src/net/BinaryStatLayer.cpp:107-113). -/
def Counts.precision (c : Counts R) : R := if 0 < c.tp + c.fp then c.tp / (c.tp + c.fp) else -1

/-- `recall`, -1 if undefined (src/net/BinaryStatLayer.cpp:108-117). -/
def Counts.recall (c : Counts R) : R := if 0 < c.tp + c.fn then c.tp / (c.tp + c.fn) else -1

/-- `f1`, -1 if precision or recall is undefined; `none` is the NaN of `0/0`
(src/net/BinaryStatLayer.cpp:109-121). -/
def Counts.f1 (c : Counts R) : Option R :=
  if 0 ≤ c.precision ∧ 0 ≤ c.recall then
    if c.precision + c.recall = 0 then none
    else some (2 * c.precision * c.recall / (c.precision + c.recall))
  else some (-1)

/-- One step of the search for the best threshold (src/net/BinaryStatLayer.cpp:123-126): a comparison
with NaN is false. -/
def better (t : Nat) (f1 : Option R) (s : R × Option Nat) : R × Option Nat :=
  match f1 with
  | none => s
  | some f => if s.1 < f then (f, some t) else s

/-- The search for the best threshold (src/net/BinaryStatLayer.cpp:103-127).  The result `none`
is the initial `tfmax = -1`, 2^32 - 1 as an index. -/
def bestThreshold (counts : List (Counts R)) : Option (Option Nat) :=
  (forLoop counts.length (fun t s =>
    (rd counts t).map fun c => better t c.f1 s) (((-2 : R), none) : R × Option Nat)).map (·.2)

/-- What is passed to the statistics, in the order of the calls; `none`: no update. -/
structure Report (R : Type _) where
  fpr : Option R
  fnr : Option R
  precision : Option R
  recall : Option R
  accuracy : Option R
  f1 : Option R
  deriving DecidableEq

/-- `if (v >= 0) Update(..., 100.0 * v);` -/
def report (v : R) : Option R := if 0 ≤ v then some (100 * v) else none

/-- `UpdateAll` (src/net/BinaryStatLayer.cpp:101-167).  The accuracy is NaN (not reported) if the sum
of the weights is zero. -/
def updateAll (st : State R) : Option (Report R) :=
  (bestThreshold st.counts).bind fun best =>
  best.bind fun t =>
  (rd st.counts t).map fun (c : Counts R) =>
    { fpr := report (R := R) (if 0 < c.fp + c.tn then c.fp / (c.fp + c.tn) else -1)
      fnr := report (R := R) (if 0 < c.tp + c.fn then c.fn / (c.tp + c.fn) else -1)
      precision := report c.precision
      recall := report c.recall
      accuracy := if c.tp + c.tn + c.fn + c.fp = 0 then none
        else report (R := R) ((c.tp + c.tn) / (c.tp + c.tn + c.fn + c.fp))
      f1 := c.f1.bind report }

end
end BinaryStat
end CN24
