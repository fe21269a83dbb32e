import Verif.Model.Trainer

/-
src/util/GradientTester.cpp: the numeric check of gradients.  Losses are numbers of an ordered field;
`loss k ps` is the loss of the k-th forward pass since the start of the check, run with parameters
`ps`, so that a network may give a different loss each time.  `round` is the rounding of a datum.
`#ifdef BUILD_OPENCL` moves are left out.
-/

namespace CN24.GradientTester
open CN24.Trainer
variable {R : Type _}

/-- Result of one comparison. -/
inductive Verdict where
  | okay | tolerable | failed
  deriving DecidableEq

/-- Running state of `TestGradient`: parameters of all layers, the parameters at every forward pass
so far, and the counters. -/
structure State (R : Type _) where
  params : List (List (List R))
  passes : List (List (List (List R))) := []
  okay : Nat := 0
  tolerable : Nat := 0
  failed : Nat := 0

section
variable [Field R] [LinearOrder R]

/-- `epsilon` (src/util/GradientTester.cpp:18). -/
def epsilon : R := 1 / 200

/-- The comparison (src/util/GradientTester.cpp:68-85).  A quotient by zero is infinite, or NaN for
0/0; every comparison with NaN is false. -/
def classify (plusLoss minusLoss delta : R) : Verdict :=
  let actual := (plusLoss - minusLoss) / (2 * epsilon)
  if delta = 0 then if actual = 0 then .okay else .failed
  else
    let ratio := actual / delta
    if 102 / 100 < ratio ∨ ratio < 98 / 100 then
      if 12 / 10 < ratio ∨ ratio < 8 / 10 then .failed else .tolerable
    else .okay

/-- `failed++`, `tolerable++` or `okay++`. -/
def State.record (st : State R) : Verdict → State R
  | .okay => { st with okay := st.okay + 1 }
  | .tolerable => { st with tolerable := st.tolerable + 1 }
  | .failed => { st with failed := st.failed + 1 }

/-- The body of the loop over the weights (src/util/GradientTester.cpp:47-100).  `deltas` are the
gradients left by the initial backward pass. -/
def probe (round : R → R) (loss : Nat → List (List (List R)) → R) (deltas : List (List (List R)))
    (l p e : Nat) (st : State R) : Option (State R) :=
  (at3 st.params l p e).bind fun old =>
  (set3 st.params l p e (round (old + epsilon))).bind fun plus =>
  (set3 plus l p e (round (old - epsilon))).bind fun minus =>
  (at3 deltas l p e).bind fun delta =>
  (set3 minus l p e old).map fun restored =>
    ({ st with params := restored
               passes := st.passes ++ [plus, minus] } : State R).record
      (classify (loss st.passes.length plus) (loss (st.passes.length + 1) minus) delta)

/-- Number of iterations of `for (e = 0; e < elements; e += skip + 1)`; `skip + 1` must not wrap
around to zero. -/
def steps (elements skip : Nat) : Nat := (elements + skip) / (skip + 1)

/-- `TestGradient` (src/util/GradientTester.cpp:17-117).  `safe l` is `!IsNotGradientSafe()`. -/
def testGradient (round : R → R) (loss : Nat → List (List (List R)) → R)
    (deltas : List (List (List R))) (safe : Nat → Bool) (skip : Nat) (fatalFail : Bool)
    (params : List (List (List R))) : Outcome (State R) :=
  (Outcome.ofOption
    (forLoop params.length (fun l st =>
      if safe l then
        (rd params l).bind fun ps =>
        forLoop ps.length (fun p st =>
          (rd ps p).bind fun data =>
          forLoop (steps data.length skip) (fun i st =>
            probe round loss deltas l p (i * (skip + 1)) st) st) st
      else some st) { params := params, passes := [params] })).bind fun st =>
  if 0 < st.failed ∧ fatalFail then .fatal else .done st

/-- The comparison of `DoGradientTest` (src/util/GradientTester.cpp:159-167). -/
def close (forwardLoss backwardLoss eps gradient : R) : Bool :=
  let fd := (forwardLoss - backwardLoss) / (2 * eps)
  if gradient = 0 then fd = 0
  else ¬ (12 / 10 < fd / gradient ∨ fd / gradient < 8 / 10)

/-- Running state of `DoGradientTest`. -/
structure LayerState (R : Type _) where
  data : List R
  passes : List (List R) := []
  okay : Nat := 0

/-- `DoGradientTest` (src/util/GradientTester.cpp:119-180). -/
def doGradientTest (round : R → R) (loss : Nat → List R → R) (deltas : List R) (safe : Bool) (eps : R)
    (data : List R) : Option (LayerState R × Bool) :=
  if safe then
    (forLoop data.length (fun w st =>
      (rd st.data w).bind fun weight =>
      (rd deltas w).bind fun gradient =>
      (wr st.data w (round (weight + eps))).bind fun plus =>
      (wr plus w (round (weight - eps))).bind fun minus =>
      (wr minus w weight).map fun restored =>
        ({ data := restored
           passes := st.passes ++ [plus, minus]
           okay := if close (loss st.passes.length plus) (loss (st.passes.length + 1) minus) eps gradient
             then st.okay + 1 else st.okay } : LayerState R))
      { data := data, passes := [data] }).map fun st =>
    (st, st.okay = data.length || decide (85 / 100 < (st.okay : R) / (data.length : R)))
  else some ({ data := data }, true)

end
end CN24.GradientTester
