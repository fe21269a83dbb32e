import Verif.Model.Layers
import Verif.Model.Pooling
import Mathlib.Algebra.Order.Field.Basic

/-
Model of the error layer (src/net/ErrorLayer.cpp) and of the optimiser
(src/net/Trainer.cpp, include/cn24/net/Trainer.h), host build, default build options
(ERROR_LAYER_IGNORE_WEIGHTS not set).
`datum` is a field, ordered where signs matter: rounding is not modelled.
-/

namespace CN24

namespace ErrorLayer
variable {R : Type _}

/-- `ErrorLayer::CreateOutputs` and `Connect` (src/net/ErrorLayer.cpp:24-88) for three non-null
inputs and no outputs: only samples and element counts are compared. -/
def accepts (first second third : Shape) : Bool :=
  first.samples = second.samples && first.elements = second.elements &&
    first.samples = third.samples

/-- `ErrorLayer::FeedForward` (src/net/ErrorLayer.cpp:90-133): the new delta of the first input. -/
def forward [Field R] (lossWeight : R) (first second third delta : Tensor R) :
    Option (Tensor R) :=
  forLoop first.samples (fun sample => forLoop first.maps (fun map =>
    forLoop first.height (fun y => forLoop first.width (fun x delta =>
      (first.get x y map sample).bind fun a =>
      (second.get x y map sample).bind fun b =>
      (third.get x y 0 sample).bind fun weight =>
      delta.put x y map sample ((a - b) * weight * lossWeight))))) delta

/-- `ErrorLayer::CalculateLossFunction` (src/net/ErrorLayer.cpp:140-168). -/
def loss [Field R] (lossWeight : R) (first second third : Tensor R) : Option R :=
  (forLoop first.samples (fun sample => forLoop first.maps (fun map =>
    forLoop first.height (fun y => forLoop first.width (fun x error =>
      (first.get x y map sample).bind fun a =>
      (second.get x y map sample).bind fun b =>
      (third.get x y 0 sample).map fun weight =>
      error + (a - b) * (a - b) * weight * lossWeight)))) 0).map fun error => error / 2

end ErrorLayer

namespace Trainer

/-- `OPTIMIZATION_METHOD` (include/cn24/net/Trainer.h:27-30). -/
inductive Method
  | gradientDescent | quickprop
  deriving DecidableEq, Repr

/-- The members of `TrainerSettings` used by `ApplyGradients` (include/cn24/net/Trainer.h:32-49),
with the sample count of the trainer and `GetLossSamplingProbability` of the training layer. -/
structure Settings (R : Type _) where
  l1Weight : R
  l2Weight : R
  momentum : R
  mu : R
  method : Method
  sbatchsize : Nat
  sampleCount : Nat
  lossSampling : R

/-- The state of training.  `weights` are the parameter buffers by node and parameter; the other
buffers are kept in one flat list (`last_deltas_`, `last_gradients_`, `accumulated_gradients_`,
include/cn24/net/Trainer.h:118-120, 134).  A tensor is represented by its buffer: its dimensions play no
role here. -/
structure State (R : Type _) where
  weights : List (List (List R))
  lastDeltas : List (List R)
  lastGradients : List (List R)
  accumulated : List (List R)
  firstIteration : Bool := true
  deriving DecidableEq

/-- What is visited by the loops over nodes, parameters and elements: node, parameter, the value of
the running counter (`dp`, `np`) and element. -/
structure Cell where
  node : Nat
  param : Nat
  flat : Nat
  elem : Nat
  deriving DecidableEq, Repr

/-- The loop nest of `ApplyGradients` and of the gradient accumulation (src/net/Trainer.cpp:373-387,
432-542): nodes, parameters with a running counter, elements.  `sizes` are the element counts; they
do not change during the loops. -/
def visit {σ : Type _} (sizes : List (List Nat)) (f : Cell → σ → Option σ) (s : σ) : Option σ :=
  (forLoop sizes.length (fun l sd =>
    (rd sizes l).bind fun ps =>
      forLoop ps.length (fun p sd =>
        (rd ps p).bind fun n =>
          (forLoop n (fun w s => f ⟨l, p, sd.2, w⟩ s) sd.1).map fun s => (s, sd.2 + 1)) sd)
    (s, 0)).map (·.1)

/-- The element counts of the parameters. -/
def sizes {R : Type _} (ws : List (List (List R))) : List (List Nat) := ws.map (·.map List.length)

/-- Reading an element of a list of buffers. -/
def at2 {R : Type _} (b : List (List R)) (i j : Nat) : Option R := (rd b i).bind fun r => rd r j

/-- Writing an element of a list of buffers. -/
def set2 {R : Type _} (b : List (List R)) (i j : Nat) (v : R) : Option (List (List R)) :=
  (rd b i).bind fun r => (wr r j v).bind fun r => wr b i r

/-- Reading a weight. -/
def at3 {R : Type _} (b : List (List (List R))) (i j k : Nat) : Option R :=
  (rd b i).bind fun r => at2 r j k

/-- Writing a weight. -/
def set3 {R : Type _} (b : List (List (List R))) (i j k : Nat) (v : R) :
    Option (List (List (List R))) :=
  (rd b i).bind fun r => (set2 r j k v).bind fun r => wr b i r

/-- `unsigned int` arithmetic. -/
def u32 (n : Nat) : Nat := n % 2 ^ 32

section
variable {R : Type _} [Field R] [LinearOrder R]

/-- `sgn` (src/net/Trainer.cpp:34-36), also the expression in line 452. -/
def sgn (v : R) : Int := (if 0 < v then 1 else 0) - (if v < 0 then 1 else 0)

/-- `delta` in `ApplyGradients` (src/net/Trainer.cpp:451-467).  The product `sample_count_ * sbatchsize` is one of
`unsigned int`.  `std::abs` and the division are those of the field; for a zero divisor the C++ gives infinities. -/
def direction (cfg : Settings R) (layerLr wGradient weight : R) : R :=
  layerLr * (wGradient / (u32 (cfg.sampleCount * cfg.sbatchsize) : R) * cfg.lossSampling) +
    layerLr * (cfg.l2Weight * weight + cfg.l1Weight * (sgn weight : R))

/-- The loss of an iteration as it is reported (src/net/Trainer.cpp:400-402); the product is one of `float`. -/
def reportedLoss (cfg : Settings R) (loss : R) : R :=
  loss / (cfg.lossSampling * (cfg.sampleCount : R) * (cfg.sbatchsize : R))

/-- `current_step` of QuickProp (src/net/Trainer.cpp:485-527). -/
def quickStep (mu lr : R) (first : Bool) (currentSlope lastSlope lastStep : R) : R :=
  if first then -(1 / 10) * currentSlope
  else if |currentSlope| ≤ 1 / 10 ^ 15 then -currentSlope * lr
  else
    let quadratic :=
      if |currentSlope| < |mu * (lastSlope - currentSlope)| ∧
          sgn lastStep ≠ sgn (lastSlope - currentSlope) then
        lastStep * currentSlope / (lastSlope - currentSlope)
      else mu * lastStep
    if sgn currentSlope = sgn lastSlope then quadratic - lr * currentSlope else quadratic

/-- The loop body of `ApplyGradients` for one weight (src/net/Trainer.cpp:451-537). -/
def updateWeight (cfg : Settings R) (lr : R) (localLr : List R) (c : Cell) (st : State R) :
    Option (State R) :=
  (rd localLr c.node).bind fun layerLr =>
  (at3 st.weights c.node c.param c.elem).bind fun weight =>
  (at2 st.accumulated c.flat c.elem).bind fun wGradient =>
  (at2 st.lastDeltas c.flat c.elem).bind fun lastStep =>
  let delta := direction cfg layerLr wGradient weight
  match cfg.method with
  | .gradientDescent =>
    let step := lr * delta + cfg.momentum * lastStep
    (set3 st.weights c.node c.param c.elem (weight - step)).bind fun weights =>
    (set2 st.lastDeltas c.flat c.elem step).map fun lastDeltas =>
      { st with weights, lastDeltas }
  | .quickprop =>
    (at2 st.lastGradients c.flat c.elem).bind fun lastSlope =>
    let step := quickStep cfg.mu lr st.firstIteration delta lastSlope lastStep
    (set3 st.weights c.node c.param c.elem (weight + step)).bind fun weights =>
    (set2 st.lastDeltas c.flat c.elem step).bind fun lastDeltas =>
    (set2 st.lastGradients c.flat c.elem delta).map fun lastGradients =>
      { st with weights, lastDeltas, lastGradients, firstIteration := false }

/-- `Trainer::ApplyGradients` (src/net/Trainer.cpp:428-551) without the statistics; `localLr` are the
members `local_lr_` of the layers. -/
def applyGradients (cfg : Settings R) (lr : R) (localLr : List R) (st : State R) :
    Option (State R) :=
  visit (sizes st.weights) (updateWeight cfg lr localLr) st

/-- Resetting the accumulated gradients (src/net/Trainer.cpp:352-354). -/
def clearAll (b : List (List R)) : List (List R) := b.map (·.map fun _ => 0)

/-- Accumulation of the gradients of one pass (src/net/Trainer.cpp:372-387). -/
def accumulate (grads : List (List (List R))) (acc : List (List R)) : Option (List (List R)) :=
  visit (sizes grads) (fun c acc =>
    (at2 acc c.flat c.elem).bind fun a =>
    (at3 grads c.node c.param c.elem).bind fun g => set2 acc c.flat c.elem (a + g)) acc

/-- The loop over iterations of `Trainer::Epoch` (src/net/Trainer.cpp:340-403).  The forward and
backward pass of the network is the function `net`, from the weights and the number of the pass to
the parameter gradients.  `lr i` is the learning rate of iteration `i`. -/
def iterate (cfg : Settings R) (lr : Nat → R) (localLr : List R)
    (net : List (List (List R)) → Nat → List (List (List R))) (iterations : Nat) (st : State R) :
    Option (State R) :=
  forLoop iterations (fun i st =>
    (forLoop cfg.sbatchsize (fun b acc =>
      accumulate (net st.weights (i * cfg.sbatchsize + b)) acc) (clearAll st.accumulated)).bind
    fun acc => applyGradients cfg (lr i) localLr { st with accumulated := acc }) st

/-- The constructor (src/net/Trainer.cpp:185-230) and the member initialisers: buffers of the size
of each parameter, cleared. -/
def construct (weights : List (List (List R))) : State R where
  weights := weights
  lastDeltas := clearAll weights.flatten
  lastGradients := clearAll weights.flatten
  accumulated := clearAll weights.flatten
  firstIteration := true

/-- `Trainer::Reset` (include/cn24/net/Trainer.h:81-89). -/
def reset (st : State R) : State R :=
  { st with lastGradients := clearAll st.lastGradients, lastDeltas := clearAll st.lastDeltas,
            firstIteration := true }

end

/-- The argument of `CalculateLR` in iteration `i` of an epoch (src/net/Trainer.cpp:391). -/
def lrIndex (epoch iterations i : Nat) : Nat := u32 (u32 (epoch * iterations) + i)

/-- The number of iterations of `Trainer::Test` for the ratio 1 (src/net/Trainer.cpp:260-263): the
count passes through `float`. -/
def testIterations (samples batch : Nat) : Nat := Pooling.toF32 (samples / batch + 1)

end Trainer
end CN24
