import Verif.Model.NetGraph
import Mathlib.Data.Real.Basic

/-
Model of the data that flows through a network during a forward and a backward pass:
src/net/NetGraph.cpp:292-381, include/cn24/net/Layer.h, include/cn24/util/CombinedTensor.h.

A layer is what its `FeedForward`, `BackPropagate` and `CalculateLossFunction` compute.  Every output
buffer of a node has data and deltas (`CombinedTensor`), every layer has parameters and their gradients.
Values are real numbers: rounding is not modelled.
-/

namespace CN24.Net

/-- The values of a buffer; positions beyond its number of elements mean nothing. -/
abbrev Vec := Nat → ℝ

/-- What the functions of a layer compute (include/cn24/net/Layer.h:45-147).

* `forward p x b`: the data `FeedForward` writes to the `b`-th output buffer, for parameters `p` and data
  `x j` of the `j`-th input;
* `loss p x`: the value of `CalculateLossFunction` afterwards (include/cn24/net/LossFunctionLayer.h), zero for
  layers that are no loss function layers;
* `backward e p x y d`: what `BackPropagate` writes for output data `y` and output deltas `d`, `e` being
  the value passed to `SetBackpropagationEnabled`: the deltas of the inputs, `none` for inputs whose deltas are
  not touched, and the gradients of the parameters. -/
structure LayerSem where
  forward : Vec → (Nat → Vec) → Nat → Vec
  loss : Vec → (Nat → Vec) → ℝ
  backward : Bool → Vec → (Nat → Vec) → (Nat → Vec) → (Nat → Vec) → (Nat → Option Vec) × Vec

/-- The data at the inputs of node `n` (the tensors passed to `Connect`, src/net/NetGraph.cpp:256-262). -/
def inputData (g : Graph) (data : Nat → Nat → Vec) (n j : Nat) : Vec :=
  match (g.heap n).inputs[j]? with
  | some c => data c.node c.buffer
  | none => 0

/-- The deltas of all buffers and the gradients of all parameters. -/
structure Deltas where
  delta : Nat → Nat → Vec
  grad : Nat → Vec

/-- Assignment to the deltas of a buffer. -/
def setDelta (d : Nat → Nat → Vec) (s b : Nat) (v : Vec) : Nat → Nat → Vec :=
  fun k c => if k = s ∧ c = b then v else d k c

/-- The writes of a layer to the deltas of its inputs; `j` is the position of the first connection of the
list. -/
def writeDeltas (r : Nat → Option Vec) : List Conn → Nat → (Nat → Nat → Vec) → Nat → Nat → Vec
  | [], _, d => d
  | c :: cs, j, d => writeDeltas r cs (j + 1) (match r j with
    | none => d
    | some v => setDelta d c.node c.buffer v)

/-- The call of `BackPropagate` for a node (src/net/NetGraph.cpp:369-373). -/
def backStep (g : Graph) (S : Nat → LayerSem) (params : Nat → Vec) (data : Nat → Nat → Vec) (st : Deltas)
    (e : Nat × Bool) : Deltas :=
  let r := (S e.1).backward e.2 (params e.1) (inputData g data e.1) (data e.1) (st.delta e.1)
  { delta := writeDeltas r.1 (g.heap e.1).inputs 0 st.delta,
    grad := fun k => if k = e.1 then r.2 else st.grad k }

/-- The calls of a backward pass, in the order of its log. -/
def runBack (g : Graph) (S : Nat → LayerSem) (params : Nat → Vec) (data : Nat → Nat → Vec)
    (log : List (Nat × Bool)) (st : Deltas) : Deltas :=
  log.foldl (backStep g S params data) st

/-- The forward function of the layers, as the forward pass uses it. -/
def layerForward (S : Nat → LayerSem) (params : Nat → Vec) (n : Nat) (xs : List Vec) : Nat → Vec :=
  (S n).forward (params n) fun j => xs.getD j 0

/-- `GradientAccumulationLayer` (src/net/GradientAccumulationLayer.cpp:18-107) with `k` outputs: the outputs
share the data of the input (C50), the deltas of the outputs are added up. -/
noncomputable def gaLayer (k : Nat) : LayerSem where
  forward _ x _ := x 0
  loss _ _ := 0
  backward _ _ _ _ d := (fun j => if j = 0 then some (fun i => ((List.range k).map fun b => d b i).sum) else none, 0)

end CN24.Net
