import Verif.Model.NetGraph
import Verif.Model.NetConfig
import Mathlib.Algebra.Ring.Defs

/-
Model of the random initialisation of the weights: `NetGraph::InitializeWeights`
(src/net/NetGraph.cpp:423-445), `Layer::OnLayerConnect` and `Layer::Gain`
(include/cn24/net/Layer.h:92-104) and the versions of single layers.

Simplifications: `datum` is a ring, the random engine a state with a function that gives the next
number of [0, 1) (`std::generate_canonical`) and the next state; the bound of the range as a function
of the sum of the gains (`sqrt (6) / sqrt (n)`) is a parameter.
-/

namespace CN24.WeightInit
open CN24 CN24.Net

/-- What the gain of a layer depends on: convolution layers
(include/cn24/net/ConvolutionLayer.h:63-65), layers that pool
(include/cn24/net/MaxPoolingLayer.h:45-47, include/cn24/net/AdvancedMaxPoolingLayer.h:47-49,
include/cn24/net/InputDownSamplingLayer.h:43-45) and all others
(include/cn24/net/Layer.h:104). -/
inductive Kind where
  | convolution (kernelWidth kernelHeight inputMaps : Nat)
  | pooling (regionWidth regionHeight : Nat)
  | other
  deriving DecidableEq, Repr

/-- A layer as far as the initialisation looks at it: `gain` (include/cn24/net/Layer.h:141), for
convolution layers the engine and `weights_->data` (include/cn24/net/ConvolutionLayer.h:100), and the other
parameters. -/
structure Unit (ρ R : Type _) where
  kind : Kind
  gain : Nat := 0
  engine : ρ
  weights : List R := []
  others : List (List R) := []
  deriving DecidableEq, Repr

/-- `unsigned int`. -/
def u32 (n : Nat) : Nat := n % 2 ^ 32

/-- The kinds of the layers of a network description; `maps` are the maps of the input.  The regions are the
kernels of the pooling layers. -/
def kindOf {D : Type _} (l : NetConfig.Layer D) (maps : Nat) : Kind :=
  match l with
  | .conv p _ _ _ => .convolution p.kernelWidth p.kernelHeight maps
  | .maxPool kx ky => .pooling kx ky
  | .downSample kx ky => .pooling kx ky
  | .advMaxPool kx ky _ _ => .pooling kx ky
  | _ => .other

variable {ρ R : Type _}

/-- `Gain` (include/cn24/net/Layer.h:104, include/cn24/net/ConvolutionLayer.h:63-65,
include/cn24/net/MaxPoolingLayer.h:45-47, include/cn24/net/AdvancedMaxPoolingLayer.h:47-49,
include/cn24/net/InputDownSamplingLayer.h:43-45). -/
def Unit.gainOf (u : Unit ρ R) : Outcome Nat :=
  match u.kind with
  | .convolution w h m => .done (u32 (u32 (w * h) * m))
  | .pooling w h => if u32 (w * h) = 0 then .undefined else .done (u.gain / u32 (w * h))
  | .other => .done u.gain

/-- The loop that adds up the gains (include/cn24/net/Layer.h:96-98,
src/net/ConvolutionLayer.cpp:329-331). -/
def gainSum : List (Unit ρ R) → Nat → Outcome Nat
  | [], s => .done s
  | u :: us, s => u.gainOf.bind fun k => gainSum us (u32 (s + k))

variable [Ring R]

/-- The loop over the weights in `ConvolutionLayer::OnLayerConnect`
(src/net/ConvolutionLayer.cpp:340-344); a number of `std::uniform_real_distribution` from `lo` to `hi`
is `lo + u * (hi - lo)` for a number `u` of [0, 1). -/
def drawWeights (draw : ρ → R × ρ) (lo hi : R) (weights : List R) (engine : ρ) : Option (List R × ρ) :=
  forLoop weights.length (fun i (st : List R × ρ) =>
    let d := draw st.2
    (wr st.1 i (d.1 * (hi - lo) + lo)).map fun ws => (ws, d.2)) (weights, engine)

/-- `OnLayerConnect` (include/cn24/net/Layer.h:95-99; src/net/ConvolutionLayer.cpp:328-348 for convolution
layers).  If the sum of the gains is zero the range is infinite and the distribution undefined. -/
def Unit.onLayerConnect (draw : ρ → R × ρ) (range : Nat → R) (u : Unit ρ R) (next : List (Unit ρ R)) :
    Outcome (Unit ρ R) :=
  (gainSum next 0).bind fun sum =>
  match u.kind with
  | .convolution _ _ _ =>
    u.gainOf.bind fun this =>
    let total := u32 (sum + this)
    if total = 0 then .undefined
    else
      (Outcome.ofOption (drawWeights draw (-(range total)) (range total) u.weights u.engine)).bind fun r =>
      .done { u with weights := r.1, engine := r.2 }
  | _ => .done { u with gain := sum }

/-- The calls of `OnLayerConnect` in the order of a traversal. -/
def connectAll (draw : ρ → R × ρ) (range : Nat → R) : List (Nat × List Nat) → (Nat → Unit ρ R) →
    Outcome (Nat → Unit ρ R)
  | [], us => .done us
  | e :: es, us =>
    ((us e.1).onLayerConnect draw range (e.2.map us)).bind fun u =>
    connectAll draw range es fun k => if k = e.1 then u else us k

/-- `NetGraph::InitializeWeights` (src/net/NetGraph.cpp:423-445) on the layers `us` of the nodes.  The order
of the calls does not depend on the layers (`Net.initializeWeights`), so they are made afterwards here.  A
recursion without end is undefined. -/
def initializeWeights (draw : ρ → R × ρ) (range : Nat → R) (g : Graph) (fuel : Nat) (flags : Nat → Bool)
    (us : Nat → Unit ρ R) : Outcome (Nat → Unit ρ R) :=
  (Outcome.ofOption (Net.initializeWeights g fuel flags)).bind fun v => connectAll draw range v.log us

end CN24.WeightInit
