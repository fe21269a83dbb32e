import Verif.Model.NetTrain
import Verif.Props.GradientLayers

/-
Specification for C85: which layers of a described network change with its parameters, where these layers can be
differentiated, and the error of the network.
-/

namespace CN24.NetTrain
open CN24 CN24.NetConfig CN24.Net Finset

/-- The layer has parameters. -/
def Learns {D : Type _} : NetConfig.Layer D → Prop
  | .conv .. => True
  | .hmax .. => True
  | _ => False

/-- The data of the layer can change with the parameters: it has parameters or reads such a layer. -/
inductive Dependent {D : Type _} (nodes : List (NewNode D)) : Nat → Prop
  | own (k : Nat) (n : NewNode D) : nodes[k]? = some n → Learns n.layer → Dependent nodes k
  | reads (k j : Nat) (n : NewNode D) (c : Conn) : nodes[k]? = some n → c ∈ n.inputs → c.node = j + 1 →
      Dependent nodes j → Dependent nodes k

/-- The connection carries gradients: it is not marked otherwise and does not lead to the data layer. -/
def carries (c : Conn) : Bool := c.backprop && c.node != 0

/-- The layer is a down-sampling layer. -/
def IsDown {D : Type _} : NetConfig.Layer D → Prop
  | .downSample .. => True
  | _ => False

/-- The layer is an error layer. -/
def IsError {D : Type _} : NetConfig.Layer D → Prop
  | .error .. => True
  | _ => False

/-- The data a node reads. -/
def fed {D : Type _} (n : NewNode D) (y : Nat → Nat → Vec) (j : Nat) : Vec :=
  match n.inputs[j]? with
  | some c => y c.node c.buffer
  | none => 0

/-- The layer can be differentiated at the input `x` and the code of its backward pass is right there:

* convolutions have no dropout; if gradients are wanted, no horizontal padding, and images at least as wide as high;
* normalisation has a positive size, its factor is not negative and images are square;
* in pooling every region lies in the image and has a single greatest value, above the value that the search starts
  with, and its position can be stored in a `float`;
* rectifiers are not at zero;
* joined images have the same size, images that are added the same shape.

H-Max layers are excluded (C66). -/
def Regular (lowest : ℝ) (l : NetConfig.Layer ℝ) (ins outs : List Shape) (wanted : Bool) (x : Nat → Vec) : Prop :=
  match l, ins, outs with
  | .conv p _ dropout _, [a], _ => dropout = 0 ∧
      (wanted = true → p.padWidth = 0 ∧ p.kernelWidth ≤ a.width ∧ a.height ≤ a.width)
  | .lrn size alpha _ _, [a], _ => 0 < size ∧ 0 ≤ alpha ∧ a.width = a.height
  | .maxPool kx ky, [a], [o] => a.width ≤ 2 ^ 24 ∧ a.height ≤ 2 ^ 24 ∧ (∀ i < a.elements, lowest < x 0 i) ∧
      NoTies kx ky kx ky o.width o.height a (x 0)
  | .advMaxPool kx ky sx sy, [a], [o] => 0 < kx ∧ 0 < ky ∧ Inside kx ky sx sy o.width o.height a ∧
      a.width * a.height ≤ 2 ^ 24 ∧ (∀ i < a.elements, lowest < x 0 i) ∧
      NoTies kx ky sx sy o.width o.height a (x 0)
  | .relu, [a], _ => ∀ i < a.elements, x 0 i ≠ 0
  | .concat, [a, b], _ => b.width = a.width ∧ b.height = a.height
  | .sum, [a, b], _ => b = a
  | .hmax .., _, _ => False
  | _, _, _ => True

/-- Labels and weights fit the prediction. -/
def Comparable (ins : List Shape) : Prop :=
  match ins with
  | [a, b, c] => b = a ∧ c.samples = a.samples ∧ c.width = a.width ∧ c.height = a.height ∧ 0 < c.maps
  | _ => False

/-- Half the sum of the weighted squared differences between prediction and labels, times the weight of the layer.
Elements are stored sample by sample, map by map and row by row. -/
noncomputable def squaredError (w : ℝ) (a c : Shape) (prediction labels weights : Vec) : ℝ :=
  (∑ s ∈ range a.samples, ∑ m ∈ range a.maps, ∑ y ∈ range a.height, ∑ x ∈ range a.width,
    (prediction (((s * a.maps + m) * a.height + y) * a.width + x) -
      labels (((s * a.maps + m) * a.height + y) * a.width + x)) ^ 2 *
      weights (((s * c.maps + 0) * c.height + y) * c.width + x) * w) / 2

/-- The error of a network whose buffers hold `y`: the sum over its error layers. -/
noncomputable def networkError (nodes : List (NewNode ℝ)) (ds : List Shape) (known : List (List Shape))
    (y : Nat → Nat → Vec) : ℝ :=
  (nodes.map fun n => match n.layer, n.inputs with
    | .error w, [p, l, u] => squaredError w (shapeAt ds known p) (shapeAt ds known u) (y p.node p.buffer)
        (y l.node l.buffer) (y u.node u.buffer)
    | _, _ => 0).sum

end CN24.NetTrain
