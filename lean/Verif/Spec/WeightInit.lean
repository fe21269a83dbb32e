import Verif.Model.WeightInit
import Mathlib.Logic.Function.Iterate

/-
Specification of the ranges weights are drawn from: how many values enter a kernel, how many kernels' values
depend on an output, and the numbers of a random engine.  No reference to the traversal or to the stored gains.
-/

namespace CN24.WeightInit
open CN24 CN24.Net

/-- The sum of `F` over all connections through which gradients come back to the node `s`. -/
def readers (g : Graph) (F : Nat → Nat) (s : Nat) : Nat :=
  (g.nodes.map fun r => ((g.heap r).inputs.countP fun c => c.node = s && c.backprop) * F r).sum

/-- The number of inputs behind a layer: a convolution layer has as many as its kernels have (`w * h`
positions of each input map), a pooling layer those of the layers that read it divided by the size of its
regions, any other layer those of the layers that read it. -/
def passed : Kind → Nat → Nat
  | .convolution w h m, _ => w * h * m
  | .pooling w h, below => below / (w * h)
  | .other, below => below

/-- `F` gives the number of inputs behind every node. -/
def Fan (g : Graph) (kind : Nat → Kind) (F : Nat → Nat) : Prop :=
  ∀ n ∈ g.nodes, F n = passed (kind n) (readers g F n)

/-- The sizes stay in the range of `unsigned int` and no layer has size zero. -/
def Fits (k : Kind) (sum : Nat) : Prop :=
  match k with
  | .convolution w h m => 0 < w * h * m ∧ w * h * m + sum < 2 ^ 32
  | .pooling w h => 0 < w * h ∧ w * h < 2 ^ 32 ∧ sum < 2 ^ 32
  | .other => sum < 2 ^ 32

/-- Number `i` of an engine. -/
def number {ρ R : Type _} (draw : ρ → R × ρ) (e : ρ) (i : Nat) : R := (draw ((fun e => (draw e).2)^[i] e)).1

/-- The product of the sizes of the pooling regions of some layers. -/
def areas {D : Type _} : List (NetConfig.Layer D) → Nat
  | [] => 1
  | .maxPool kx ky :: ls => kx * ky * areas ls
  | .advMaxPool kx ky _ _ :: ls => kx * ky * areas ls
  | _ :: ls => areas ls

/-- The layer is a convolution layer. -/
def IsConvolution {D : Type _} : NetConfig.Layer D → Prop
  | .conv .. => True
  | _ => False

end CN24.WeightInit
