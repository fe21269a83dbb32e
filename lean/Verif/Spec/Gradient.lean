import Verif.Model.Gradient
import Mathlib.Analysis.Calculus.Deriv.Add
import Mathlib.Analysis.Calculus.Deriv.Mul
import Mathlib.Algebra.BigOperators.Group.Finset.Basic

/-
Specification for C65: exact layers, the data of a network and its loss.
-/

namespace CN24.Net
open Finset

/-- The sum of the products of `k` values. -/
noncomputable def pair (k : Nat) (d v : Vec) : ℝ := ∑ i ∈ range k, d i * v i

/-- Layer `L` back-propagates exactly at the parameters `p` and input data `x`.  `psz` is the number of its
parameters, `ins` lists for every input its number of elements and whether gradients are propagated to it,
`nb` is the number of output buffers and `out` gives their sizes.

Along every way of varying parameters and inputs (inputs without propagation stay) the outputs and the loss
have derivatives, and for all output deltas the values delivered by `BackPropagate` satisfy the chain rule:
loss derivative + ⟨output deltas, output derivatives⟩ = ⟨input deltas, input derivatives⟩ +
⟨parameter gradients, parameter derivatives⟩. -/
def ExactAt (L : LayerSem) (psz : Nat) (ins : List (Nat × Bool)) (nb : Nat) (out : Nat → Nat) (p : Vec)
    (x : Nat → Vec) : Prop :=
  ∀ (P : ℝ → Vec) (P' : Vec) (X : ℝ → Nat → Vec) (X' : Nat → Vec), P 0 = p → X 0 = x →
    (∀ i < psz, HasDerivAt (fun s => P s i) (P' i) 0) →
    (∀ (j k : Nat) (pr : Bool), ins[j]? = some (k, pr) → ∀ i < k, HasDerivAt (fun s => X s j i) (X' j i) 0) →
    (∀ j k : Nat, ins[j]? = some (k, false) → ∀ i < k, X' j i = 0) →
    ∃ (Y' : Nat → Vec) (l' : ℝ),
      (∀ b < nb, ∀ i < out b, HasDerivAt (fun s => L.forward (P s) (X s) b i) (Y' b i) 0) ∧
      HasDerivAt (fun s => L.loss (P s) (X s)) l' 0 ∧
      ∀ d : Nat → Vec, ∃ r : Nat → Vec,
        (∀ j k : Nat, ins[j]? = some (k, true) →
          (L.backward (ins.any (·.2)) p x (L.forward p x) d).1 j = some (r j)) ∧
        l' + ∑ b ∈ range nb, pair (out b) (d b) (Y' b) =
          (∑ j ∈ range ins.length, if (ins.getD j (0, false)).2 = true then
            pair (ins.getD j (0, false)).1 (r j) (X' j) else 0) +
          pair psz (L.backward (ins.any (·.2)) p x (L.forward p x) d).2 P'

/-- Nodes whose data do not depend on any parameter. -/
inductive Fixed (g : Graph) (psz : Nat → Nat) : Nat → Prop
  | mk (n : Nat) : psz n = 0 → (∀ c ∈ (g.heap n).inputs, Fixed g psz c.node) → Fixed g psz n

/-- A propagating connection leads to the buffer. -/
def Consumed (g : Graph) (s b : Nat) : Prop := ∃ r ∈ g.nodes, ⟨s, b, true⟩ ∈ (g.heap r).inputs

/-- Sizes and flags of the inputs of a node. -/
def inputShapes (g : Graph) (sz : Nat → Nat → Nat) (n : Nat) : List (Nat × Bool) :=
  (g.heap n).inputs.map fun c => (sz c.node c.buffer, c.backprop)

/-- The data of all buffers are what the layers compute from each other. -/
def Solves (g : Graph) (S : Nat → LayerSem) (params : Nat → Vec) (y : Nat → Nat → Vec) : Prop :=
  ∀ n ∈ g.nodes, y n = (S n).forward (params n) (inputData g y n)

open Classical in
/-- The loss of all layers, and what is read from the deltas of buffers that no gradient reaches. -/
noncomputable def totalLoss (g : Graph) (S : Nat → LayerSem) (nb : Nat → Nat) (sz : Nat → Nat → Nat)
    (stale : Nat → Nat → Vec) (params : Nat → Vec) (y : Nat → Nat → Vec) : ℝ :=
  (∑ n ∈ g.nodes.toFinset, (S n).loss (params n) (inputData g y n)) +
  ∑ n ∈ g.nodes.toFinset, ∑ b ∈ range (nb n), if Consumed g n b then 0 else pair (sz n b) (stale n b) (y n b)

end CN24.Net
