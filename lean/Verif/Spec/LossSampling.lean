import Mathlib.Data.Real.Basic
import Mathlib.Algebra.BigOperators.Group.Finset.Basic
import Verif.Model.Sampling

/-
Specification for C86: averages over the draws of a random number generator.
-/

namespace CN24.LossSampling
open CN24 CN24.Sampling

/-- The average of `f` over all sequences of `n` draws, every draw being any of `values`. -/
noncomputable def mean (values : List ℝ) : Nat → (List ℝ → ℝ) → ℝ
  | 0, f => f []
  | n + 1, f => (values.map fun d => mean values n fun l => f (d :: l)).sum / values.length

/-- The share of the values that do not exceed `p`. -/
noncomputable def share (values : List ℝ) (p : ℝ) : ℝ :=
  ((values.filter fun d => decide (d ≤ p)).length : ℝ) / values.length

/-- A generator whose draws are given by a list; the order of the samples is shuffled independently of them. -/
def scripted {H : Type _} (shuffle : H → List Nat → List Nat × H) : Random ℝ (List ℝ × H) where
  shuffle g l := ((shuffle g.2 l).1, (g.1, (shuffle g.2 l).2))
  draw g := (g.1.headD 0, (g.1.tail, g.2))

/-- The same dataset, for an input layer that leaves the weights as they are. -/
def unsampled (ds : Data ℝ) : Data ℝ := { ds with fcn := false }

end CN24.LossSampling
