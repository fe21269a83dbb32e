import Verif.Base.Flt
import Verif.Model.Trainer

/-
QuickProp for one weight (src/net/Trainer.cpp:482-536), written so that it can be run with exact numbers and with `float`.
-/

namespace CN24.QuickRounding
open CN24

/-- The numbers that a step depends on besides the slopes and the last step: `epsilon_zero` and `epsilon_flat`
(src/net/Trainer.cpp:487-488) and the setting `mu`. -/
structure Rule (D : Type _) where
  zero : D
  flat : D
  mu : D

variable {D : Type _} [Zero D] [Add D] [Sub D] [Mul D] [Div D] [Neg D] [LT D] [DecidableLT D]

/-- `sgn` (src/net/Trainer.cpp:34-36). -/
def sgn (a : D) : Int := (if 0 < a then 1 else 0) - (if a < 0 then 1 else 0)

/-- `std::abs`. -/
def absolute (a : D) : D := if a < 0 then -a else a

/-- The condition of case A (src/net/Trainer.cpp:510-513): not too large, not uphill on the current slope. -/
def Parabola (r : Rule D) (slope lastSlope lastStep : D) : Prop :=
  absolute slope < absolute (r.mu * (lastSlope - slope)) ∧ sgn lastStep ≠ sgn (lastSlope - slope)

instance (r : Rule D) (slope lastSlope lastStep : D) : Decidable (Parabola r slope lastSlope lastStep) := by
  unfold Parabola; infer_instance

/-- `quadratic_step` (src/net/Trainer.cpp:510-519). -/
def quadratic (r : Rule D) (slope lastSlope lastStep : D) : D :=
  if Parabola r slope lastSlope lastStep then lastStep * slope / (lastSlope - slope) else r.mu * lastStep

/-- `current_step` (src/net/Trainer.cpp:499-527), in the order in which the operations are done.  The test of line 504 is
written the other way round, which is the same for numbers other than NaN. -/
def quickStep (r : Rule D) (lr : D) (first : Bool) (slope lastSlope lastStep : D) : D :=
  if first then -r.zero * slope
  else if r.flat < absolute slope then
    if sgn slope = sgn lastSlope then quadratic r slope lastSlope lastStep - lr * slope
    else quadratic r slope lastSlope lastStep
  else -slope * lr

/-- The steps of one weight (src/net/Trainer.cpp:482-536) in iterations with the given learning rates and slopes; the step and the
slope of each iteration are kept for the next one. -/
def steps (r : Rule D) : Bool → D → D → List (D × D) → List D
  | _, _, _, [] => []
  | first, lastSlope, lastStep, (lr, slope) :: hs =>
    let s := quickStep r lr first slope lastSlope lastStep
    s :: steps r false slope s hs

end CN24.QuickRounding
