import Verif.Model.Trainer
import Mathlib.Analysis.SpecialFunctions.Pow.Real

/-
The learning rate schedule of the trainer, over the real numbers.
-/

namespace CN24.Trainer

/-- `Trainer::CalculateLR` (include/cn24/net/Trainer.h:103-107).  Real numbers instead of `datum` and
`double`. -/
noncomputable def calculateLR (learningRate gamma exponent : ℝ) (iteration : Nat) : ℝ :=
  learningRate * (1 + gamma * (iteration : ℝ)) ^ (-exponent)

/-- The learning rate used in iteration `i` of epoch `epoch` (src/net/Trainer.cpp:390-391). -/
noncomputable def learningRateAt (learningRate gamma exponent : ℝ) (epoch iterations i : Nat) : ℝ :=
  calculateLR learningRate gamma exponent (lrIndex epoch iterations i)

end CN24.Trainer
