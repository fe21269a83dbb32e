import Verif.Base.Flt
import Verif.Model.Trainer

/-
The loss per sample printed after a test and after an epoch (src/net/Trainer.cpp:296-298, 410-412).
-/

namespace CN24.LossLine
open CN24

variable {D : Type _} [Zero D] [Add D] [Mul D] [Div D] [NatCast D]

/-- `loss_sums[n]` after the loops (src/net/Trainer.cpp:257-258, 279, 363): the results of `CalculateLossFunction` of this loss layer
in the order of the passes. -/
def lossSum (losses : List D) : D := losses.foldl (fun s l => s + l) 0

/-- The number printed by `Trainer::Test` (src/net/Trainer.cpp:297): the product is one of `unsigned int`. -/
def testLoss (iterations sampleCount : Nat) (losses : List D) : D :=
  lossSum losses / ((Trainer.u32 (iterations * sampleCount) : Nat) : D)

/-- The number printed by `Trainer::Epoch` (src/net/Trainer.cpp:411): the product of the three counts is one of `unsigned int`, the
one with the probability of loss sampling is one of `datum`. -/
def epochLoss (iterations sampleCount sbatchsize : Nat) (probability : D) (losses : List D) : D :=
  lossSum losses / (((Trainer.u32 (Trainer.u32 (iterations * sampleCount) * sbatchsize) : Nat) : D) * probability)

end CN24.LossLine
