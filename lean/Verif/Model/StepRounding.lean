import Verif.Base.Flt
import Verif.Model.Trainer

/-
Gradient descent for one weight (src/net/Trainer.cpp:451-478), written so that it can be run with exact numbers and with `float`.
-/

namespace CN24.StepRounding
open CN24

/-- What an update of a weight depends on besides the weight, its gradient and its last step: the settings
(include/cn24/net/Trainer.h:28-48), `local_lr_` of the layer, the result of `GetLossSamplingProbability` and the product
`sample_count_ * sbatchsize`. -/
structure Rule (D : Type _) where
  lr : D
  layerLr : D
  l1 : D
  l2 : D
  momentum : D
  lossSampling : D
  count : Nat

variable {D : Type _} [Zero D] [One D] [Add D] [Sub D] [Mul D] [Div D] [Neg D] [NatCast D] [LT D] [DecidableLT D]

/-- `l1_gradient` (src/net/Trainer.cpp:452): the difference of two comparisons, as a `datum`. -/
def sign (w : D) : D := if 0 < w then 1 else if w < 0 then -1 else 0

/-- `delta` (src/net/Trainer.cpp:462-467), in the order in which the operations are done. -/
def direction (r : Rule D) (w g : D) : D :=
  r.layerLr * (g / (r.count : D) * r.lossSampling) + r.layerLr * (r.l2 * w + r.l1 * sign w)

/-- `step` (src/net/Trainer.cpp:475). -/
def step (r : Rule D) (g : D) (st : D × D) : D := r.lr * direction r st.1 g + r.momentum * st.2

/-- One update (src/net/Trainer.cpp:475-479): the weight and the step that is kept. -/
def descend (r : Rule D) (g : D) (st : D × D) : D × D := (st.1 - step r g st, step r g st)

/-- The accumulated gradient of one weight (src/net/Trainer.cpp:352-354, 372-387): cleared, then the gradients of the
`sbatchsize` passes of the iteration are added. -/
def accumulated (gs : List D) : D := gs.foldl (fun s g => s + g) 0

/-- One iteration for one weight, from the gradients of its passes. -/
def iteration (r : Rule D) (gs : List D) (st : D × D) : D × D := descend r (accumulated gs) st

/-- The updates of one weight in a row, with the learning rate (`lr`, src/net/Trainer.cpp:390-391, 428) and the accumulated
gradient of each iteration. -/
def descendAll (r : Rule D) (hs : List (D × D)) (st : D × D) : D × D :=
  hs.foldl (fun st h => descend { r with lr := h.1 } h.2 st) st

end CN24.StepRounding
