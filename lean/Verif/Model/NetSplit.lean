import Verif.Model.NetTrain
import Verif.Model.Trainer

/-
The network of Model/NetTrain.lean as the network of the trainer of Model/Trainer.lean: the parameters of a layer are
a list of tensors there and one buffer here.
-/

namespace CN24.NetSplit
open CN24 CN24.Net

/-- The parameters of node `m`, one tensor after the other (`parameters_` of the layers,
src/net/ConvolutionLayer.cpp:184-198). -/
def paramsOf (ws : List (List (List ℝ))) (m : Nat) : Vec := fun i => (ws.getD m []).flatten.getD i 0

/-- A buffer cut into tensors of the sizes of the given ones; the first begins at `start`. -/
def cut : List (List ℝ) → Nat → Vec → List (List ℝ)
  | [], _, _ => []
  | b :: bs, start, v => (List.range b.length).map (fun i => v (start + i)) :: cut bs (start + b.length) v

/-- The gradients by node, tensor and element, as the accumulation reads them (src/net/Trainer.cpp:372-387). -/
def gradsOf (ws : List (List (List ℝ))) (grad : Nat → Vec) : List (List (List ℝ)) :=
  ws.mapIdx fun m bufs => cut bufs 0 (grad m)

end CN24.NetSplit
