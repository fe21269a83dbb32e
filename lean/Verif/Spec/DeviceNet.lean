import Verif.Model.DeviceNet

/-
What a build without OpenCL does: there is one memory, and the same code runs in it, in the same order.
-/

namespace CN24.DeviceNet
namespace Plain
variable {V : Type _}

/-- A convolution layer, forward: the columns, the products of the groups, the bias, the samples apart. -/
noncomputable def convForward (l : Convolution V) (m : Mem V) : Mem V :=
  l.kUnmix.exec (l.kBias.exec (l.kGroups.foldl (fun m k => k.exec m) (l.kColumns.exec m)))

noncomputable def convBackward (backprop : Bool) (l : Convolution V) (m : Mem V) : Mem V :=
  let m := l.kGroupsBack.foldl (fun m k => k.2.exec (if backprop then k.1.exec m else m)) (l.kMix.exec m)
  let m := l.kBiasBack.exec m
  if backprop then l.kImage.exec m else m

noncomputable def step : Step V → Mem V → Mem V
  | .actForward _ _ k => k.exec
  | .actBackward _ _ k => k.exec
  | .poolForward _ _ _ k => k.exec
  | .poolBackward _ _ _ k => k.exec
  | .resizeForward _ _ k => k.exec
  | .resizeBackward backprop _ _ k => fun m => if backprop then k.exec m else m
  | .upForward _ _ k => k.exec
  | .upBackward _ _ k => k.exec
  | .downForward _ _ k => k.exec
  | .convForward l => convForward l
  | .convBackward backprop l => convBackward backprop l
  | .datasetForward _ _ _ _ k => k.exec
  | .other _ _ k => k.exec
  | .use _ k => k.exec
  | .replace _ k => k.exec
  | .loss k => k.exec

noncomputable def run (l : List (Step V)) (m : Mem V) : Mem V := l.foldl (fun m x => step x m) m

end Plain
end CN24.DeviceNet
