import Verif.Model.NetBatch

/-
Specification of the evaluation of batches: what a network computes for an image does not depend on the batch the image
is part of.
-/

namespace CN24.NetBatch
open CN24 CN24.NetConfig CN24.Net
variable {R : Type _}

/-- Picture number `s` of one batch is picture number `s'` of another. -/
structure SamePicture (s s' : Nat) (t t' : Tensor R) : Prop where
  width : t.width = t'.width
  height : t.height = t'.height
  maps : t.maps = t'.maps
  first : s < t.samples
  second : s' < t'.samples
  pixels : ∀ x y k, x < t.width → y < t.height → k < t.maps → t.get x y k s = t'.get x y k s'

/-- Batches of `n` and `n'` pictures of the same size. -/
structure SameSize (n n' : Nat) (t t' : Tensor R) : Prop where
  wf : t.WF ∧ t'.WF
  samples : t.samples = n ∧ t'.samples = n'
  width : t.width = t'.width
  height : t.height = t'.height
  maps : t.maps = t'.maps

/-- Output number `i` of the data layer is used by a layer that computes something (the loss layer has no outputs). -/
def Reads (nodes : List (NewNode R)) (i : Nat) : Prop :=
  ∃ nd ∈ nodes, (∀ w, nd.layer ≠ .error w) ∧ ∃ c ∈ nd.inputs, c.node = 0 ∧ c.buffer = i

/-- What a layer needs besides inputs that it accepts: parameters of the right sizes and no dropout (or testing mode),
square images for normalisation (C46), joins of images of the same size (C41), and pooling windows that fit (C36). -/
def Suits (env : Env R) [Zero R] (testing : Bool) : NetConfig.Layer R → List Shape → Prop
  | .conv p draw dropout _, [a] =>
    (env.convolution draw).weights.Is p.outputMaps p.kernelWidth p.kernelHeight (a.maps / p.group) ∧
    (env.convolution draw).bias.Is 1 p.outputMaps 1 1 ∧ p.group ∣ p.outputMaps ∧ (testing = true ∨ dropout = 0)
  | .lrn .., [a] => a.width = a.height
  | .advMaxPool kx ky _ _, [a] => kx ≤ a.width ∧ ky ≤ a.height
  | .concat, [a, b] => a.width = b.width ∧ a.height = b.height
  | .sum, [a, b] => a.width = b.width ∧ a.height = b.height
  | _, _ => True

/-- The network accepts data of the given shapes, and all layers have what they need. -/
def Suitable (env : Env R) [Zero R] (testing : Bool) (ds : List Shape) :
    List (NewNode R) → List (List Shape) → Prop
  | [], _ => True
  | n :: ns, known => ∃ ins outs, sources 0 1 ds known n.inputs = .done ins ∧ n.layer.outputs ins = .done outs ∧
      Suits env testing n.layer ins ∧ Suitable env testing ds ns (known ++ [outs])

end CN24.NetBatch
