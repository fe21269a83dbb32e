import Verif.Spec.NetTrain

/-
Specification for C92: batches that are split into parts.
-/

namespace CN24.NetSplit
open CN24 CN24.NetConfig CN24.Net

/-- The same pictures in a batch of `n`. -/
def resized (n : Nat) (s : Shape) : Shape := ⟨n, s.width, s.height, s.maps⟩

/-- A buffer holds part number `j` of another, as batches are stored picture by picture; the part has the shape `s`. -/
def IsPart (j : Nat) (s : Shape) (whole part : Vec) : Prop :=
  ∀ i, i < s.elements → part i = whole (j * s.elements + i)

/-- What a layer needs to treat the pictures of a batch one by one: no dropout, square images for normalisation (C46),
joins of images of the same size (C41), and pooling windows that fit (C36). -/
def Fit {D : Type _} [Zero D] : NetConfig.Layer D → List Shape → Prop
  | .conv _ _ dropout _, _ => dropout = 0
  | .lrn .., [a] => a.width = a.height
  | .advMaxPool kx ky _ _, [a] => kx ≤ a.width ∧ ky ≤ a.height
  | .concat, [a, b] => a.width = b.width ∧ a.height = b.height
  | .sum, [a, b] => a.width = b.width ∧ a.height = b.height
  | _, _ => True

/-- All layers have what they need. -/
def AllFit {D : Type _} [Zero D] (nodes : List (NewNode D)) (ds : List Shape) (known : List (List Shape)) : Prop :=
  ∀ n ∈ nodes, Fit n.layer (n.inputs.map (NetTrain.shapeAt ds known))

/-- The tensor number `b` of node `k` has shape `s`; node 0 is the data layer. -/
def Has (ds : List Shape) (known : List (List Shape)) (k b : Nat) (s : Shape) : Prop :=
  match k with
  | 0 => ds[b]? = some s
  | k + 1 => ∃ o, known[k]? = some o ∧ o[b]? = some s

/-- The data of a batch of `q * r` pictures in `q` parts. -/
def DataParts (q r : Nat) (ds : List Shape) (data : Nat → Vec) (parts : Nat → Nat → Vec) : Prop :=
  ∀ j, j < q → ∀ b s, ds[b]? = some s → IsPart j (resized r s) (data b) (parts j b)

end CN24.NetSplit
