import Verif.Model.TensorMath
import Mathlib.Algebra.Order.Field.Basic

/-!
Local response normalisation (src/net/LocalResponseNormalizationLayer.cpp), host code.

`datum` arithmetic is exact and `pow` is a parameter.  Sizes are natural numbers (the code converts
them to `int`, so statements apply to sizes below 2^31).  The `#pragma omp parallel for` over the samples
runs in order here.  An unknown normalisation method, which is FATAL, does not exist in the model.
-/

namespace CN24.Lrn
open CN24 Tensor TensorMath
variable {R : Type _}

/-- `NormalizationMethod` (include/cn24/net/LocalResponseNormalizationLayer.h:28-31). -/
inductive Method where
  | acrossChannels | withinChannels
  deriving DecidableEq

/-- Configuration of the layer (src/net/LocalResponseNormalizationLayer.cpp:17-26). -/
structure Config (R : Type _) where
  size : Nat
  alpha : R
  beta : R
  method : Method

/-- `sub` (src/net/LocalResponseNormalizationLayer.cpp:79): `size_ - 1` is unsigned and wraps around
for size 0. -/
def sub (size : Nat) : Nat := if size = 0 then 2147483647 else (size - 1) / 2

/-- `add` (src/net/LocalResponseNormalizationLayer.cpp:80). -/
def add (size : Nat) : Nat := size / 2

/-- `for (i = max(j - sub, 0); i < n && i <= j + add; i++)`
(src/net/LocalResponseNormalizationLayer.cpp:89, 90, 109). -/
def overWindow {σ : Type _} (size n j : Nat) (f : Nat → σ → Option σ) (s : σ) : Option σ :=
  forRange (j - sub size) (min n (j + add size + 1)) f s

/-- The loops over the window of one output element: over rows and columns of the same map
(src/net/LocalResponseNormalizationLayer.cpp:89-95) or over the maps (109-113).  The body gets column,
row and map. -/
def overRegion {σ : Type _} (c : Config R) (input : Tensor R) (x y m : Nat)
    (f : Nat → Nat → Nat → σ → Option σ) (s : σ) : Option σ :=
  match c.method with
  | .withinChannels => overWindow c.size input.height y (fun iy => overWindow c.size input.width x
      (fun ix => f ix iy m)) s
  | .acrossChannels => overWindow c.size input.maps m (fun im => f x y im) s

section
variable [Field R]

/-- `region_sum` and `region_size` (src/net/LocalResponseNormalizationLayer.cpp:87-95, 107-113). -/
def region (c : Config R) (input : Tensor R) (x y m s : Nat) : Option (R × Nat) :=
  overRegion c input x y m (fun ix iy im acc =>
    (input.get ix iy im s).map fun v => (acc.1 + v * v, acc.2 + 1)) (0, 0)

/-- `region_size` as counted by the backward pass (src/net/LocalResponseNormalizationLayer.cpp:140-145,
168-171). -/
def regionSize (c : Config R) (input : Tensor R) (x y m : Nat) : Option Nat :=
  overRegion c input x y m (fun _ _ _ n => some (n + 1)) 0

/-- `1.0 + ((alpha_/region_size)*region_sum)`. -/
def base (c : Config R) (n : Nat) (sum : R) : R := 1 + c.alpha / (n : R) * sum

/-- The body of the forward loops (src/net/LocalResponseNormalizationLayer.cpp:87-99, 107-117). -/
def forwardStep (pow : R → R → R) (c : Config R) (input : Tensor R) (s m y x : Nat)
    (st : Tensor R × Tensor R) : Option (Tensor R × Tensor R) :=
  (region c input x y m s).bind fun r =>
  (st.1.put x y m s r.1).bind fun sums =>
  (input.get x y m s).bind fun v =>
  (st.2.put x y m s (v / pow (base c r.2 r.1) c.beta)).map fun output => (sums, output)

/-- `FeedForward` (src/net/LocalResponseNormalizationLayer.cpp:78-125): the loop over the columns runs up
to `input_height_`.  The state is the buffer of region sums and the output. -/
def forward (pow : R → R → R) (c : Config R) (input : Tensor R) (st : Tensor R × Tensor R) :
    Option (Tensor R × Tensor R) :=
  forLoop input.samples (fun s => forLoop input.maps fun m => forLoop input.height fun y =>
    forLoop input.height fun x => forwardStep pow c input s m y x) st

/-- What is subtracted from the delta of a window element (src/net/LocalResponseNormalizationLayer.cpp:
155-156). -/
def penalty (pow : R → R → R) (c : Config R) (n : Nat) (sum xi dxi xj : R) : R :=
  dxi * xi * 2 * c.beta * (c.alpha / (n : R)) * xj * pow (base c n sum) (c.beta - 1) /
    (pow (base c n sum) c.beta * pow (base c n sum) c.beta)

/-- The body of the backward loops (src/net/LocalResponseNormalizationLayer.cpp:139-159, 167-183). -/
def backwardStep (pow : R → R → R) (c : Config R) (input sums outputDelta : Tensor R) (s m y x : Nat)
    (delta : Tensor R) : Option (Tensor R) :=
  (sums.get x y m s).bind fun sum =>
  (regionSize c input x y m).bind fun n =>
  (input.get x y m s).bind fun xi =>
  (outputDelta.get x y m s).bind fun dxi =>
  (overRegion c input x y m (fun ix iy im delta =>
    (input.get ix iy im s).bind fun xj =>
    addElem delta (delta.offset ix iy im s) (-penalty pow c n sum xi dxi xj)) delta).bind fun delta =>
  addElem delta (delta.offset x y m s) (dxi / pow (base c n sum) c.beta)

/-- `BackPropagate` (src/net/LocalResponseNormalizationLayer.cpp:127-191). -/
def backward (pow : R → R → R) (c : Config R) (input sums outputDelta delta : Tensor R) :
    Option (Tensor R) :=
  (setSample delta none 0).bind fun delta =>
  forLoop input.samples (fun s => forLoop input.maps fun m => forLoop input.height fun y =>
    forLoop input.height fun x => backwardStep pow c input sums outputDelta s m y x) delta

end
end CN24.Lrn
