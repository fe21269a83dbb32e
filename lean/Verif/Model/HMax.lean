import Verif.Model.Activations

/-
Model of the activation layer with learned slope and offset (`HMaxActivationFunction`):
src/net/HMaxActivationFunction.cpp:96-194, include/cn24/net/HMaxActivationFunction.h.

The statistics that the forward pass reports are modelled in Model/HMaxStats.lean.  `exp`, `log` are parameters.
-/

namespace CN24.HMax
open CN24 Tensor
variable {R : Type _}

/-- The members that the passes read (include/cn24/net/HMaxActivationFunction.h:56-58): the two weights,
`mu_`, `loss_weight_` and `local_lr_` (include/cn24/net/Layer.h:134). -/
structure Config (R : Type _) where
  a : R
  b : R
  mu : R
  lossWeight : R
  localLr : R

section
variable [Field R]

/-- `Connect` (src/net/HMaxActivationFunction.cpp:96-114): both weights are set to one. -/
def connect (c : Config R) (input output : Shape) : Option (Config R) :=
  if Activations.connect input output then some { c with a := 1, b := 1 } else none

/-- The output for one element (src/net/HMaxActivationFunction.cpp:132). -/
def value (exp : R → R) (c : Config R) (v : R) : R := 1 / (1 + exp (-(c.a * v + c.b)))

/-- `FeedForward` (src/net/HMaxActivationFunction.cpp:116-136). -/
def forward (exp : R → R) (c : Config R) (input output : Tensor R) : Option (Tensor R) :=
  Activations.elementwise input.elements (fun e => (rd input.data e).map (value exp c)) output

/-- `output_mix` (src/net/HMaxActivationFunction.cpp:160). -/
def mix (o : R) : R := (1 - o) * o

/-- The input delta of one element (src/net/HMaxActivationFunction.cpp:168, 179-180). -/
def inputDelta (log : R → R) (c : Config R) (o d : R) : R :=
  d * c.a * mix o + c.lossWeight * (mix o * (log o + 1)) + c.lossWeight * mix o / c.mu

/-- What one element adds to `delta_a` (src/net/HMaxActivationFunction.cpp:171, 185-186). -/
def stepA (c : Config R) (v o : R) : R :=
  mix o * v + (-v + (2 + 1 / c.mu) * v * o - v * o * o / c.mu) * c.lossWeight

/-- What one element adds to `delta_b` (src/net/HMaxActivationFunction.cpp:172, 187-188). -/
def stepB (c : Config R) (o : R) : R :=
  mix o + ((2 + 1 / c.mu) * o - o * o / c.mu) * c.lossWeight

/-- `BackPropagate` (src/net/HMaxActivationFunction.cpp:138-194): the input deltas and the deltas of the two
weights. -/
def backward (log : R → R) (c : Config R) (input output outputDelta inDelta : Tensor R) :
    Option (Tensor R × R × R) :=
  (forLoop input.elements (fun e st =>
    (rd input.data e).bind fun v =>
    (rd output.data e).bind fun o =>
    (rd outputDelta.data e).bind fun d =>
    (st.1.putElem e (inputDelta log c o d)).map fun t => (t, st.2.1 + stepA c v o, st.2.2 + stepB c o))
    (inDelta, -(input.elements : R) / c.a * c.lossWeight, -(input.elements : R) * c.lossWeight)).map
    fun r => (r.1, c.localLr * r.2.1, c.localLr * r.2.2)

end
end CN24.HMax
