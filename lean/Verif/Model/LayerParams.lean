import Verif.Model.Config
import Verif.Spec.LayerParams

/-
Model of the constructors of layers that read their parameters from a text
(src/net/ConvolutionLayer.cpp:72-99, src/net/MaxPoolingLayer.cpp:28-34,
src/net/AdvancedMaxPoolingLayer.cpp:31-42, src/net/GradientAccumulationLayer.cpp:23-27,
src/net/ResizeLayer.cpp:30-35, src/net/HMaxActivationFunction.cpp:59-65) and of
`LayerFactory::ConstructLayer` (src/net/LayerFactory.cpp:79-100) with them.

The conversion of text to a number by `operator>>` is a parameter (`conv`), as are the numbers 0
and 1 of the defaults.
-/

namespace CN24.LayerParams
open CN24.Config

variable {D : Type _}

/-- `ConvolutionLayer(std::string)` (src/net/ConvolutionLayer.cpp:72-99): the integer parameters
(`convolutionFromConfig`), then `dropout` and `llr`. -/
def convolution (conv : Str → D) (zero one : D) (configuration : Str) : Option (Layer D) :=
  (convolutionFromConfig configuration).bind fun c =>
  (parseDatum conv configuration "dropout".toList zero).bind fun dropout =>
  (parseDatum conv configuration "llr".toList one).map fun llr =>
    .convolution c.kernel c.stride c.pad c.outputMaps c.group dropout llr

/-- `MaxPoolingLayer(std::string)` (src/net/MaxPoolingLayer.cpp:28-34). -/
def maxPooling (configuration : Str) : Option (Layer D) :=
  (parseKernelSize configuration "size".toList (1, 1)).map .maxPooling

/-- `AdvancedMaxPoolingLayer(std::string)` (src/net/AdvancedMaxPoolingLayer.cpp:31-42). -/
def advancedMaxPooling (configuration : Str) : Option (Layer D) :=
  (parseKernelSize configuration "size".toList (1, 1)).bind fun region =>
  (parseKernelSize configuration "stride".toList region).map fun stride =>
    .advancedMaxPooling region stride

/-- `GradientAccumulationLayer(std::string)` (src/net/GradientAccumulationLayer.cpp:23-27). -/
def gradientAccumulation (configuration : Str) : Option (Layer D) :=
  (parseCount configuration "outputs".toList 0).map .gradientAccumulation

/-- `ResizeLayer(std::string)` (src/net/ResizeLayer.cpp:30-35). -/
def resize (configuration : Str) : Option (Layer D) :=
  (parseKernelSize configuration "border".toList (0, 0)).map .resize

/-- `HMaxActivationFunction(std::string)` (src/net/HMaxActivationFunction.cpp:59-65). -/
def hmax (conv : Str → D) (zero one : D) (configuration : Str) : Option (Layer D) :=
  (parseDatum conv configuration "mu".toList one).bind fun mu =>
  (parseDatum conv configuration "weight".toList zero).map fun weight => .hmax mu weight

/-- `LayerFactory::ConstructLayer` (src/net/LayerFactory.cpp:79-100) with the constructors: `none`
is an exception or undefined, `some none` the null pointer.  The constructors of the nonlinearities
read nothing (include/cn24/net/NonLinearityLayer.h:28, 38). -/
def build (conv : Str → D) (zero one : D) (descriptor : Str) : Option (Option (Layer D)) :=
  match constructLayer descriptor with
  | none => some none
  | some (.convolution, c) => (convolution conv zero one c).map some
  | some (.maxPooling, c) => (maxPooling c).map some
  | some (.advancedMaxPooling, c) => (advancedMaxPooling c).map some
  | some (.tanh, _) => some (some .tanh)
  | some (.sigmoid, _) => some (some .sigmoid)
  | some (.relu, _) => some (some .relu)
  | some (.gradientAccumulation, c) => (gradientAccumulation c).map some
  | some (.resize, c) => (resize c).map some
  | some (.hmax, c) => (hmax conv zero one c).map some

end CN24.LayerParams
