import Verif.Model.Config
import Verif.Model.NetGraph
import Verif.Model.Convolution
import Verif.Model.Pooling
import Verif.Model.Layers
import Verif.Model.Trainer

/-
Model of `Conv::ConfigurableFactory` (src/factory/ConfigurableFactory.cpp): the network description is
read twice, once by the constructor, which computes the size of the receptive field, and once by
`AddLayers`, which builds the nodes.

A description is the list of its lines.  Numbers of type `datum` are a parameter, as is their
conversion from text.  `Outcome.undefined` also stands for the exceptions of the string functions.
-/

namespace CN24.NetConfig
open CN24 CN24.Config CN24.Net

/-- The lines of a file as delivered by `while (!file.eof()) getline(file, line)`: the parts between
the line feeds, the last one possibly empty. -/
def linesOf : Str → List Str
  | [] => [[]]
  | c :: cs =>
    if c = '\n' then [] :: linesOf cs
    else match linesOf cs with
      | [] => [[c]]
      | l :: ls => (c :: l) :: ls

/-- `Method` (include/cn24/util/Dataset.h). -/
inductive Method where
  | fcn
  | patch
  deriving DecidableEq, Repr

/-- A signed value that must fit an `int`. -/
def int (i : Int) : Outcome Int :=
  if -2147483648 ≤ i ∧ i ≤ 2147483647 then .done i else .undefined

/-- Conversion of an unsigned value to `int` (reduction modulo 2^32). -/
def wrap (i : Int) : Int := (i + 2147483648) % 4294967296 - 2147483648

/-! ### The constructor -/

/-- The members computed by the constructor (include/cn24/factory/ConfigurableFactory.h:102-116), and
its local `ignore_layers`.  `patch_field_x_` and `patch_field_y_` are never read and left out, as is
`used_pad`, which only causes a warning. -/
structure Fields where
  method : Method := .fcn
  rfx : Int := 0
  rfy : Int := 0
  factorx : Int := 1
  factory : Int := 1
  ignore : Bool := false
  deriving DecidableEq, Repr

/-- `ParseKernelSizeIfPossible` into two variables that have no value yet: undefined if it sets
none. -/
def readKernelSize (line identifier : Str) : Outcome (Nat × Nat) :=
  match find (identifier ++ ['=']) line with
  | none => .undefined
  | some pos =>
    match findFrom ['x'] line pos with
    | none => .undefined
    | some _ => .ofOption (parseKernelSize line identifier (0, 0))

/-- What a layer does to the size of the receptive field. -/
structure Effect where
  kernel : Nat × Nat
  stride : Nat × Nat
  pad : Nat × Nat
  deriving DecidableEq, Repr

/-- `receptive_field_ += factor * (kernel - 1 - pad - pad); factor *= stride`, one dimension.  The
product of the factor with the unsigned stride is unsigned. -/
def grow (kernel stride pad : Nat) (rf factor : Int) : Outcome (Int × Int) :=
  (int (wrap kernel - 1)).bind fun a => (int (a - wrap pad)).bind fun b =>
  (int (b - wrap pad)).bind fun c => (int (factor * c)).bind fun d =>
  (int (rf + d)).bind fun rf => .done (rf, wrap (factor * stride))

/-- Both dimensions. -/
def Effect.apply (e : Effect) (f : Fields) : Outcome Fields :=
  (grow e.kernel.1 e.stride.1 e.pad.1 f.rfx f.factorx).bind fun (x : Int × Int) =>
  (grow e.kernel.2 e.stride.2 e.pad.2 f.rfy f.factory).bind fun (y : Int × Int) =>
  .done { f with rfx := x.1, factorx := x.2, rfy := y.1, factory := y.2 }

/-- The layer lines the constructor looks at, without the question mark
(src/factory/ConfigurableFactory.cpp:84-128).  Max-pooling and down-sampling multiply the factor only;
here they are kernels of size 1, which add nothing.  No identifier is a prefix of another, so at most
one of the cases applies. -/
def readEffect (line : Str) : Outcome (Option Effect) :=
  if startsWithIdentifier line "convolutional".toList then
    (Outcome.ofOption (parseKernelSize line "stride".toList (1, 1))).bind fun stride =>
    (Outcome.ofOption (parseKernelSize line "pad".toList (0, 0))).bind fun pad =>
    (readKernelSize line "size".toList).bind fun kernel => .done (some ⟨kernel, stride, pad⟩)
  else if startsWithIdentifier line "maxpooling".toList then
    (readKernelSize line "size".toList).bind fun k => .done (some ⟨(1, 1), k, (0, 0)⟩)
  else if startsWithIdentifier line "downsampling".toList then
    (readKernelSize line "size".toList).bind fun k => .done (some ⟨(1, 1), k, (0, 0)⟩)
  else if startsWithIdentifier line "amaxpooling".toList then
    (readKernelSize line "size".toList).bind fun kernel =>
    (Outcome.ofOption (parseKernelSize line "stride".toList kernel)).bind fun stride =>
    .done (some ⟨kernel, stride, (0, 0)⟩)
  else .done none

/-- The line that sets the receptive field by hand (src/factory/ConfigurableFactory.cpp:65-79). -/
def manual (line : Str) (f : Fields) : Outcome Fields :=
  if startsWithIdentifier line "manual".toList then
    (Outcome.ofOption (parseCount line "rfx".toList 0)).bind fun rfx =>
    (Outcome.ofOption (parseCount line "rfy".toList 0)).bind fun rfy =>
    (Outcome.ofOption (parseCount line "factorx".toList 0)).bind fun fx =>
    (Outcome.ofOption (parseCount line "factory".toList 0)).bind fun fy =>
    if 0 < rfx ∧ 0 < rfy then
      .done { f with rfx := wrap rfx, rfy := wrap rfy, factorx := wrap fx, factory := wrap fy,
                     ignore := true }
    else .done f
  else .done f

/-- The setting of the method (src/factory/ConfigurableFactory.cpp:55-63). -/
def readMethod (training : Bool) (line : Str) (f : Fields) : Outcome Fields :=
  (Outcome.ofOption (param line "method".toList)).bind fun m =>
  if training ∧ startsWithIdentifier (m.getD []) "patch".toList then .done { f with method := .patch }
  else .done f

/-- A line that is no such layer changes nothing. -/
def applyEffect (f : Fields) : Option Effect → Outcome Fields
  | none => .done f
  | some e => e.apply f

/-- The layer line part (src/factory/ConfigurableFactory.cpp:81-129). -/
def growField (line : Str) (f : Fields) : Outcome Fields :=
  match line with
  | '?' :: line =>
    if f.ignore then .done f
    else (readEffect line).bind (applyEffect f)
  | _ => .done f

/-- One line (src/factory/ConfigurableFactory.cpp:49-130). -/
def measureLine (training : Bool) (line : Str) (f : Fields) : Outcome Fields :=
  if startsWithIdentifier line ['#'] then .done f
  else (readMethod training line f).bind fun f => (manual line f).bind fun f => growField line f

/-- All lines. -/
def measure (training : Bool) : List Str → Fields → Outcome Fields
  | [], f => .done f
  | l :: ls, f => (measureLine training l f).bind (measure training ls)

/-- The constructor (src/factory/ConfigurableFactory.cpp:33-146); `patchsizex()` and `patchsizey()`
return `rfx` and `rfy`. -/
def construct (lines : List Str) (training : Bool) : Outcome Fields :=
  (measure training lines {}).bind fun f =>
  match f.method with
  | .fcn => .done f
  | .patch =>
    (int (f.rfx + f.factorx)).bind fun x => (int (f.rfy + f.factory)).bind fun y =>
    .done { f with rfx := x, rfy := y }

/-! ### AddLayers -/

/-- The layers the factory creates, with the arguments of their constructors.  `draw` counts the calls
of the random number generator. -/
inductive Layer (D : Type _) where
  | resize (borderx bordery : Nat)
  | conv (p : Convolution.Params) (draw : Nat) (dropout llr : D)
  | lrn (size : Nat) (alpha beta : D) (across : Bool)
  | maxPool (kx ky : Nat)
  | downSample (kx ky : Nat)
  | advMaxPool (kx ky sx sy : Nat)
  | sigmoid
  | hmax (mu weight : D)
  | relu
  | tanh
  | upscale (fx fy : Nat)
  | concat
  | sum
  | error (weight : D)
  deriving DecidableEq

/-- A node handed to `NetGraph::AddNode`. -/
structure NewNode (D : Type _) where
  layer : Layer D
  inputs : List Conn
  isOutput : Bool := false
  deriving DecidableEq

/-- The locals of `AddLayers`.  `nodes` are the added nodes, oldest first; the address of the `i`-th is
`base + i`.  The stacks are the filled parts of the two arrays, top first. -/
structure State (D : Type _) where
  base : Nat
  nodes : List (NewNode D) := []
  last : Conn
  stackA : List Conn := []
  stackB : List Conn := []
  upscaled : Bool
  draws : Nat := 0
  deriving DecidableEq

variable {D : Type _}

/-- `new NetGraphNode`, `AddNode` and the new `last_connection`. -/
def State.add (st : State D) (node : NewNode D) (backprop : Bool := true) : State D :=
  { st with nodes := st.nodes ++ [node], last := ⟨st.base + st.nodes.length, 0, backprop⟩ }

/-- `line.replace(line.find(pat), pat.length(), text)`; `none` is the exception if `pat` does not
occur. -/
def replaceFirst (pat text line : Str) : Option Str :=
  (find pat line).map fun pos => line.take pos ++ text ++ line.drop (pos + pat.length)

/-- `std::string::replace` at the position found: it throws if there is none. -/
def orThrow {α : Type _} : Option α → Outcome α
  | some a => .done a
  | none => .fatal

/-- The text replacements (src/factory/ConfigurableFactory.cpp:190-208); the number of classes is below
2^31. -/
def preprocess (method : Method) (classes : Nat) (line : Str) : Outcome Str :=
  let line := (replaceFirst "(o)".toList (digitsOf classes) line).getD line
  (match replaceFirst "fullyconnected".toList "convolutional size=1x1".toList line with
    | none => Outcome.done line
    | some line => orThrow (replaceFirst "neurons=".toList "kernels=".toList line)).bind fun line =>
  Outcome.done (if method = Method.fcn ∧ (find "flatten".toList line).isSome then [] else line)

/-- The replacement of the output line (src/factory/ConfigurableFactory.cpp:210-219): the new line,
whether it is the output, and the weight of the loss. -/
def outputLine (conv : Str → D) (one : D) (classes : Nat) (line : Str) : Outcome (Str × Bool × D) :=
  if startsWithIdentifier line "?output".toList then
    (Outcome.ofOption (parseDatum conv line "weight".toList one)).bind fun w =>
    .done (if classes = 1 then "?tanh".toList else "?sigm".toList, true, w)
  else .done (line, false, one)

/-- `++pos` and a write to an array of 64 entries. -/
def push (c : Conn) (stack : List Conn) : Outcome (List Conn) :=
  if stack.length < 64 then .done (c :: stack) else .undefined

/-- A read and `pos--`. -/
def pop : List Conn → Outcome (Conn × List Conn)
  | [] => .undefined
  | c :: stack => .done (c, stack)

/-- The stack operations (src/factory/ConfigurableFactory.cpp:224-238).  At most one of them
applies. -/
def stackLine (line : Str) (st : State D) : Outcome (State D) :=
  if startsWithIdentifier line "pusha".toList then
    (push st.last st.stackA).bind fun s => .done { st with stackA := s }
  else if startsWithIdentifier line "pushb".toList then
    (push st.last st.stackB).bind fun s => .done { st with stackB := s }
  else if startsWithIdentifier line "popa".toList then
    (pop st.stackA).bind fun (r : Conn × List Conn) => .done { st with last := r.1, stackA := r.2 }
  else if startsWithIdentifier line "popb".toList then
    (pop st.stackB).bind fun (r : Conn × List Conn) => .done { st with last := r.1, stackB := r.2 }
  else .done st

/-- The stack a `concat` or `sum` line names (src/factory/ConfigurableFactory.cpp:404-415, 428-439). -/
def namedStack (line : Str) (st : State D) : Outcome (List Conn) :=
  (Outcome.ofOption (param line "stack".toList)).bind fun name =>
  .done (if startsWithIdentifier (name.getD []) ['b'] then st.stackB else st.stackA)

/-- The convolution line (src/factory/ConfigurableFactory.cpp:247-268).  The order of the
independent parameter reads is that of the code. -/
def convolutionLine (conv : Str → D) (zero one : D) (line : Str) (st : State D) : Outcome (State D) :=
  (Outcome.ofOption (parseKernelSize line "size".toList (1, 1))).bind fun k =>
  (Outcome.ofOption (parseKernelSize line "stride".toList (1, 1))).bind fun s =>
  (Outcome.ofOption (parseKernelSize line "pad".toList (0, 0))).bind fun p =>
  (Outcome.ofOption (parseCount line "kernels".toList 1)).bind fun maps =>
  (Outcome.ofOption (parseCount line "group".toList 1)).bind fun group =>
  (Outcome.ofOption (parseDatum conv line "dropout".toList zero)).bind fun dropout =>
  (Outcome.ofOption (parseDatum conv line "llr".toList one)).bind fun llr =>
  (Convolution.construct ⟨maps, k.1, k.2, s.1, s.2, p.1, p.2, group⟩).bind fun params =>
  .done ({ st with draws := st.draws + 1 }.add ⟨.conv params st.draws dropout llr, [st.last], false⟩)

/-- The normalisation line (src/factory/ConfigurableFactory.cpp:270-294). -/
def lrnLine (conv : Str → D) (one : D) (line : Str) (st : State D) : Outcome (State D) :=
  (Outcome.ofOption (param line "method".toList)).bind fun m =>
  let m := m.getD []
  (if startsWithIdentifier m "across".toList then Outcome.done true
    else if startsWithIdentifier m "within".toList then Outcome.done false else Outcome.fatal).bind fun across =>
  (Outcome.ofOption (parseCount line "size".toList 1)).bind fun size =>
  (Outcome.ofOption (parseDatum conv line "alpha".toList one)).bind fun alpha =>
  (Outcome.ofOption (parseDatum conv line "beta".toList one)).bind fun beta =>
  .done (st.add ⟨.lrn size alpha beta across, [st.last], false⟩)

/-- The pooling lines (src/factory/ConfigurableFactory.cpp:296-335). -/
def poolingLine (line : Str) (st : State D) : Outcome (Option (State D)) :=
  if startsWithIdentifier line "maxpooling".toList then
    (Outcome.ofOption (parseKernelSize line "size".toList (1, 1))).bind fun k =>
    .done (some (st.add ⟨.maxPool k.1 k.2, [st.last], false⟩))
  else if startsWithIdentifier line "downsampling".toList then
    (Outcome.ofOption (parseKernelSize line "size".toList (1, 1))).bind fun k =>
    .done (some (st.add ⟨.downSample k.1 k.2, [st.last], false⟩ false))
  else if startsWithIdentifier line "amaxpooling".toList then
    (Outcome.ofOption (parseKernelSize line "size".toList (1, 1))).bind fun k =>
    (Outcome.ofOption (parseKernelSize line "stride".toList k)).bind fun s =>
    .done (some (st.add ⟨.advMaxPool k.1 k.2 s.1 s.2, [st.last], false⟩))
  else .done none

/-- The activation lines (src/factory/ConfigurableFactory.cpp:337-380). -/
def activationLine (conv : Str → D) (zero one : D) (method : Method) (isOutput : Bool) (line : Str)
    (st : State D) : Outcome (Option (State D)) :=
  let o := isOutput && (method = .patch || st.upscaled)
  if startsWithIdentifier line "sigm".toList then .done (some (st.add ⟨.sigmoid, [st.last], o⟩))
  else if startsWithIdentifier line "hmax".toList then
    (Outcome.ofOption (parseDatum conv line "mu".toList one)).bind fun mu =>
    (Outcome.ofOption (parseDatum conv line "weight".toList zero)).bind fun w =>
    .done (some (st.add ⟨.hmax mu w, [st.last], o⟩))
  else if startsWithIdentifier line "relu".toList then .done (some (st.add ⟨.relu, [st.last], o⟩))
  else if startsWithIdentifier line "tanh".toList then .done (some (st.add ⟨.tanh, [st.last], o⟩))
  else .done none

/-- `UpscaleLayer(factorx, factory)`: the factors are converted to unsigned. -/
def upscaleBy (f : Fields) : Layer D := .upscale (toUInt f.factorx) (toUInt f.factory)

/-- The spatial prior line (src/factory/ConfigurableFactory.cpp:382-401); the helper image is buffer 2
of the data layer. -/
def spatialLine (f : Fields) (data : Conn) (st : State D) : State D :=
  let st := if !st.upscaled ∧ f.method = .fcn then
    { st.add ⟨upscaleBy f, [st.last], false⟩ with upscaled := true } else st
  st.add ⟨.concat, [st.last, ⟨data.node, 2, false⟩], false⟩

/-- The lines that join and scale (src/factory/ConfigurableFactory.cpp:382-465); the result tells
whether the line is an output. -/
def joinLine (f : Fields) (data : Conn) (isOutput : Bool) (line : Str) (st : State D) :
    Outcome (State D × Bool) :=
  if startsWithIdentifier line "spatialprior".toList then .done (spatialLine f data st, isOutput)
  else if startsWithIdentifier line "concat".toList then
    (namedStack line st).bind fun s => .done (st.add ⟨.concat, s, false⟩, isOutput)
  else if startsWithIdentifier line "sum".toList then
    (namedStack line st).bind fun s => .done (st.add ⟨.sum, s, false⟩, isOutput)
  else if startsWithIdentifier line "upscale".toList then
    (Outcome.ofOption (parseKernelSize line "factor".toList (1, 1))).bind fun u =>
    (Outcome.ofOption (parseCount line "is_output".toList 0)).bind fun o =>
    .done ({ st.add ⟨.upscale u.1 u.2, [st.last], decide (o = 1)⟩ with upscaled := true },
      decide (o = 1))
  else .done (st, isOutput)

/-- The layer lines (src/factory/ConfigurableFactory.cpp:243-465), without the question mark. -/
def layerLine (conv : Str → D) (zero one : D) (f : Fields) (data : Conn) (isOutput : Bool) (line : Str)
    (st : State D) : Outcome (State D × Bool) :=
  if startsWithIdentifier line "convolutional".toList then
    (convolutionLine conv zero one line st).bind fun st => .done (st, isOutput)
  else if startsWithIdentifier line "lrn".toList then
    (lrnLine conv one line st).bind fun st => .done (st, isOutput)
  else (poolingLine line st).bind fun
    | some st => .done (st, isOutput)
    | none => (activationLine conv zero one f.method isOutput line st).bind fun
      | some st => .done (st, isOutput)
      | none => joinLine f data isOutput line st

/-- The scaling of the output in fully convolutional mode
(src/factory/ConfigurableFactory.cpp:467-477). -/
def scaleOutput (f : Fields) (isOutput : Bool) (st : State D) : State D :=
  if isOutput ∧ !st.upscaled ∧ f.method = .fcn ∧ (f.factorx ≠ 1 ∨ f.factory ≠ 1) then
    st.add ⟨upscaleBy f, [st.last], true⟩
  else st

/-- The loss layer (src/factory/ConfigurableFactory.cpp:479-496); `last_connection` stays. -/
def addLoss (loss : Bool) (data : Conn) (isOutput : Bool) (weight : D) (st : State D) : State D :=
  if isOutput ∧ loss then
    { st with nodes := st.nodes ++ [⟨.error weight,
      [⟨st.last.node, 0, true⟩, { data with buffer := 1 }, { data with buffer := 3 }], false⟩] }
  else st

/-- One line (src/factory/ConfigurableFactory.cpp:178-497). -/
def addLine (conv : Str → D) (zero one : D) (f : Fields) (data : Conn) (classes : Nat) (loss : Bool)
    (line : Str) (st : State D) : Outcome (State D) :=
  if startsWithIdentifier line ['#'] then .done st
  else
    (preprocess f.method classes line).bind fun line =>
    (outputLine conv one classes line).bind fun (o : Str × Bool × D) =>
    (stackLine o.1 st).bind fun st =>
    match o.1 with
    | '?' :: line =>
      (layerLine conv zero one f data o.2.1 line st).bind fun (r : State D × Bool) =>
      .done (addLoss loss data r.2 o.2.2 (scaleOutput f r.2 r.1))
    | _ => .done st

/-- All lines. -/
def addLines (conv : Str → D) (zero one : D) (f : Fields) (data : Conn) (classes : Nat) (loss : Bool) :
    List Str → State D → Outcome (State D)
  | [], st => .done st
  | l :: ls, st => (addLine conv zero one f data classes loss l st).bind
      (addLines conv zero one f data classes loss ls)

/-- The locals before the first line, with the border in fully convolutional mode
(src/factory/ConfigurableFactory.cpp:158-175). -/
def start (f : Fields) (data : Conn) (base : Nat) : State D :=
  let st : State D := { base, last := data, upscaled := f.factorx = 1 && f.factory = 1 }
  if f.method = .fcn ∧ 0 < f.rfx ∧ 0 < f.rfy then
    st.add ⟨.resize f.rfx.toNat f.rfy.toNat, [data], false⟩ false
  else st

/-- `AddLayers` (src/factory/ConfigurableFactory.cpp:153-502): the nodes added to the net.  `data` is
the connection of the data layer, `base` the address of the first new node.  The value of the function
is `IsComplete` of the net (Verif/Model/NetGraph.lean). -/
def addLayers (conv : Str → D) (zero one : D) (f : Fields) (lines : List Str) (data : Conn)
    (base classes : Nat) (loss : Bool) : Outcome (State D) :=
  addLines conv zero one f data classes loss lines (start f data base)

/-! ### Sizes -/

/-- `CreateOutputs` and `Connect` of the layers: the shapes of the outputs from those of the inputs.  A
refusal is `FATAL` in `NetGraph::InitializeNode` (src/net/NetGraph.cpp:264-285).  Layers with one input
refuse several (e.g. src/net/UpscaleLayer.cpp:23-50, src/net/InputDownSamplingLayer.cpp:23-57), joins
refuse anything but two (src/net/ConcatenationLayer.cpp:19-52, src/net/SumLayer.cpp:20-59); a sum
connects if the elements agree.  The error layer has no outputs.  A strided pooling that computes a negative size is not followed. -/
def Layer.outputs (l : Layer D) (inputs : List Shape) : Outcome (List Shape) :=
  match l, inputs with
  | .resize bx by', [a] => .done [Layers.resizeCreate bx by' a]
  | .conv p _ _ _, [a] => (Convolution.initialise p a.width a.height a.maps).bind fun
      | none => .fatal
      | some r => .done [⟨a.samples, r.1, r.2, p.outputMaps⟩]
  | .maxPool kx ky, [a] => (Pooling.createOutputs kx ky a.width a.height).bind fun
      | none => .fatal
      | some r => .done [⟨a.samples, r.1, r.2, a.maps⟩]
  | .downSample kx ky, [a] => (Pooling.createOutputs kx ky a.width a.height).bind fun
      | none => .fatal
      | some r => .done [⟨a.samples, r.1, r.2, a.maps⟩]
  | .advMaxPool kx ky sx sy, [a] => (Pooling.advCreateOutputs kx ky sx sy a.width a.height).bind fun
      | none => .fatal
      | some r => if r.1 < 0 ∨ r.2 < 0 then .undefined
          else .done [⟨a.samples, r.1.toNat, r.2.toNat, a.maps⟩]
  | .upscale fx fy, [a] => .done [⟨a.samples, a.width * fx, a.height * fy, a.maps⟩]
  | .lrn .., [a] => .done [a]
  | .sigmoid, [a] => .done [a]
  | .hmax .., [a] => .done [a]
  | .relu, [a] => .done [a]
  | .tanh, [a] => .done [a]
  | .concat, [a, b] => match Layers.concatCreate a b with
      | none => .fatal
      | some o => if Layers.concatConnect a b o then .done [o] else .fatal
  | .sum, [a, b] => match Layers.sumCreate a b with
      | none => .fatal
      | some o => (Layers.sumConnect a b o).bind fun ok => if ok then .done [o] else .fatal
  | .error _, [a, b, w] => if ErrorLayer.accepts a b w then .done [] else .fatal
  | _, _ => .fatal

/-- The tensor a connection leads to: the outputs of the data layer, whose node is `data`, or of an
earlier new node. -/
def source (data base : Nat) (dataShapes : List Shape) (known : List (List Shape))
    (c : Conn) : Outcome Shape :=
  if c.node = data then .ofOption dataShapes[c.buffer]?
  else if base ≤ c.node then .ofOption (known[c.node - base]?.bind fun o => o[c.buffer]?)
  else .undefined

/-- The input tensors of a node. -/
def sources (data base : Nat) (dataShapes : List Shape) (known : List (List Shape)) :
    List Conn → Outcome (List Shape)
  | [] => .done []
  | c :: cs => (source data base dataShapes known c).bind fun a =>
      (sources data base dataShapes known cs).bind fun as => .done (a :: as)

/-- The shapes of all outputs after `NetGraph::Initialize` (src/net/NetGraph.cpp:247-290).  Every new
node only uses nodes before it, so that the order of the initialisation is the order of creation. -/
def shapes (data base : Nat) (dataShapes : List Shape) :
    List (NewNode D) → List (List Shape) → Outcome (List (List Shape))
  | [], known => .done known
  | n :: ns, known =>
    (sources data base dataShapes known n.inputs).bind fun ins =>
    (n.layer.outputs ins).bind fun outs => shapes data base dataShapes ns (known ++ [outs])

end CN24.NetConfig
