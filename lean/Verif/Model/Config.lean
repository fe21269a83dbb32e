import Verif.Base.Regex
import Verif.Spec.Config

/-
Configuration text: parameter reading (src/util/ConfigParsing.cpp) and layer descriptors
(src/net/LayerFactory.cpp).  A string is a list of characters.
-/

namespace CN24.Config

/-- `std::string::find(pat)`: the first position at which `pat` occurs. -/
def find (pat : Str) : Str → Option Nat
  | [] => if pat = [] then some 0 else none
  | c :: cs => if pat.isPrefixOf (c :: cs) then some 0 else (find pat cs).map (· + 1)

/-- `std::string::find(pat, start)`. -/
def findFrom (pat s : Str) (start : Nat) : Option Nat :=
  (find pat (s.drop start)).map (· + start)

/-- `std::string::substr(pos)`; `none` is the exception `std::out_of_range`. -/
def substr (s : Str) (pos : Nat) : Option Str :=
  if pos ≤ s.length then some (s.drop pos) else none

/-- `if (end_pos != npos) line = line.substr(0, end_pos)`. -/
def cut (line : Str) : Option Nat → Str
  | some end_pos => line.take end_pos
  | none => line

/-- White space skipped by `atoi` (C locale). -/
def isSpace (c : Char) : Bool :=
  c = ' ' || c = '\t' || c = '\n' || c = '\x0b' || c = '\x0c' || c = '\r'

def digitsValue (s : Str) : Nat := s.foldl (fun n c => n * 10 + (c.toNat - '0'.toNat)) 0

/-- An optional sign. -/
def sign (s : Str) : Bool × Str :=
  if s.head? = some '-' then (true, s.tail)
  else if s.head? = some '+' then (false, s.tail)
  else (false, s)

/-- `std::atoi`: white space, an optional sign, digits.  `none` when the value does not fit an
`int`: the C standard leaves that undefined. -/
def atoi (s : Str) : Option Int :=
  let s := sign (s.dropWhile isSpace)
  let n : Int := digitsValue (s.2.takeWhile Char.isDigit)
  let n := if s.1 then -n else n
  if -2147483648 ≤ n ∧ n ≤ 2147483647 then some n else none

/-- Conversion of an `int` to `unsigned int`. -/
def toUInt (i : Int) : Nat := (i % 4294967296).toNat

/-- `ParseStringParamIfPossible` (src/util/ConfigParsing.cpp:56-70): outer `none` is an
exception, inner `none` means the variable is left alone.  The same text is what
`ParseCountIfPossible` (110-126) and `ParseDatumParamIfPossible` (128-150) convert. -/
def param (line identifier : Str) : Option (Option Str) :=
  let ilen := identifier.length + 1
  match find (identifier ++ ['=']) line with
  | none => some none
  | some size_pos =>
    let line := cut line (findFrom [' '] line size_pos)
    (substr line (size_pos + ilen)).map some

/-- `ParseCountIfPossible` (src/util/ConfigParsing.cpp:110-125): the new value of the variable;
`none` is an exception or undefined. -/
def parseCount (line identifier : Str) (old : Nat) : Option Nat :=
  (param line identifier).bind fun
    | none => some old
    | some s => (atoi s).map toUInt

/-- `ParseDatumParamIfPossible` (src/util/ConfigParsing.cpp:127-147); the conversion of text to a
number by `operator>>` is a parameter. -/
def parseDatum {D : Type _} (conv : Str → D) (line identifier : Str) (old : D) : Option D :=
  (param line identifier).map fun
    | none => old
    | some s => conv s

/-- Subtraction of positions in `size_t`. -/
def subSize (a b : Nat) : Nat := (a + 18446744073709551616 - b) % 18446744073709551616

/-- `ParseKernelSizeIfPossible` (src/util/ConfigParsing.cpp:85-108). -/
def parseKernelSize (line identifier : Str) (old : Nat × Nat) : Option (Nat × Nat) :=
  let ilen := identifier.length + 1
  match find (identifier ++ ['=']) line with
  | none => some old
  | some size_pos =>
    match findFrom ['x'] line size_pos with
    | none => some old
    | some x_pos =>
      let line := cut line (findFrom [' '] line x_pos)
      (substr line (size_pos + ilen)).bind fun size =>
        let sizex := size.take (subSize x_pos (size_pos + ilen))
        (substr size (subSize (1 + x_pos) (size_pos + ilen))).bind fun sizey =>
          (atoi sizex).bind fun kx => (atoi sizey).map fun ky => (toUInt kx, toUInt ky)

/-- `StartsWithIdentifier` (src/util/ConfigParsing.cpp:17-19). -/
def startsWithIdentifier (line identifier : Str) : Bool := identifier.isPrefixOf line

/-- `ParseStringIfPossible` with `ParseString` (src/util/ConfigParsing.cpp:42-54), also the text
converted by `ParseDatumIfPossible` (73-77) and `ParseUIntIfPossible` (79-83): the text after the
identifier and one more character. -/
def setting (line identifier : Str) : Option (Option Str) :=
  if startsWithIdentifier line identifier then (substr line (identifier.length + 1)).map some
  else some none

/-! ## Layer descriptors -/

/-- `[a-zA-Z0-9\.]`: in an extended regular expression the backslash has no special meaning
inside brackets, so that it is a member of the class.  (`[a-z]` is `lower`, in the C locale.) -/
def valueChar (c : Char) : Bool :=
  ('a' ≤ c && c ≤ 'z') || ('A' ≤ c && c ≤ 'Z') || ('0' ≤ c && c ≤ '9') || c = '\\' || c = '.'
/-- `[0-9]` -/
def digit (c : Char) : Bool := '0' ≤ c && c ≤ '9'

open RE

/-- `[a-z]+=[a-zA-Z0-9\.]+` -/
def pairRE : RE := .seq (plus (.cls lower)) (.seq (char '=') (plus (.cls valueChar)))

/-- The expression of `IsValidDescriptor` (src/net/LayerFactory.cpp:28-34); the anchors have no
effect in a whole-string match. -/
def validRE : RE :=
  .seq (plus (.cls lower))
    (opt (.seq (char '(')
      (.seq (opt (.seq pairRE (.star (.seq (char ' ') pairRE)))) (char ')'))))

/-- `LayerFactory::IsValidDescriptor` (src/net/LayerFactory.cpp:27-41). -/
def isValidDescriptor (descriptor : Str) : Bool := validRE.isMatch descriptor

/-- `LayerFactory::ExtractConfiguration` (src/net/LayerFactory.cpp:43-57), `[a-z]+\((.+)\)`. -/
def extractConfiguration (descriptor : Str) : Str :=
  (capture (.seq (plus (.cls lower)) (char '(')) (plus any) (char ')') descriptor).getD []

/-- `LayerFactory::ExtractLayerType` (src/net/LayerFactory.cpp:59-73), `([a-z]+)(\(.*\))?`. -/
def extractLayerType (descriptor : Str) : Str :=
  (capture .eps (plus (.cls lower))
    (opt (.seq (char '(') (.seq (.star any) (char ')')))) descriptor).getD []

/-- The layer classes the factory knows. -/
inductive LayerClass
  | convolution | maxPooling | advancedMaxPooling | tanh | sigmoid | relu
  | gradientAccumulation | resize | hmax
deriving DecidableEq, Repr

/-- `LayerFactory::ConstructLayer` (src/net/LayerFactory.cpp:75-100): the class and the
configuration text handed to its constructor, or the null pointer.  The constructors only read
parameters from the text (`param`, `parseKernelSize`). -/
def constructLayer (descriptor : Str) : Option (LayerClass × Str) :=
  if !isValidDescriptor descriptor then none
  else
    let configuration := extractConfiguration descriptor
    let layertype := extractLayerType descriptor
    if layertype.length = 0 then none
    else if layertype = "convolution".toList then some (.convolution, configuration)
    else if layertype = "maxpooling".toList then some (.maxPooling, configuration)
    else if layertype = "amaxpooling".toList then some (.advancedMaxPooling, configuration)
    else if layertype = "tanh".toList then some (.tanh, configuration)
    else if layertype = "sigm".toList then some (.sigmoid, configuration)
    else if layertype = "relu".toList then some (.relu, configuration)
    else if layertype = "gradientaccumulation".toList then
      some (.gradientAccumulation, configuration)
    else if layertype = "resize".toList then some (.resize, configuration)
    else if layertype = "hmax".toList then some (.hmax, configuration)
    else none

/-- Decimal digits, as written by `operator<<` for an unsigned number. -/
def digitsOf (n : Nat) : Str := Nat.toDigits 10 n

/-- `.*seed=[0-9]+.*` (src/net/LayerFactory.cpp:104). -/
def hasSeedRE : RE :=
  .seq (.star any) (.seq (lit "seed=".toList) (.seq (plus (.cls digit)) (.star any)))
/-- `seed=([0-9])+` (src/net/LayerFactory.cpp:105). -/
def newSeedRE : RE := .seq (lit "seed=".toList) (plus (.cls digit))

/-- `LayerFactory::InjectSeed` (src/net/LayerFactory.cpp:102-137). -/
def injectSeed (descriptor : Str) (seed : Nat) : Str :=
  if isValidDescriptor descriptor then
    let configuration := extractConfiguration descriptor
    let layertype := extractLayerType descriptor
    let seedText := "seed=".toList ++ digitsOf seed
    if hasSeedRE.isMatch configuration then replaceAll newSeedRE seedText descriptor
    else layertype ++ ['('] ++
      (if configuration.length > 0 then configuration ++ [' '] else []) ++ seedText ++ [')']
  else descriptor

/-- The integer members of a convolution layer built from a configuration text
(src/net/ConvolutionLayer.cpp:72-99, include/cn24/net/ConvolutionLayer.h:85-110).  `randSeed` is
the seed of the member `rand_`; the constructor reads `seed` into a local variable only, so that
`rand_` keeps the default seed of `std::mt19937`. -/
structure ConvConfig where
  kernel : Nat × Nat
  outputMaps : Nat
  stride : Nat × Nat
  pad : Nat × Nat
  group : Nat
  randSeed : Nat
deriving DecidableEq, Repr

def convolutionFromConfig (configuration : Str) : Option ConvConfig :=
  (parseKernelSize configuration "size".toList (0, 0)).bind fun kernel =>
  (parseKernelSize configuration "stride".toList (1, 1)).bind fun stride =>
  (parseKernelSize configuration "pad".toList (0, 0)).bind fun pad =>
  (parseCount configuration "kernels".toList 0).bind fun outputMaps =>
  (parseCount configuration "group".toList 1).bind fun group =>
  (parseCount configuration "seed".toList 0).map fun _seed =>
    { kernel, outputMaps, stride, pad, group, randSeed := 5489 }

end CN24.Config
