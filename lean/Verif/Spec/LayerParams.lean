import Verif.Spec.Config

/-
The specification vocabulary for layers made from a descriptor, independent of the model: a
descriptor is a layer type with parameters, a parameter has a name and a value that is a number, a
pair of numbers or a word; what layer such a descriptor stands for.
-/

namespace CN24.LayerParams
open CN24.Config

/-- What a user writes as the value of a parameter: `7`, `3x5`, `0.25`. -/
inductive Value
  | count (n : Nat)
  | size (a b : Nat)
  | word (s : Str)
deriving DecidableEq, Repr

def Value.text : Value → Str
  | .count n => Nat.toDigits 10 n
  | .size a b => Nat.toDigits 10 a ++ 'x' :: Nat.toDigits 10 b
  | .word s => s

inductive Kind
  | count | size | word
deriving DecidableEq, Repr

def Value.kind : Value → Kind
  | .count _ => .count
  | .size _ _ => .size
  | .word _ => .word

/-- Numbers an `int` can hold, words of letters, digits and dots. -/
def Value.Ok : Value → Prop
  | .count n => n ≤ 2147483647
  | .size a b => a ≤ 2147483647 ∧ b ≤ 2147483647
  | .word s => s ≠ [] ∧ ∀ c ∈ s, alnumDot c = true

abbrev Params := List (Str × Value)

/-- The value of the first parameter with this name. -/
def first (name : Str) : Params → Option Value
  | [] => none
  | (k, v) :: ps => if k = name then some v else first name ps

def countGiven (ps : Params) (name : String) (default : Nat) : Nat :=
  match first name.toList ps with
  | some (.count n) => n
  | _ => default

def sizeGiven (ps : Params) (name : String) (default : Nat × Nat) : Nat × Nat :=
  match first name.toList ps with
  | some (.size a b) => (a, b)
  | _ => default

/-- The word, or the number as a word (`llr=2`). -/
def wordGiven (ps : Params) (name : String) : Option Str :=
  match first name.toList ps with
  | some (.word s) => some s
  | some (.count n) => some (Nat.toDigits 10 n)
  | _ => none

/-- The layers a descriptor can stand for, with their parameters. -/
inductive Layer (D : Type _)
  | convolution (kernel stride pad : Nat × Nat) (kernels group : Nat) (dropout learningRate : D)
  | maxPooling (region : Nat × Nat)
  | advancedMaxPooling (region stride : Nat × Nat)
  | tanh | sigmoid | relu
  | gradientAccumulation (outputs : Nat)
  | resize (border : Nat × Nat)
  | hmax (mu weight : D)
deriving DecidableEq, Repr

/-- The layer a type with parameters stands for: every parameter has the value written under its
name, and its default if the name does not occur.  The stride of the second kind of pooling is its
region unless given. -/
def described {D : Type _} (conv : Str → D) (zero one : D) (type : Str) (ps : Params) : Option (Layer D) :=
  let number (name : String) (default : D) := ((wordGiven ps name).map conv).getD default
  if type = "convolution".toList then
    some (.convolution (sizeGiven ps "size" (0, 0)) (sizeGiven ps "stride" (1, 1)) (sizeGiven ps "pad" (0, 0))
      (countGiven ps "kernels" 0) (countGiven ps "group" 1) (number "dropout" zero) (number "llr" one))
  else if type = "maxpooling".toList then some (.maxPooling (sizeGiven ps "size" (1, 1)))
  else if type = "amaxpooling".toList then
    some (.advancedMaxPooling (sizeGiven ps "size" (1, 1)) (sizeGiven ps "stride" (sizeGiven ps "size" (1, 1))))
  else if type = "tanh".toList then some .tanh
  else if type = "sigm".toList then some .sigmoid
  else if type = "relu".toList then some .relu
  else if type = "gradientaccumulation".toList then
    some (.gradientAccumulation (countGiven ps "outputs" 0))
  else if type = "resize".toList then some (.resize (sizeGiven ps "border" (0, 0)))
  else if type = "hmax".toList then some (.hmax (number "mu" one) (number "weight" zero))
  else none

/-- The names a reader of parameters knows, with the kinds of value they take. -/
abbrev Vocabulary := List (String × List Kind)

/-- Parameters that fit a vocabulary: values of the kind the name takes, and no name that merely ends
in a known one. -/
structure Typed (known : Vocabulary) (ps : Params) : Prop where
  name_plain : ∀ p ∈ ps, '=' ∉ p.1 ∧ ' ' ∉ p.1
  value_ok : ∀ p ∈ ps, p.2.Ok
  kinds : ∀ p ∈ ps, ∀ n k, (n, k) ∈ known → n.toList <:+ p.1 → p.1 = n.toList ∧ p.2.kind ∈ k

/-- The names the layers know. -/
def vocabulary : Vocabulary :=
  [("size", [.size]), ("stride", [.size]), ("pad", [.size]), ("kernels", [.count]),
   ("group", [.count]), ("seed", [.count]), ("dropout", [.count, .word]), ("llr", [.count, .word]),
   ("outputs", [.count]), ("border", [.size]), ("mu", [.count, .word]), ("weight", [.count, .word])]

/-- A descriptor as documented: names of lower-case letters, parameters that fit the vocabulary. -/
structure Documented (type : Str) (ps : Params) : Prop extends Typed vocabulary ps where
  type_ne : type ≠ []
  type_lower : ∀ c ∈ type, lower c = true
  name_ne : ∀ p ∈ ps, p.1 ≠ []
  name_lower : ∀ p ∈ ps, ∀ c ∈ p.1, lower c = true

/-- The descriptor spells this type and these parameters: `type(name=value name=value ...)`, or just
`type` if there are none. -/
def Spells (d : Descr) (type : Str) (ps : Params) : Prop :=
  d.name = type ∧ d.params.getD [] = ps.map fun p => (p.1, p.2.text)

end CN24.LayerParams
