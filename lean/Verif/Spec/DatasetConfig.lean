import Verif.Spec.Config

/-
Dataset descriptions as data, and their text.
-/

namespace CN24.DatasetConfig
open CN24.Config

/-- A hexadecimal digit. -/
def hexChar (upper : Bool) (d : Nat) : Char :=
  if d < 10 then Char.ofNat (48 + d) else if upper then Char.ofNat (55 + d) else Char.ofNat (87 + d)

/-- A colour: `0x` and six digits. -/
def colorText (upper : Bool) (k : Nat) : Str :=
  ['0', 'x', hexChar upper (k / 1048576 % 16), hexChar upper (k / 65536 % 16), hexChar upper (k / 4096 % 16),
    hexChar upper (k / 256 % 16), hexChar upper (k / 16 % 16), hexChar upper (k % 16)]

/-- The parts of a description. -/
inductive Item
  | comment (s : Str)
  | training (file : Str)
  | testing (file : Str)
  | error (kitti : Bool)
  | classes (names : List Str)
  | colors (upper : Bool) (cs : List Nat)
  | weights (ws : List Str)

/-- The lines of a part. -/
def Item.lines : Item → List Str
  | .comment s => [s]
  | .training f => ["training=".toList ++ f]
  | .testing f => ["testing=".toList ++ f]
  | .error k => [if k then "localized_error=kitti".toList else "localized_error=default".toList]
  | .classes names => ("classes=".toList ++ Nat.toDigits 10 names.length) :: names
  | .colors upper cs => "colors".toList :: cs.map (colorText upper)
  | .weights ws => "weights".toList :: ws

/-- The words lines can start with. -/
def keywords : List Str := ["nommap".toList, "classes".toList, "colors".toList, "weights".toList,
  "localized_error".toList, "training".toList, "testing".toList]

/-- Texts stay in their line, comments start with no keyword, colours have 24 bits, weights are not blank. -/
def Item.Ok : Item → Prop
  | .comment s => '\n' ∉ s ∧ ∀ k ∈ keywords, ¬ k <+: s
  | .training f => '\n' ∉ f
  | .testing f => '\n' ∉ f
  | .error _ => True
  | .classes names => names.length < 2147483648 ∧ ∀ n ∈ names, '\n' ∉ n
  | .colors _ cs => ∀ c ∈ cs, c < 16777216
  | .weights ws => ∀ w ∈ ws, '\n' ∉ w ∧ ∃ c ∈ w, c ≠ ' ' ∧ c ≠ '\t' ∧ c ≠ '\r' ∧ c ≠ '\x0b' ∧ c ≠ '\x0c'

/-- The text of a description. -/
def text (items : List Item) : Str := (items.flatMap Item.lines).flatMap (· ++ ['\n'])

/-- The class names given in a part. -/
def Item.names? : Item → Option (List Str)
  | .classes names => some names
  | _ => none

/-- The colours given in a part. -/
def Item.colors? : Item → Option (List Nat)
  | .colors _ cs => some cs
  | _ => none

/-- The weights given in a part. -/
def Item.weights? : Item → Option (List Str)
  | .weights ws => some ws
  | _ => none

/-- The training file given in a part. -/
def Item.training? : Item → Option Str
  | .training f => some f
  | _ => none

/-- The testing file given in a part. -/
def Item.testing? : Item → Option Str
  | .testing f => some f
  | _ => none

/-- The error function given in a part. -/
def Item.error? : Item → Option Bool
  | .error k => some k
  | _ => none

end CN24.DatasetConfig
