/-
The specification vocabulary for configuration text, independent of the model: lines of words,
`key=value` pairs, layer descriptors as data and their text.
-/

namespace CN24.Config

abbrev Str := List Char

/-- Words separated by single spaces. -/
def joinSp : List Str → Str
  | [] => []
  | [w] => w
  | w :: v :: ws => w ++ ' ' :: joinSp (v :: ws)

/-- Lower-case letters. -/
def lower (c : Char) : Bool := 'a' ≤ c && c ≤ 'z'

/-- Letters, digits and dots. -/
def alnumDot (c : Char) : Bool :=
  ('a' ≤ c && c ≤ 'z') || ('A' ≤ c && c ≤ 'Z') || ('0' ≤ c && c ≤ '9') || c = '.'

/-! ## Descriptors as data -/

def pairText (p : Str × Str) : Str := p.1 ++ '=' :: p.2

/-- A layer descriptor: a name and, if there are parentheses, the parameters in them. -/
structure Descr where
  name : Str
  params : Option (List (Str × Str))
deriving DecidableEq, Repr

/-- The text of a descriptor: `name`, or `name(key=value key=value ...)`. -/
def Descr.text (d : Descr) : Str :=
  match d.params with
  | none => d.name
  | some ps => d.name ++ '(' :: (joinSp (ps.map pairText) ++ [')'])

/-- The grammar: lower-case names and keys, values over the alphabet `V`, nothing empty. -/
def PairOk (V : Char → Bool) (p : Str × Str) : Prop :=
  p.1 ≠ [] ∧ (∀ c ∈ p.1, lower c = true) ∧ p.2 ≠ [] ∧ ∀ c ∈ p.2, V c = true

structure Descr.Ok (V : Char → Bool) (d : Descr) : Prop where
  name_ne : d.name ≠ []
  name_lower : ∀ c ∈ d.name, lower c = true
  pairs : ∀ ps, d.params = some ps → ∀ p ∈ ps, PairOk V p

/-- The text between the parentheses. -/
def Descr.config (d : Descr) : Str := joinSp ((d.params.getD []).map pairText)

end CN24.Config
