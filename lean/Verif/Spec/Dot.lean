/-
What Graphviz makes of a text: words and signs, statements, boxes with fields (shape "record") and arrows.  Written after
the description of the DOT language (https://graphviz.org/doc/info/lang.html), for the part of it without subgraphs,
comments, default attributes of nodes and edges, and escapes in strings; texts that use them are not read.
-/

namespace CN24.Dot

abbrev Text := List Char

inductive Token where
  | word (s : Text)
  | quoted (s : Text)
  | lbrack | rbrack | lbrace | rbrace | equals | comma | semi | colon | arrow
  deriving DecidableEq, Repr

/-- Where the reader is: between words, in a word, in a string, or behind the first sign of an arrow; with what was read of
the word, last character first. -/
inductive Mode where
  | between
  | inWord (read : Text)
  | inString (read : Text)
  | inArrow
  deriving DecidableEq

/-- Characters of words and numbers. -/
def wordChar (c : Char) : Bool := c.isAlpha || c.isDigit || c == '_' || c == '.'

/-- What a character between words starts. -/
def start (c : Char) : Option (List Token × Mode) :=
  if c = ' ' ∨ c = '\n' then some ([], .between)
  else if c = '[' then some ([.lbrack], .between)
  else if c = ']' then some ([.rbrack], .between)
  else if c = '{' then some ([.lbrace], .between)
  else if c = '}' then some ([.rbrace], .between)
  else if c = '=' then some ([.equals], .between)
  else if c = ',' then some ([.comma], .between)
  else if c = ';' then some ([.semi], .between)
  else if c = ':' then some ([.colon], .between)
  else if c = '-' then some ([], .inArrow)
  else if c = '"' then some ([], .inString [])
  else if wordChar c then some ([], .inWord [c])
  else none

/-- The words and signs of a text. -/
def tokens : Mode → Text → Option (List Token)
  | .between, [] => some []
  | .inWord w, [] => some [.word w.reverse]
  | .inString _, [] => none
  | .inArrow, [] => none
  | .between, c :: cs => (start c).bind fun r => (tokens r.2 cs).map (r.1 ++ ·)
  | .inWord w, c :: cs =>
    if wordChar c then tokens (.inWord (c :: w)) cs
    else (start c).bind fun r => (tokens r.2 cs).map fun ts => .word w.reverse :: (r.1 ++ ts)
  | .inString s, c :: cs =>
    if c = '"' then (tokens .between cs).map (.quoted s.reverse :: ·)
    else if c = '\\' then none
    else tokens (.inString (c :: s)) cs
  | .inArrow, c :: cs => if c = '>' then (tokens .between cs).map (.arrow :: ·) else none

abbrev Attributes := List (Text × Text)

/-- Attributes up to the closing bracket: `a=b`, with or without commas between them. -/
def attributes : List Token → Option (Attributes × List Token)
  | .rbrack :: ts => some ([], ts)
  | .word a :: .equals :: .word b :: .comma :: ts => (attributes ts).map fun r => ((a, b) :: r.1, r.2)
  | .word a :: .equals :: .quoted b :: .comma :: ts => (attributes ts).map fun r => ((a, b) :: r.1, r.2)
  | .word a :: .equals :: .word b :: ts => (attributes ts).map fun r => ((a, b) :: r.1, r.2)
  | .word a :: .equals :: .quoted b :: ts => (attributes ts).map fun r => ((a, b) :: r.1, r.2)
  | _ => none

inductive Statement where
  | graph (a : Attributes)
  | node (name : Text) (a : Attributes)
  | edge (source sourcePort target targetPort : Text) (a : Attributes)
  deriving DecidableEq, Repr

/-- Words with a meaning of their own, whatever the case of their letters. -/
def keywords : List Text := ["node", "edge", "graph", "digraph", "subgraph", "strict"].map String.toList

def isKeyword (w : Text) : Bool := keywords.contains (w.map Char.toLower)

/-- A name: a word that is not a keyword and does not begin like a number. -/
def isName (w : Text) : Bool :=
  !w.isEmpty && w.all (fun c => wordChar c && c != '.') && !(w.headD '0').isDigit && !isKeyword w

/-- A statement up to its semicolon. -/
def statement : List Token → Option (Statement × List Token)
  | .word a :: .lbrack :: ts =>
    (attributes ts).bind fun r => match r.2 with
      | .semi :: rest =>
        if a = "graph".toList then some (.graph r.1, rest) else if isName a then some (.node a r.1, rest) else none
      | _ => none
  | .word a :: .colon :: .word p :: .arrow :: .word b :: .colon :: .word q :: .lbrack :: ts =>
    (attributes ts).bind fun r => match r.2 with
      | .semi :: rest => if isName a ∧ isName b then some (.edge a p b q r.1, rest) else none
      | _ => none
  | _ => none

/-- Statements up to the closing brace, which must be the end; at most `limit` of them. -/
def statements : (limit : Nat) → List Token → Option (List Statement)
  | 0, _ => none
  | limit + 1, ts =>
    if ts = [.rbrace] then some []
    else (statement ts).bind fun r => (statements limit r.2).map (r.1 :: ·)

/-- The statements of a file.  There are fewer statements than tokens. -/
def file (text : Text) : Option (List Statement) :=
  (tokens .between text).bind fun ts => match ts with
    | .word d :: .word _ :: .lbrace :: rest => if d = "digraph".toList then statements (rest.length + 1) rest else none
    | _ => none

/-! ### Drawing -/

/-- A text cut at the characters given. -/
def cut (sep : Char → Bool) : Text → List Text
  | [] => [[]]
  | c :: cs => if sep c then [] :: cut sep cs else match cut sep cs with
    | [] => [[c]]
    | p :: ps => (c :: p) :: ps

/-- The words of a text. -/
def words (s : Text) : List Text := (cut (· = ' ') s).filter fun w => !w.isEmpty

/-- A field of a box: the name of its port and its words. -/
structure Field where
  port : Text
  words : List Text
  deriving DecidableEq, Repr

/-- A field `<port> words`; blank ones are left out (outer option), others than these are not read (inner option). -/
def field (s : Text) : Option (Option Field) :=
  match s.dropWhile (· = ' ') with
  | [] => none
  | '<' :: cs => some (if '>' ∈ cs then some ⟨cs.takeWhile (· ≠ '>'), words ((cs.dropWhile (· ≠ '>')).drop 1)⟩ else none)
  | _ => some none

/-- The fields of a label of shape record, which braces and bars separate. -/
def fields (label : Text) : Option (List Field) :=
  ((cut (fun c => c = '{' || c = '}' || c = '|') label).filterMap field).mapM id

/-- A box. -/
structure Box where
  name : Text
  colours : List Text
  fields : List Field
  deriving DecidableEq, Repr

/-- An arrow from a field of a box to a field of a box. -/
structure Arrow where
  source : Text
  sourcePort : Text
  target : Text
  targetPort : Text
  dotted : Bool
  deriving DecidableEq, Repr

/-- All values of an attribute. -/
def valuesOf (a : Attributes) (key : String) : List Text := (a.filter fun x => x.1 = key.toList).map (·.2)

/-- The boxes and arrows of a file, in its order. -/
def draw : List Statement → Option (List Box × List Arrow)
  | [] => some ([], [])
  | .graph _ :: ss => draw ss
  | .node n a :: ss =>
    if valuesOf a "shape" = ["record".toList] then
      match valuesOf a "label" with
      | [l] => (fields l).bind fun fs => (draw ss).map fun r => (⟨n, valuesOf a "color", fs⟩ :: r.1, r.2)
      | _ => none
    else none
  | .edge s p t q a :: ss =>
    (draw ss).map fun r => (r.1, ⟨s, p, t, q, valuesOf a "style" = ["dotted".toList]⟩ :: r.2)

/-- What Graphviz draws for a text. -/
def drawing (text : Text) : Option (List Box × List Arrow) := (file text).bind draw

end CN24.Dot
