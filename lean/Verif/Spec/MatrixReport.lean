/-
How a person or a script reads the report of a confusion matrix: lines, columns of twelve characters, decimal numbers.
Written without looking at how the report is made.
-/

namespace CN24.ReadReport

abbrev Text := List Char

/-- The lines of a text. -/
def split : Text → List Text
  | [] => [[]]
  | c :: cs =>
    if c = '\n' then [] :: split cs
    else match split cs with
      | [] => [[c]]
      | l :: ls => (c :: l) :: ls

/-- A line without the eighteen characters of "RESULT --- " with its colour and the four that end the colour. -/
def body (line : Text) : Text := (line.drop 18).take (line.length - 22)

/-- Without blanks in front. -/
def strip (s : Text) : Text := s.dropWhile (· = ' ')

/-- The entries of a line of a table with columns of twelve characters. -/
def cells (s : Text) : List Text := (List.range (s.length / 12)).map fun i => strip ((s.drop (12 * i)).take 12)

/-- A decimal number. -/
def decimal (s : Text) : Option Nat :=
  if s ≠ [] ∧ s.all Char.isDigit then some (s.foldl (fun n c => 10 * n + (c.toNat - 48)) 0) else none

/-- What the report tells. -/
structure Report where
  /-- names of the columns -/
  actual : List Text
  /-- for every row its name and the numbers -/
  rows : List (Text × List (Option Nat))
  /-- recognition rate by class -/
  recognition : List (Text × Text)
  /-- intersection over union by class -/
  intersection : List (Text × Text)
  /-- average intersection over union -/
  average : Text
  deriving DecidableEq

/-- Name and percentage of a line of the given kind. -/
def rate (pre kind line : Text) : Option (Text × Text) :=
  let s := line.drop pre.length
  if (s.drop 12).take 5 = kind then some (strip (s.take 12), (strip (s.drop 17)).takeWhile (· ≠ '%')) else none

/-- A row of the table. -/
def row (line : Text) : Text × List (Option Nat) := ((cells line).headD [], (cells line).tail.map decimal)

/-- The report of an epoch whose lines start with `pre` after the table. -/
def report (pre text : Text) : Option Report :=
  match (split text).tail.map body with
  | [] => none
  | head :: lines =>
    let actual := (cells head).tail
    let after := lines.drop actual.length
    some
      { actual
        rows := (lines.take actual.length).map row
        recognition := after.filterMap (rate pre " RR: ".toList)
        intersection := after.filterMap (rate pre " IU: ".toList)
        average := ((lines.getLastD []).drop (pre.length + 44)).takeWhile (· ≠ '%') }

end CN24.ReadReport
