import Verif.Spec.MatrixReport

/-
How a person or a script reads the statistics on the console: blue lines belong to training, green ones to testing, a
heading names the epoch, the lines below it are descriptions with values and units; everything else is no statistic.
-/

namespace CN24.ReadConsole
open CN24.ReadReport

/-- A line: description, value and unit. -/
structure Entry where
  description : Text
  value : Text
  unit : Text
  deriving DecidableEq, Repr

structure Report where
  training : Bool
  epoch : Option Nat
  entries : List Entry
  deriving DecidableEq, Repr

/-- Whether a line is a result, and of which colour. -/
def kind (line : Text) : Option Bool :=
  if line.take 18 = "\x1b[1;34mRESULT --- ".toList then some true
  else if line.take 18 = "\x1b[1;32mRESULT --- ".toList then some false
  else none

/-- Description, value and unit of a line. -/
def entry (s : Text) : Entry :=
  let rest := strip (((strip s).dropWhile (· ≠ ':')).drop 2)
  ⟨(strip s).takeWhile (· ≠ ':'), rest.takeWhile (· ≠ ' '), (rest.dropWhile (· ≠ ' ')).drop 1⟩

/-- Reading from the last line: the entries that belong to a heading further up, and the reports below. -/
def step (line : Text) (acc : List Entry × List Report) : List Entry × List Report :=
  match kind line with
  | none => acc
  | some training =>
    if (body line).take 16 = "Stats for epoch ".toList then
      ([], ⟨training, decimal (((body line).drop 16).takeWhile (· ≠ ':')), acc.1⟩ :: acc.2)
    else (entry (body line) :: acc.1, acc.2)

/-- The reports on the console. -/
def reports (text : Text) : List Report := ((split text).foldr step ([], [])).2

end CN24.ReadConsole
