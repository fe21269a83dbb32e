import Verif.Model.StatLayers
import Verif.Model.Config
import Mathlib.Algebra.Order.Floor.Ring

/-
The report that `ConfusionMatrixLayer::Print` (src/net/ConfusionMatrixLayer.cpp:224-288) writes to the standard output.
The text of a percentage (a `long double` in the default format of a stream) is a parameter `num`; counts are written by the
model.  `long double` is an ordered field, as in Model/StatLayers.lean.
-/

namespace CN24.MatrixReport
open CN24 CN24.Config CN24.ConfusionMatrix

/-- The names as the constructor keeps them (src/net/ConfusionMatrixLayer.cpp:22-27). -/
def shorten (name : Str) : Str := if 11 < name.length then name.take 8 ++ "...".toList else name

/-- `std::setw(12) << s`: filled with blanks on the left to twelve characters. -/
def setw (s : Str) : Str := List.replicate (12 - s.length) ' ' ++ s

/-- One line: `LOGRESULT << text << LOGRESULTEND` or the same with `LOGTRESULT` (include/cn24/util/Log.h:62-64). -/
def result (training : Bool) (text : Str) : Str :=
  '\n' :: ((if training then "\x1b[1;34mRESULT --- " else "\x1b[1;32mRESULT --- ").toList ++ text ++ "\x1b[0m".toList)

/-- The text of an integer. -/
def integer (k : Int) : Str := if k < 0 then '-' :: digitsOf k.natAbs else digitsOf k.natAbs

section
variable {R : Type _} [Field R] [LinearOrder R] [FloorRing R]

/-- `static_cast<long>` (src/net/ConfusionMatrixLayer.cpp:242): towards zero, undefined if the result is no `long`. -/
def toLong (v : R) : Option Int :=
  let k := if 0 ≤ v then ⌊v⌋ else ⌈v⌉
  if -(2 ^ 63) ≤ k ∧ k < 2 ^ 63 then some k else none

/-- The first line (src/net/ConfusionMatrixLayer.cpp:226-231). -/
def caption (names : List Str) (classes : Nat) : Option Str :=
  forLoop classes (fun c text => (rd names c).map fun name => text ++ setw name) (setw "vCLS  ACT>".toList)

/-- The line of a class (src/net/ConfusionMatrixLayer.cpp:238-243). -/
def row (names : List Str) (classes : Nat) (matrix : List R) (t : Nat) : Option Str :=
  (rd names t).bind fun name =>
  forLoop classes (fun c text =>
    (rd matrix (t * classes + c)).bind fun v =>
    (toLong v).map fun k => text ++ setw (integer k)) (setw name)

/-- The line of a rate (src/net/ConfusionMatrixLayer.cpp:253-257 and 279-283). -/
def rate (num : R → Str) (pre name kind : Str) (r : R) : Str :=
  pre ++ (setw name ++ kind ++ setw (num (r * 100)) ++ "%".toList)

/-- `Print` (src/net/ConfusionMatrixLayer.cpp:224-288).  Before `Connect` the counters are null pointers. -/
def print (num : R → Str) (pre : Str) (training : Bool) (names : List Str) (st : State R) : Option Str :=
  st.counters.bind fun counters =>
  (caption names st.classes).bind fun head =>
  (forLoop st.classes (fun t out =>
    (row names st.classes counters.1 t).map fun line => out ++ result training line) (result training head)).bind fun out =>
  (forLoop st.classes (fun c out =>
    (rd counters.2 c).bind fun n =>
    if 0 < n then
      (rd counters.1 (c * st.classes + c)).bind fun v =>
      (rd names c).map fun name => out ++ result training (rate num pre name " RR: ".toList (v / n))
    else some out) out).bind fun out =>
  (forLoop st.classes (fun t s =>
    (forLoop st.classes (fun c unionn =>
      if c ≠ t then
        (rd counters.1 (t * st.classes + c)).bind fun a =>
        (rd counters.1 (c * st.classes + t)).map fun b => unionn + a + b
      else some unionn) 0).bind fun unionn =>
    (rd counters.1 (t * st.classes + t)).bind fun d =>
    (rd names t).map fun name =>
      let iu := if 0 < unionn + d then d / (unionn + d) else 0
      (s.1 + iu, s.2 ++ result training (rate num pre name " IU: ".toList iu))) (0, out)).map fun s =>
  s.2 ++ result training (pre ++ " Average intersection over union          : ".toList ++
    num (100 * s.1 / (st.classes : R)) ++ "%".toList)

/-- The layer made from the names of the data set (src/net/ConfusionMatrixLayer.cpp:16-27) prints its state. -/
def report (num : R → Str) (pre : Str) (training : Bool) (names : List Str) (st : State R) : Option Str :=
  print num pre training (names.map shorten) st

end
end CN24.MatrixReport
