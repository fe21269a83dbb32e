import Mathlib.Algebra.Order.Field.Basic

/-!
The localised error function of the KITTI data sets (src/util/KITTIData.cpp:82-100).

The macros WSC and HSC scale a length of the 1226 x 370 reference image; their `datum` product may
round, so the error function is modelled over arbitrary scaling functions, and `kittiError` uses the
exact ones.  `datum` arithmetic is exact arithmetic in an ordered field.
-/

namespace CN24.Kitti
variable {R : Type _} [Field R] [LinearOrder R]

/-- `fmax(1.0, fmin(7.0, v))` (src/util/KITTIData.cpp:93). -/
def clamp (v : R) : R := max 1 (min 7 v)

/-- `quotient` (src/util/KITTIData.cpp:92-93). -/
def quotient (hsc : Nat → Nat) (y : Nat) : R :=
  if y ≤ hsc 170 then 7 else clamp ((hsc 200 : R) / ((y : R) - (hsc 170 : R)))

/-- `distance` (src/util/KITTIData.cpp:85-86). -/
def distance (wsc : Nat → Nat) (x : Nat) : Nat := wsc ((wsc 613 : Int) - (x : Int)).natAbs

/-- `xy_allowed` (src/util/KITTIData.cpp:87). -/
def xyAllowed (wsc hsc : Nat → Nat) (x y : Nat) : R :=
  if (distance wsc x : Int) > 3 * ((y : Int) - (hsc 140 : Int)) then 0 else 1

/-- `y_factor` (src/util/KITTIData.cpp:88). -/
def yFactor (hsc : Nat → Nat) (y : Nat) : R := if y > hsc 190 then 1 else 0

/-- `LocalizedError` (src/util/KITTIData.cpp:84-98). -/
def localizedError (wsc hsc : Nat → Nat) (x y : Nat) : R :=
  51 / 100 * (1 / 4 + (quotient hsc y ^ 2 - 1 / 4) * (xyAllowed wsc hsc x y * yFactor hsc y))

/-- `LocalizedError` with exact scaling (src/util/KITTIData.cpp:82-83). -/
def kittiError (x y w h : Nat) : R :=
  localizedError (fun v => v * w / 1226) (fun v => v * h / 370) x y

end CN24.Kitti
