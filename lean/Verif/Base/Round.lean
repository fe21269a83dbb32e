import Mathlib.Algebra.Order.Field.Rat
import Mathlib.Data.Rat.Floor

/-
Rounding of exact results to single precision numbers.
-/

namespace CN24

/-- A natural number rounded to 24 significant bits, ties to even. -/
def round24 (m : Nat) : Nat :=
  let s := m.log2 + 1 - 24
  let q := m / 2 ^ s
  let r := m % 2 ^ s
  (if 2 ^ s < 2 * r ∨ (2 * r = 2 ^ s ∧ q % 2 = 1) then q + 1 else q) * 2 ^ s

/-- The single precision number nearest to a number whose denominator is a power of two.  Overflow and
denormal numbers are not modelled: there are none between 2^-126 and 2^128. -/
def fl (v : ℚ) : ℚ :=
  if 0 ≤ v.num then (round24 v.num.toNat : ℚ) / v.den else -(round24 (-v.num).toNat : ℚ) / v.den

end CN24
