import Mathlib.Order.Basic
import Mathlib.Algebra.Order.Field.Rat

/-
Floating point numbers with rounding.
-/

namespace CN24

/-- A natural number divided by `2^s` and rounded to the nearest whole number, ties to even. -/
def roundShift (s m : Nat) : Nat :=
  let q := m / 2 ^ s
  let r := m % 2 ^ s
  if 2 ^ s < 2 * r ∨ (2 * r = 2 ^ s ∧ q % 2 = 1) then q + 1 else q

/-- A natural number rounded to `p` significant bits, ties to even. -/
def roundBits (p m : Nat) : Nat := roundShift (m.log2 + 1 - p) m * 2 ^ (m.log2 + 1 - p)

/-- A number of `2^-(2e)` rounded to `p` significant bits, but not more precisely than to multiples of `2^-e`, as such a
multiple. -/
def roundProduct (p e m : Nat) : Nat :=
  let s := max (m.log2 + 1 - p) e
  roundShift s m * 2 ^ (s - e)

/-- A quotient rounded to the nearest whole number, ties to even. -/
def roundDiv (n d : Nat) : Nat :=
  let q := n / d
  let r := n % d
  if d < 2 * r ∨ (2 * r = d ∧ q % 2 = 1) then q + 1 else q

/-- A quotient rounded to a whole number with `p` significant bits, ties to even. -/
def roundQuotient (p n d : Nat) : Nat :=
  let s := (n / d).log2 + 1 - p
  roundDiv n (d * 2 ^ s) * 2 ^ s

/-- An integer rounded to `p` significant bits, ties to even. -/
def roundInt (p : Nat) (i : Int) : Int := if 0 ≤ i then roundBits p i.toNat else -roundBits p (-i).toNat

/-- A floating point number with `p` significant bits.  `units` counts multiples of the smallest positive (denormal)
number, `2^-e`; every finite number of the format is such a multiple.  Not every multiple is a number of the format: the
type is larger, the results of operations are always numbers of the format.  That larger numbers than the largest of the format
become infinite is not modelled. -/
structure Flt (p e : Nat) where
  units : Int
  deriving DecidableEq

namespace Flt
variable {p e : Nat}

/-- The number. -/
def value (a : Flt p e) : ℚ := a.units / 2 ^ e

instance : Zero (Flt p e) := ⟨⟨0⟩⟩

instance : One (Flt p e) := ⟨⟨2 ^ e⟩⟩

/-- IEEE 754 addition in the default rounding mode: the sum is a whole number of units, so that rounding it to `p` bits
also treats denormal numbers correctly. -/
instance : Add (Flt p e) := ⟨fun a b => ⟨roundInt p (a.units + b.units)⟩⟩

/-- IEEE 754 subtraction. -/
instance : Sub (Flt p e) := ⟨fun a b => ⟨roundInt p (a.units - b.units)⟩⟩

/-- IEEE 754 multiplication in the default rounding mode: the exact product is a multiple of `2^-(2e)`. -/
instance : Mul (Flt p e) := ⟨fun a b =>
  ⟨if 0 ≤ a.units * b.units then roundProduct p e (a.units * b.units).toNat
    else -roundProduct p e (-(a.units * b.units)).toNat⟩⟩

/-- IEEE 754 negation is exact. -/
instance : Neg (Flt p e) := ⟨fun a => ⟨-a.units⟩⟩

/-- The conversion of a natural number. -/
instance : NatCast (Flt p e) := ⟨fun n => ⟨roundBits p (n * 2 ^ e)⟩⟩

/-- IEEE 754 division by a number other than zero: the exact quotient is `n * 2^e / d` units.  (Division by zero is zero here,
which is not what the standard says; no theorem uses it.) -/
instance : Div (Flt p e) := ⟨fun a b =>
  ⟨a.units.sign * b.units.sign * roundQuotient p (a.units.natAbs * 2 ^ e) b.units.natAbs⟩⟩

/-- Comparison is exact. -/
instance : LinearOrder (Flt p e) := LinearOrder.lift' units (fun a b h => by cases a; cases b; simp_all)

end Flt

/-- `float` (`datum`, include/cn24/util/Config.h:27). -/
abbrev Single := Flt 24 149

/-- A finite number of the format is smaller than 2^128. -/
def Single.Finite (a : Single) : Prop := a.units.natAbs < 2 ^ (128 + 149)

instance (a : Single) : Decidable a.Finite := by unfold Single.Finite; infer_instance

/-- `float` with overflow: `none` stands for an infinity or NaN. -/
def Checked := Option Single

namespace Checked

/-- A number of the format as such a result. -/
def of (a : Single) : Checked := some a

/-- The result of an operation that gave no number of the format: an infinity or NaN. -/
def overflow : Checked := none

/-- IEEE 754 in the default rounding mode: a result whose rounding without bound on the exponent is 2^128 or more is
infinite. -/
def check (a : Single) : Checked := if a.Finite then of a else overflow

/-- The operation, checked; sums, differences and products with an infinity or NaN are never finite. -/
def lift2 (f : Single → Single → Single) (a b : Checked) : Checked :=
  Option.bind a fun x => Option.bind b fun y => check (f x y)

instance : Zero Checked := ⟨some 0⟩
instance : One Checked := ⟨some 1⟩
instance : Add Checked := ⟨lift2 (· + ·)⟩
instance : Sub Checked := ⟨lift2 (· - ·)⟩
instance : Mul Checked := ⟨lift2 (· * ·)⟩
instance : DecidableEq Checked := inferInstanceAs (DecidableEq (Option Single))

end Checked

end CN24
