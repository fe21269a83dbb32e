import Verif.Model.StepRounding

/-
The remaining operations on `float` with overflow that an update of a weight needs.
-/

namespace CN24.Checked
open CN24

/-- Negation of a finite number is finite. -/
instance : Neg Checked := ⟨fun a => Option.map (fun x => -x) a⟩

/-- Division; a division by zero gives no finite number. -/
instance : Div Checked := ⟨fun a b =>
  Option.bind a fun x => Option.bind b fun y => if y = 0 then overflow else check (x / y)⟩

/-- Conversion of a natural number. -/
instance instNatCast : NatCast Checked := ⟨fun n => check n⟩

/-- Comparison of finite numbers.  (An infinity is comparable in C++; here every comparison with it is false, which no theorem
uses.) -/
instance : LT Checked := ⟨fun a b => ∃ x y : Single, a = of x ∧ b = of y ∧ x < y⟩

theorem of_lt {x y : Single} : of x < of y ↔ x < y := by
  refine ⟨fun ⟨a, b, h1, h2, h⟩ => ?_, fun h => ⟨x, y, rfl, rfl, h⟩⟩
  cases h1
  cases h2
  exact h

instance : DecidableLT Checked := fun a b =>
  match a, b with
  | some x, some y => decidable_of_iff (x < y) of_lt.symm
  | none, _ => isFalse fun ⟨_, _, h, _, _⟩ => by cases h
  | some _, none => isFalse fun ⟨_, _, _, h, _⟩ => by cases h

end CN24.Checked

namespace CN24.StepRounding
open CN24

/-- The settings as numbers with overflow. -/
def Rule.checked (r : Rule Single) : Rule Checked :=
  ⟨.of r.lr, .of r.layerLr, .of r.l1, .of r.l2, .of r.momentum, .of r.lossSampling, r.count⟩

end CN24.StepRounding
