/-
The three ways a C++ function can end: normally, by `FATAL` (an exception,
include/cn24/util/Log.h), or in undefined behaviour.
-/

namespace CN24

/-- Result of a function that may throw and may be undefined. -/
inductive Outcome (α : Type _) where
  | done (a : α)
  | fatal
  | undefined
  deriving DecidableEq, Repr

namespace Outcome
variable {α β : Type _}

/-- A computation that cannot throw. -/
def ofOption : Option α → Outcome α
  | some a => done a
  | none => undefined

/-- Sequencing. -/
def bind (o : Outcome α) (f : α → Outcome β) : Outcome β :=
  match o with
  | done a => f a
  | fatal => fatal
  | undefined => undefined

@[simp] theorem ofOption_some (a : α) : ofOption (some a) = done a := rfl
@[simp] theorem ofOption_none : ofOption (none : Option α) = undefined := rfl
@[simp] theorem bind_done (a : α) (f : α → Outcome β) : (done a).bind f = f a := rfl
@[simp] theorem bind_fatal (f : α → Outcome β) : (fatal : Outcome α).bind f = fatal := rfl
@[simp] theorem bind_undefined (f : α → Outcome β) :
    (undefined : Outcome α).bind f = undefined := rfl

theorem ofOption_eq_done {o : Option α} {a : α} : ofOption o = done a ↔ o = some a := by
  cases o <;> simp [ofOption]

end Outcome
end CN24

namespace CN24

/-- `for (i = 0; i < n; i++) s = f i s` for a body that may throw. -/
def forO {α : Type _} : Nat → (Nat → α → Outcome α) → α → Outcome α
  | 0, _, s => .done s
  | n + 1, f, s => (forO n f s).bind (f n)

/-- Loop invariant rule: every iteration succeeds and keeps the invariant. -/
theorem forO_inv {α : Type _} (P : Nat → α → Prop) {n : Nat} {f : Nat → α → Outcome α} {s : α}
    (h0 : P 0 s) (hstep : ∀ i s, i < n → P i s → ∃ s', f i s = .done s' ∧ P (i + 1) s') :
    ∃ s', forO n f s = .done s' ∧ P n s' := by
  induction n with
  | zero => exact ⟨s, rfl, h0⟩
  | succ n ih =>
    obtain ⟨s1, h1, h2⟩ := ih (fun i s hi => hstep i s (by omega))
    obtain ⟨s2, h3, h4⟩ := hstep n s1 (by omega) h2
    exact ⟨s2, by simp [forO, h1, h3], h4⟩

end CN24
