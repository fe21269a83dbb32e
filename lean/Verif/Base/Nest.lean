import Verif.Base.Kernel

/-
Loop nests that visit every coordinate of a tensor once, and loops over several tensors at a time.
-/

namespace CN24

/-- Both computations succeed. -/
def both {α β : Type _} (a : Option α) (b : Option β) : Option (α × β) :=
  a.bind fun x => b.map fun y => (x, y)

@[simp] theorem both_some {α β : Type _} (a : α) (b : β) : both (some a) (some b) = some (a, b) := rfl

/-- A loop over a pair whose body treats the components separately is a pair of loops. -/
theorem forLoop_both {α β : Type _} {n : Nat} {f : Nat → α × β → Option (α × β)}
    {g : Nat → α → Option α} {h : Nat → β → Option β}
    (hf : ∀ i a b, i < n → f i (a, b) = both (g i a) (h i b)) (a : α) (b : β) :
    forLoop n f (a, b) = both (forLoop n g a) (forLoop n h b) := by
  induction n with
  | zero => rfl
  | succ n ih =>
    rw [forLoop_succ, forLoop_succ, forLoop_succ, ih (fun i a b hi => hf i a b (by omega))]
    cases forLoop n g a with
    | none => rfl
    | some a' =>
      cases forLoop n h b with
      | none =>
        show none = both (g n a') none
        cases g n a' <;> rfl
      | some b' => exact hf n a' b' (by omega)

/-- Nested loops in one. -/
theorem forLoop_flatten {σ : Type _} (a b : Nat) (f : Nat → Nat → σ → Option σ) (s : σ) :
    forLoop a (fun i => forLoop b (f i)) s = forLoop (a * b) (fun k => f (k / b) (k % b)) s := by
  induction a with
  | zero => simp
  | succ a ih =>
    rw [forLoop_succ, ih, Nat.succ_mul]
    have key : ∀ c, c ≤ b → (forLoop (a * b) (fun k => f (k / b) (k % b)) s).bind (forLoop c (f a)) =
        forLoop (a * b + c) (fun k => f (k / b) (k % b)) s := by
      intro c
      induction c with
      | zero => intro _; simp [forLoop]
      | succ c ihc =>
        intro hc
        rw [← Nat.add_assoc, forLoop_succ, ← ihc (by omega)]
        have e1 : (a * b + c) / b = a := by
          rw [Nat.add_comm, Nat.add_mul_div_right _ _ (by omega), Nat.div_eq_of_lt (by omega)]; omega
        have e2 : (a * b + c) % b = c := by
          rw [Nat.add_comm, Nat.add_mul_mod_self_right, Nat.mod_eq_of_lt (by omega)]
        rw [e1, e2]
        cases forLoop (a * b) (fun k => f (k / b) (k % b)) s <;> rfl
    exact key b (Nat.le_refl b)

namespace Tensor
variable {α : Type _}

/-- A loop nest over samples, maps, rows and columns that assigns every element. -/
theorem nest_rows {t : Tensor α} (ht : t.WF) {f : Nat → Nat → Nat → Nat → Tensor α → Option (Tensor α)}
    {v : Nat → Nat → Nat → Nat → α}
    (h : ∀ s m y x u, t.InRange x y m s → Sh t u → f s m y x u = u.put x y m s (v x y m s)) :
    ∃ u, forLoop t.samples (fun s => forLoop t.maps fun m => forLoop t.height fun y =>
        forLoop t.width (f s m y)) t = some u ∧ Sh t u ∧ u.WF ∧
      ∀ x y m s, t.InRange x y m s → u.get x y m s = some (v x y m s) := by
  rw [forLoop_puts (t0 := t) (fun s => (List.range t.maps).flatMap fun m =>
    (List.range t.height).flatMap fun y => (List.range t.width).flatMap fun x =>
      [(t.offset x y m s, v x y m s)]) (Sh.rfl' t)]
  · obtain ⟨u, h1, h2, h3, h4, _⟩ := puts_coord ht
      (es := (List.range t.samples).flatMap fun s => (List.range t.maps).flatMap fun m =>
        (List.range t.height).flatMap fun y => (List.range t.width).flatMap fun x =>
          [(t.offset x y m s, v x y m s)])
      (R := fun x y m s => t.InRange x y m s) (val := fun x y m s => some (v x y m s))
      (fun x y m s h => ⟨h, rfl⟩) (by
        intro i w
        simp only [List.mem_flatMap, List.mem_range, List.mem_singleton, Prod.mk.injEq,
          Option.some.injEq, InRange]
        constructor
        · rintro ⟨s, hs, m, hm, y, hy, x, hx, rfl, rfl⟩
          exact ⟨x, y, m, s, ⟨hx, hy, hm, hs⟩, rfl, rfl⟩
        · rintro ⟨x, y, m, s, ⟨hx, hy, hm, hs⟩, rfl, rfl⟩
          exact ⟨s, hs, m, hm, y, hy, x, hx, rfl, rfl⟩)
    exact ⟨u, h1, h2, h3, h4⟩
  · intro s u hs hu
    refine forLoop_puts _ hu ?_
    intro m u hm hu
    refine forLoop_puts _ hu ?_
    intro y u hy hu
    refine forLoop_puts _ hu ?_
    intro x u hx hu
    rw [h s m y x u ⟨hx, hy, hm, hs⟩ hu, put_eq_puts hu]

/-- The same with the loops over rows and columns exchanged. -/
theorem nest_cols {t : Tensor α} (ht : t.WF) {f : Nat → Nat → Nat → Nat → Tensor α → Option (Tensor α)}
    {v : Nat → Nat → Nat → Nat → α}
    (h : ∀ s m y x u, t.InRange x y m s → Sh t u → f s m x y u = u.put x y m s (v x y m s)) :
    ∃ u, forLoop t.samples (fun s => forLoop t.maps fun m => forLoop t.width fun x =>
        forLoop t.height (f s m x)) t = some u ∧ Sh t u ∧ u.WF ∧
      ∀ x y m s, t.InRange x y m s → u.get x y m s = some (v x y m s) := by
  rw [forLoop_puts (t0 := t) (fun s => (List.range t.maps).flatMap fun m =>
    (List.range t.width).flatMap fun x => (List.range t.height).flatMap fun y =>
      [(t.offset x y m s, v x y m s)]) (Sh.rfl' t)]
  · obtain ⟨u, h1, h2, h3, h4, _⟩ := puts_coord ht
      (es := (List.range t.samples).flatMap fun s => (List.range t.maps).flatMap fun m =>
        (List.range t.width).flatMap fun x => (List.range t.height).flatMap fun y =>
          [(t.offset x y m s, v x y m s)])
      (R := fun x y m s => t.InRange x y m s) (val := fun x y m s => some (v x y m s))
      (fun x y m s h => ⟨h, rfl⟩) (by
        intro i w
        simp only [List.mem_flatMap, List.mem_range, List.mem_singleton, Prod.mk.injEq,
          Option.some.injEq, InRange]
        constructor
        · rintro ⟨s, hs, m, hm, x, hx, y, hy, rfl, rfl⟩
          exact ⟨x, y, m, s, ⟨hx, hy, hm, hs⟩, rfl, rfl⟩
        · rintro ⟨x, y, m, s, ⟨hx, hy, hm, hs⟩, rfl, rfl⟩
          exact ⟨s, hs, m, hm, x, hx, y, hy, rfl, rfl⟩)
    exact ⟨u, h1, h2, h3, h4⟩
  · intro s u hs hu
    refine forLoop_puts _ hu ?_
    intro m u hm hu
    refine forLoop_puts _ hu ?_
    intro x u hx hu
    refine forLoop_puts _ hu ?_
    intro y u hy hu
    rw [h s m y x u ⟨hx, hy, hm, hs⟩ hu, put_eq_puts hu]

end Tensor
end CN24
