import Verif.Proof.TensorOps

/-
A rule for loops that assign elements of a tensor: the effect of a piece of code is the partial
function `F` of the values it writes.
-/

namespace CN24.Tensor

variable {α : Type _}

/-- The tensor `u` is `t` with the elements in the domain of `F` overwritten by the values of `F`. -/
structure Upd (t u : Tensor α) (F : Nat → Nat → Nat → Nat → Option α) : Prop where
  sh : Sh t u
  wf : u.WF
  get : ∀ x y m s, t.InRange x y m s → u.get x y m s = (F x y m s).or (t.get x y m s)

theorem Upd.refl {t : Tensor α} (hw : t.WF) : Upd t t (fun _ _ _ _ => none) :=
  ⟨Sh.rfl' t, hw, by simp⟩

theorem Upd.trans {t u v : Tensor α} {F G : Nat → Nat → Nat → Nat → Option α} (h : Upd t u F)
    (k : Upd u v G) : Upd t v (fun x y m s => (G x y m s).or (F x y m s)) := by
  refine ⟨h.sh.trans k.sh, k.wf, ?_⟩
  intro x y m s hin
  rw [k.get x y m s (h.sh.inRange.2 hin), h.get x y m s hin, Option.or_assoc]

theorem Upd.congr {t u : Tensor α} {F G : Nat → Nat → Nat → Nat → Option α} (h : Upd t u F)
    (e : ∀ x y m s, t.InRange x y m s → F x y m s = G x y m s) : Upd t u G :=
  ⟨h.sh, h.wf, fun x y m s hin => by rw [h.get x y m s hin, e x y m s hin]⟩

theorem Upd.hit {t u : Tensor α} {F : Nat → Nat → Nat → Nat → Option α} (h : Upd t u F)
    {x y m s : Nat} {v : α} (hin : t.InRange x y m s) (e : F x y m s = some v) :
    u.get x y m s = some v := by rw [h.get x y m s hin, e]; rfl

theorem Upd.miss {t u : Tensor α} {F : Nat → Nat → Nat → Nat → Option α} (h : Upd t u F)
    {x y m s : Nat} (hin : t.InRange x y m s) (e : F x y m s = none) :
    u.get x y m s = t.get x y m s := by rw [h.get x y m s hin, e]; rfl

theorem upd_put {t : Tensor α} (hw : t.WF) {x y m s : Nat} (h : t.InRange x y m s) (v : α) :
    ∃ u, t.put x y m s v = some u ∧
      Upd t u (fun x' y' m' s' => if x' = x ∧ y' = y ∧ m' = m ∧ s' = s then some v else none) := by
  have hl : t.offset x y m s < t.data.length := by rw [hw]; exact offset_lt t h
  refine ⟨{ t with data := t.data.set (t.offset x y m s) v }, ?_, ⟨rfl, rfl, rfl, rfl⟩, ?_, ?_⟩
  · simp [put, wr, hl]
  · simp only [WF, List.length_set]; exact hw
  · intro x' y' m' s' h'
    have e0 : ({ t with data := t.data.set (t.offset x y m s) v } : Tensor α).get x' y' m' s' =
        (t.data.set (t.offset x y m s) v)[t.offset x' y' m' s']? := rfl
    rw [e0]
    by_cases e : x' = x ∧ y' = y ∧ m' = m ∧ s' = s
    · rw [if_pos e]
      obtain ⟨rfl, rfl, rfl, rfl⟩ := e
      simp [hl]
    · rw [if_neg e, List.getElem?_set_ne]
      · rfl
      · intro e'
        obtain ⟨a, b, c, d⟩ := offset_inj t h h' e'
        exact e ⟨a.symm, b.symm, c.symm, d.symm⟩

/-- A loop whose iterations write agreeing values writes the union. -/
theorem upd_loop {n : Nat} {f : Nat → Tensor α → Option (Tensor α)} {t : Tensor α} (hw : t.WF)
    (F : Nat → Nat → Nat → Nat → Nat → Option α) (G : Nat → Nat → Nat → Nat → Option α)
    (hstep : ∀ i u, i < n → Sh t u → u.WF → ∃ u', f i u = some u' ∧ Upd u u' (F i))
    (h1 : ∀ i x y m s v, i < n → t.InRange x y m s → F i x y m s = some v → G x y m s = some v)
    (h2 : ∀ x y m s v, t.InRange x y m s → G x y m s = some v → ∃ i, i < n ∧ F i x y m s = some v) :
    ∃ u, forLoop n f t = some u ∧ Upd t u G := by
  classical
  obtain ⟨u, e, hu⟩ := forLoop_inv (n := n) (f := f) (s := t)
    (P := fun k u => Upd t u (fun x y m s =>
      if ∃ i, i < k ∧ F i x y m s ≠ none then G x y m s else none))
    (by
      refine (Upd.refl hw).congr ?_
      intro x y m s _
      rw [if_neg (by rintro ⟨i, hi, _⟩; omega)]) (by
    intro i u hi hu
    obtain ⟨u', e, hu'⟩ := hstep i u hi hu.sh hu.wf
    refine ⟨u', e, (hu.trans hu').congr ?_⟩
    intro x y m s hin
    cases hF : F i x y m s with
    | some v =>
      rw [h1 i x y m s v hi hin hF]
      exact (if_pos ⟨i, by omega, by rw [hF]; simp⟩).symm
    | none =>
      by_cases hex : ∃ j, j < i ∧ F j x y m s ≠ none
      · obtain ⟨j, hj, hne⟩ := hex
        rw [if_pos ⟨j, hj, hne⟩, if_pos ⟨j, by omega, hne⟩]
        simp
      · rw [if_neg hex, if_neg]
        · rfl
        · rintro ⟨j, hj, hne⟩
          rcases Nat.lt_or_ge j i with hlt | hge
          · exact hex ⟨j, hlt, hne⟩
          · obtain rfl : j = i := by omega
            exact hne hF)
  refine ⟨u, e, hu.congr ?_⟩
  intro x y m s hin
  split
  · rfl
  · rename_i hno
    cases hG : G x y m s with
    | none => rfl
    | some v =>
      obtain ⟨i, hi, hF⟩ := h2 x y m s v hin hG
      exact absurd ⟨i, hi, by rw [hF]; simp⟩ hno

/-- The same for a loop that does not start at zero. -/
theorem upd_range {a b : Nat} {f : Nat → Tensor α → Option (Tensor α)} {t : Tensor α} (hw : t.WF)
    (F : Nat → Nat → Nat → Nat → Nat → Option α) (G : Nat → Nat → Nat → Nat → Option α)
    (hstep : ∀ i u, a ≤ i → i < b → Sh t u → u.WF → ∃ u', f i u = some u' ∧ Upd u u' (F i))
    (h1 : ∀ i x y m s v, a ≤ i → i < b → t.InRange x y m s → F i x y m s = some v →
      G x y m s = some v)
    (h2 : ∀ x y m s v, t.InRange x y m s → G x y m s = some v →
      ∃ i, a ≤ i ∧ i < b ∧ F i x y m s = some v) :
    ∃ u, forRange a b f t = some u ∧ Upd t u G := by
  refine upd_loop hw (fun i => F (a + i)) G ?_ ?_ ?_
  · intro i u hi hs hu
    exact hstep (a + i) u (by omega) (by omega) hs hu
  · intro i x y m s v hi hin h
    exact h1 (a + i) x y m s v (by omega) (by omega) hin h
  · intro x y m s v hin h
    obtain ⟨i, h3, h4, h5⟩ := h2 x y m s v hin h
    exact ⟨i - a, by omega, by rw [show a + (i - a) = i by omega]; exact h5⟩

/-- Two pieces of code in sequence. -/
theorem upd_bind {t : Tensor α} {o : Option (Tensor α)} {f : Tensor α → Option (Tensor α)}
    {F G : Nat → Nat → Nat → Nat → Option α} (h : ∃ u, o = some u ∧ Upd t u F)
    (k : ∀ u, Sh t u → u.WF → ∃ v, f u = some v ∧ Upd u v G) :
    ∃ v, o.bind f = some v ∧ Upd t v (fun x y m s => (G x y m s).or (F x y m s)) := by
  obtain ⟨u, rfl, hu⟩ := h
  obtain ⟨v, e, hv⟩ := k u hu.sh hu.wf
  exact ⟨v, e, hu.trans hv⟩

/-- `Clear(value, sample)` writes the value to every element of the sample. -/
theorem upd_clear_sample {t : Tensor α} (hw : t.WF) (v : α) {sample : Nat}
    (hs : sample < t.samples) :
    ∃ u, t.clear v (some sample) = some u ∧
      Upd t u (fun _ _ _ s => if s = sample then some v else none) := by
  unfold clear
  dsimp only
  rw [forRange_puts (t0 := t) (fun e => [(e, v)]) (Sh.rfl' t)
    (fun i u _ _ _ => putElem_eq_puts u i v)]
  have hoff : ∀ x y m s, t.offset x y m s =
      (t.width * t.height * t.maps) * s + ((m * t.height + y) * t.width + x) := by
    intro x y m s; rw [offset_eq]; ring
  obtain ⟨u, h1, h2, h3, h4, h5⟩ := puts_coord hw
    (es := (List.range (t.width * t.height * t.maps * (sample + 1) -
      t.width * t.height * t.maps * sample)).flatMap fun i =>
        [(t.width * t.height * t.maps * sample + i, v)])
    (fun x y m s => t.InRange x y m s ∧ s = sample) (fun _ _ _ _ => some v)
    (by rintro x y m s ⟨h, _⟩; exact ⟨h, rfl⟩) (by
      intro i w
      have e : t.width * t.height * t.maps * (sample + 1) - t.width * t.height * t.maps * sample =
          t.width * t.height * t.maps := by rw [Nat.mul_add]; omega
      simp only [List.mem_flatMap, List.mem_range, List.mem_singleton, Prod.mk.injEq, e]
      constructor
      · rintro ⟨k, hk, rfl, rfl⟩
        have hlt : t.width * t.height * t.maps * sample + k < t.elements := by
          have := Nat.mul_le_mul_left (t.width * t.height * t.maps) (show sample + 1 ≤ t.samples from hs)
          have e2 : t.elements = t.width * t.height * t.maps * t.samples := by unfold elements; ring
          rw [Nat.mul_add] at this
          omega
        obtain ⟨x, y, m, s, hin, ho⟩ := offset_surj t hlt
        refine ⟨x, y, m, s, ⟨hin, ?_⟩, ho.symm, rfl⟩
        obtain ⟨i1, i2, i3, i4⟩ := hin
        rw [hoff] at ho
        have hin' : (m * t.height + y) * t.width + x < t.width * t.height * t.maps := by
          have := radix_lt (radix_lt i3 i2) i1
          have e3 : t.maps * t.height * t.width = t.width * t.height * t.maps := by ring
          omega
        rw [Nat.mul_comm _ s, Nat.mul_comm _ sample] at ho
        exact (radix_inj hin' hk ho).1
      · rintro ⟨x, y, m, s, ⟨⟨i1, i2, i3, i4⟩, rfl⟩, rfl, hv⟩
        have hin' : (m * t.height + y) * t.width + x < t.width * t.height * t.maps := by
          have := radix_lt (radix_lt i3 i2) i1
          have e3 : t.maps * t.height * t.width = t.width * t.height * t.maps := by ring
          omega
        exact ⟨_, hin', hoff x y m s, (Option.some.inj hv).symm⟩)
  refine ⟨u, h1, h2, h3, ?_⟩
  intro x y m s hin
  by_cases hss : s = sample
  · rw [if_pos hss, h4 x y m s ⟨hin, hss⟩]; rfl
  · rw [if_neg hss, h5 x y m s hin (by tauto)]; rfl

end CN24.Tensor
