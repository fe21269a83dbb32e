import Verif.Model.Activations
import Verif.Base.Writes
import Verif.Base.Kernel

namespace CN24.Activations
open CN24 Tensor
variable {R : Type _}

theorem connect_sh {a b : Tensor R} (h : connect a.shape b.shape = true) : Sh a b := by
  simp only [connect, shape, Bool.and_eq_true] at h
  exact ⟨of_decide_eq_true h.1.1.1, of_decide_eq_true h.1.1.2, of_decide_eq_true h.1.2,
    of_decide_eq_true h.2⟩

theorem rd_offset (t : Tensor R) (x y m s : Nat) : rd t.data (t.offset x y m s) = t.get x y m s := rfl

/-- A loop over all elements writes every element once. -/
theorem elementwise_spec {t : Tensor R} (hw : t.WF) {n : Nat} (hn : n = t.elements)
    {f : Nat → Option R} (hf : ∀ x y m s, t.InRange x y m s → (f (t.offset x y m s)).isSome) :
    ∃ u, elementwise n f t = some u ∧ Upd t u (fun x y m s => f (t.offset x y m s)) := by
  subst hn
  refine upd_loop hw (fun e x y m s => if t.offset x y m s = e then f e else none) _ ?_ ?_ ?_
  · intro e u he hu hwu
    obtain ⟨x, y, m, s, hin, ho⟩ := offset_surj t he
    obtain ⟨v, hv⟩ := Option.isSome_iff_exists.1 (hf x y m s hin)
    rw [ho] at hv
    rw [hv, Option.bind_some]
    obtain ⟨u', e1, hu'⟩ := upd_put hwu (x := x) (y := y) (m := m) (s := s) (hu.inRange.2 hin) v
    refine ⟨u', ?_, hu'.congr ?_⟩
    · rw [← e1]
      unfold Tensor.putElem Tensor.put
      rw [hu.offset, ho]
    · intro x' y' m' s' hin'
      have hin'' := hu.inRange.1 hin'
      by_cases hc : t.offset x' y' m' s' = e
      · have := offset_inj t hin'' hin (by rw [hc, ho])
        obtain ⟨rfl, rfl, rfl, rfl⟩ := this
        simp [hc]
      · rw [if_neg hc, if_neg]
        rintro ⟨rfl, rfl, rfl, rfl⟩
        exact hc ho
  · intro e x y m s v he hin h
    split at h
    · rename_i hc; rw [hc]; exact h
    · cases h
  · intro x y m s v hin h
    exact ⟨t.offset x y m s, offset_lt t hin, by rw [if_pos rfl]; exact h⟩

/-- `elementwise` of a function of one other tensor of the same shape. -/
theorem elementwise_map {t a : Tensor R} (hw : t.WF) (ha : a.WF) (hs : Sh a t) (f : R → R) :
    ∃ u, elementwise a.elements (fun e => (rd a.data e).map f) t = some u ∧ Sh t u ∧ u.WF ∧
      ∀ x y m s, t.InRange x y m s → u.get x y m s = (a.get x y m s).map f := by
  obtain ⟨u, e, h⟩ := elementwise_spec hw (n := a.elements) hs.elements.symm
    (f := fun e => (rd a.data e).map f) (by
    intro x y m s hin
    rw [hs.offset, rd_offset, Option.isSome_map]
    exact get_isSome ha (hs.inRange.1 hin))
  refine ⟨u, e, h.sh, h.wf, ?_⟩
  intro x y m s hin
  rw [h.get x y m s hin, hs.offset, rd_offset]
  obtain ⟨v, hv⟩ := Option.isSome_iff_exists.1 (get_isSome ha (hs.inRange.1 hin))
  rw [hv]; rfl

/-- `elementwise` of a function of two other tensors of the same shape. -/
theorem elementwise_map2 {t a b : Tensor R} (hw : t.WF) (ha : a.WF) (hb : b.WF) (hs : Sh a t)
    (hs' : Sh b t) {n : Nat} (hn : n = t.elements) (f : R → R → R) :
    ∃ u, elementwise n (fun e => (rd a.data e).bind fun v => (rd b.data e).map fun w => f v w) t =
        some u ∧ Sh t u ∧ u.WF ∧
      ∀ x y m s, t.InRange x y m s → ∀ v w, a.get x y m s = some v → b.get x y m s = some w →
        u.get x y m s = some (f v w) := by
  obtain ⟨u, e, h⟩ := elementwise_spec hw hn
    (f := fun e => (rd a.data e).bind fun v => (rd b.data e).map fun w => f v w) (by
    intro x y m s hin
    obtain ⟨v, hv⟩ := Option.isSome_iff_exists.1 (get_isSome ha (hs.inRange.1 hin))
    obtain ⟨w, hw⟩ := Option.isSome_iff_exists.1 (get_isSome hb (hs'.inRange.1 hin))
    have e1 : rd a.data (t.offset x y m s) = some v := by rw [hs.offset, rd_offset, hv]
    have e2 : rd b.data (t.offset x y m s) = some w := by rw [hs'.offset, rd_offset, hw]
    rw [e1, Option.bind_some, e2]; rfl)
  refine ⟨u, e, h.sh, h.wf, ?_⟩
  intro x y m s hin v w hv hw
  rw [h.get x y m s hin]
  have e1 : rd a.data (t.offset x y m s) = some v := by rw [hs.offset, rd_offset, hv]
  have e2 : rd b.data (t.offset x y m s) = some w := by rw [hs'.offset, rd_offset, hw]
  rw [e1, Option.bind_some, e2]; rfl

/-! ### Softmax -/

section
variable [Field R]

theorem softmaxSum_eq (exp : R → R) {input : Tensor R} (hi : input.WF) {s : Nat}
    (hs : s < input.samples) (h1 : 0 < input.height) (h2 : 0 < input.maps) :
    softmaxSum exp input s = some (∑ x ∈ Finset.range input.width, exp (input.val x 0 0 s)) := by
  unfold softmaxSum
  rw [forLoop_sum (g := fun x => exp (input.val x 0 0 s)), zero_add]
  intro x sum hx
  rw [get_eq_val hi ⟨hx, h1, h2, hs⟩]
  rfl

theorem softmax_spec (exp : R → R) {input output : Tensor R} (hi : input.WF) (ho : output.WF)
    (hs : Sh input output) (h1 : 0 < input.height) (h2 : 0 < input.maps) :
    ∃ u, softmaxForward exp input output = some u ∧ Upd output u (fun x y m s =>
      if y = 0 ∧ m = 0 then some (exp (input.val x 0 0 s) /
        ∑ x ∈ Finset.range input.width, exp (input.val x 0 0 s)) else none) := by
  unfold softmaxForward
  refine upd_loop ho (fun s' x y m s => if y = 0 ∧ m = 0 ∧ s = s' then
    some (exp (input.val x 0 0 s) / ∑ x ∈ Finset.range input.width, exp (input.val x 0 0 s))
    else none) _ ?_ ?_ ?_
  · intro s u hsl hu hwu
    rw [softmaxSum_eq exp hi hsl h1 h2, Option.bind_some]
    refine upd_loop hwu (fun e x y m s' => if x = e ∧ y = 0 ∧ m = 0 ∧ s' = s then
      some (exp (input.val e 0 0 s) / ∑ x ∈ Finset.range input.width, exp (input.val x 0 0 s))
      else none) _ ?_ ?_ ?_
    · intro e u' he hu' hwu'
      have hin : input.InRange e 0 0 s := ⟨he, h1, h2, hsl⟩
      rw [get_eq_val hi hin, Option.bind_some]
      exact upd_put hwu' (hu'.inRange.2 (hu.inRange.2 (hs.inRange.2 hin))) _
    · intro e x y m s' v he hin h
      split at h
      · rename_i hc
        obtain ⟨rfl, rfl, rfl, rfl⟩ := hc
        rw [if_pos ⟨rfl, rfl, rfl⟩]
        exact h
      · cases h
    · intro x y m s' v hin h
      split at h
      · rename_i hc
        obtain ⟨rfl, rfl, rfl⟩ := hc
        have hx := (hs.inRange.1 (hu.inRange.1 hin)).1
        exact ⟨x, hx, by rw [if_pos ⟨rfl, rfl, rfl, rfl⟩]; exact h⟩
      · cases h
  · intro s' x y m s v hs' hin h
    split at h
    · rename_i hc
      rw [if_pos ⟨hc.1, hc.2.1⟩]
      exact h
    · cases h
  · intro x y m s v hin h
    split at h
    · rename_i hc
      exact ⟨s, (hs.inRange.1 hin).2.2.2, by rw [if_pos ⟨hc.1, hc.2, rfl⟩]; exact h⟩
    · cases h

end
end CN24.Activations
