import Verif.Proof.Layers
import Verif.Props.TensorMath
import Verif.Props.Ownership

/-
Property theorems about the layers that move data: C41 (concatenation and sum), C42 (resize),
C50 (gradient accumulation), C58 (spatial prior), C59 (up-scaling and input down-sampling).
-/

namespace CN24.Props
open CN24 CN24.Tensor CN24.Layers

variable {R : Type _}

/-! ## C41 -/

/-- C41, concatenation, forward: for inputs of the same size the layer accepts them and its output
consists of the maps of the first followed by the maps of the second. -/
theorem C41_concat_forward_partial [Zero R] (a b output : Tensor R) (ha : a.WF) (hb : b.WF)
    (ho : output.WF) (hs : a.samples = b.samples) (hw : a.width = b.width) (hh : a.height = b.height)
    (hcreate : concatCreate a.shape b.shape = some output.shape) :
    concatConnect a.shape b.shape output.shape = true ∧
    ∃ u, concatForward a b output = some u ∧ Sh output u ∧ u.WF ∧
      (∀ x y m s, a.InRange x y m s → u.get x y m s = a.get x y m s) ∧
      (∀ x y m s, b.InRange x y m s → u.get x y (a.maps + m) s = b.get x y m s) := by
  rw [concatCreate, if_neg (by simpa [shape] using hs)] at hcreate
  simp only [shape, Option.some.injEq, Shape.mk.injEq] at hcreate
  obtain ⟨e1, e2, e3, e4⟩ := hcreate
  refine ⟨?_, ?_⟩
  · unfold concatConnect
    rw [if_neg (by simpa [shape] using hs), if_neg]
    simp only [shape, Shape.elements, ne_eq, Decidable.not_not]
    rw [← e1, ← e2, ← e3, ← e4, ← hs, ← hw, hh]
    ring
  · obtain ⟨u, u1, u2, u3, u4⟩ := concatForward_spec ha hb ho hs hw hh e1.symm e2.symm
      (by omega) e4.symm
    refine ⟨u, u1, u2, u3, ?_, ?_⟩
    · rintro x y m s ⟨i1, i2, i3, i4⟩
      rw [u4 x y m s ⟨by omega, by omega, by omega, by omega⟩, if_pos i3]
    · rintro x y m s ⟨i1, i2, i3, i4⟩
      rw [u4 x y (a.maps + m) s ⟨by omega, by omega, by omega, by omega⟩, if_neg (by omega),
        Nat.add_sub_cancel_left]

/-- C41, concatenation, backward: the delta is split the same way. -/
theorem C41_concat_backward_partial [Zero R] (d da db : Tensor R) (hd : d.WF) (ha : da.WF)
    (hb : db.WF) (hs : da.samples = db.samples) (hw : da.width = db.width)
    (hh : da.height = db.height) (hcreate : concatCreate da.shape db.shape = some d.shape) :
    ∃ ua ub, concatBackward d (da, db) = some (ua, ub) ∧ Sh da ua ∧ Sh db ub ∧ ua.WF ∧ ub.WF ∧
      (∀ x y m s, da.InRange x y m s → ua.get x y m s = d.get x y m s) ∧
      (∀ x y m s, db.InRange x y m s → ub.get x y m s = d.get x y (da.maps + m) s) := by
  rw [concatCreate, if_neg (by simpa [shape] using hs)] at hcreate
  simp only [shape, Option.some.injEq, Shape.mk.injEq] at hcreate
  obtain ⟨e1, e2, e3, e4⟩ := hcreate
  exact concatBackward_spec hd ha hb hs hw hh e1.symm e2.symm (by omega) e4.symm

/-- Inputs that differ in the width only or in the height only are refused. -/
theorem C41_concat_refuses (a b o : Shape) (ha : 0 < a.samples ∧ 0 < a.width ∧ 0 < a.height ∧ 0 < a.maps)
    (hb : 0 < b.width ∧ 0 < b.height ∧ 0 < b.maps)
    (hcreate : concatCreate a b = some o)
    (hdiff : (a.width = b.width ∧ a.height ≠ b.height) ∨ (a.width ≠ b.width ∧ a.height = b.height)) :
    concatConnect a b o = false := by
  unfold concatCreate at hcreate
  split at hcreate
  · cases hcreate
  rename_i hs
  simp only [ne_eq, Decidable.not_not] at hs
  injection hcreate with hcreate
  subst hcreate
  unfold concatConnect
  rw [if_neg (by simpa using hs), if_pos]
  intro he
  simp only [Shape.elements] at he
  obtain ⟨a1, a2, a3, a4⟩ := ha
  obtain ⟨b1, b2, b3⟩ := hb
  rw [← hs] at he
  rcases hdiff with ⟨h1, h2⟩ | ⟨h1, h2⟩
  · rw [← h1] at he
    have : a.samples * a.maps * a.width * b.height = a.samples * a.maps * a.width * a.height := by
      have : a.samples * (a.maps + b.maps) * b.height * a.width =
        a.samples * a.maps * a.width * b.height + a.samples * b.maps * b.height * a.width := by ring
      have : a.samples * a.maps * a.height * a.width = a.samples * a.maps * a.width * a.height := by ring
      omega
    exact h2 (Nat.eq_of_mul_eq_mul_left (Nat.mul_pos (Nat.mul_pos a1 a4) a2) this).symm
  · rw [← h2] at he
    have : a.samples * b.maps * a.height * a.width = a.samples * b.maps * a.height * b.width := by
      have : a.samples * (a.maps + b.maps) * a.height * a.width =
        a.samples * a.maps * a.height * a.width + a.samples * b.maps * a.height * a.width := by ring
      omega
    exact h1 (Nat.eq_of_mul_eq_mul_left (Nat.mul_pos (Nat.mul_pos a1 b3) a3) this)

/-- The full property fails: inputs that differ in both dimensions can pass both checks; the data
of the second input (3 x 2) is then lost, the output keeping its old content there. -/
theorem C41_concat_loses_data :
    concatCreate ⟨1, 2, 1, 1⟩ ⟨1, 3, 2, 1⟩ = some ⟨1, 2, 2, 2⟩ ∧
    concatConnect ⟨1, 2, 1, 1⟩ ⟨1, 3, 2, 1⟩ ⟨1, 2, 2, 2⟩ = true ∧
    (concatForward (⟨1, 2, 1, 1, [5, 6]⟩ : Tensor Int) ⟨1, 3, 2, 1, [1, 2, 3, 4, 5, 6]⟩
      ⟨1, 2, 2, 2, [-1, -1, -1, -1, -1, -1, -1, -1]⟩).map (·.data) =
      some [5, 6, 0, 0, -1, -1, -1, -1] := by
  refine ⟨by decide +kernel, by decide +kernel, by decide +kernel⟩

/-- Non-vacuity: two samples, one plus two maps. -/
example : (concatForward (⟨2, 2, 1, 1, [1, 2, 3, 4]⟩ : Tensor Int)
      ⟨2, 2, 1, 2, [10, 11, 12, 13, 14, 15, 16, 17]⟩ ⟨2, 2, 1, 3, List.replicate 12 0⟩).map (·.data) =
    some [1, 2, 10, 11, 12, 13, 3, 4, 14, 15, 16, 17] := by decide +kernel

/-- C41, sum: inputs of one shape are accepted, the output is the element-wise sum and the backward
pass copies the delta to both inputs. -/
theorem C41_sum_partial [CommRing R] (a b output d da db : Tensor R) (ha : a.WF) (hb : b.WF)
    (ho : output.WF) (hd : d.WF) (hda : da.WF) (hdb : db.WF) (hab : Sh a b)
    (hcreate : sumCreate a.shape b.shape = some output.shape)
    (h1 : Sh output d) (h2 : Sh a da) (h3 : Sh b db) :
    sumConnect a.shape b.shape output.shape = .done true ∧
    (∃ u, sumForward a b output = .done u ∧ Sh a u ∧
      ∀ x y m s, a.InRange x y m s → u.val x y m s = a.val x y m s + b.val x y m s) ∧
    (∃ ua ub, sumBackward d (da, db) = some (ua, ub) ∧ Sh a ua ∧ Sh b ub ∧
      ∀ x y m s, a.InRange x y m s → ua.get x y m s = d.get x y m s ∧
        ub.get x y m s = d.get x y m s) := by
  obtain ⟨s1, s2, s3, s4⟩ := hab
  rw [sumCreate, if_neg (by simpa [shape] using s1), if_neg (by simpa [shape] using s4)] at hcreate
  simp only [shape, Option.some.injEq, Shape.mk.injEq] at hcreate
  obtain ⟨e1, e2, e3, e4⟩ := hcreate
  have hao : Sh a output := ⟨e1, e2, by omega, e4⟩
  refine ⟨?_, ?_, ?_⟩
  · unfold sumConnect
    rw [if_neg (by simpa [shape] using s1), if_neg]
    simp only [shape, Shape.elements, ne_eq, Decidable.not_not]
    rw [← e1, ← e2, ← e3, ← e4, s3]
  · obtain ⟨u, u1, u2, u3, u4⟩ := TensorMath.add_spec ha hb ho s1 (by omega)
      (by rw [← (show Sh a b from ⟨s1, s2, s3, s4⟩).elements])
      (by rw [(show Sh a b from ⟨s1, s2, s3, s4⟩).elements, hao.elements])
    refine ⟨u, u1, hao.trans u2, ?_⟩
    intro x y m s hin
    have := u4 (a.offset x y m s) (by rw [hao.elements]; exact offset_lt a hin)
    unfold val
    rw [(hao.trans u2).offset, (show Sh a b from ⟨s1, s2, s3, s4⟩).offset, List.getD_eq_getElem?_getD,
      this, Option.getD_some]
  · have hd1 : Sh d da := (h1.symm.trans hao.symm).trans h2
    have hd2 : Sh d db := ((h1.symm.trans hao.symm).trans ⟨s1, s2, s3, s4⟩).trans h3
    obtain ⟨ua, ub, g1, g2, g3, _, _, g6, g7⟩ := sumBackward_spec hd hda hdb hd1 hd2
    refine ⟨ua, ub, g1, h2.trans g2, h3.trans g3, ?_⟩
    intro x y m s hin
    have hin' : d.InRange x y m s := (hao.trans h1).inRange.2 hin
    exact ⟨g6 x y m s hin', g7 x y m s hin'⟩

/-- The full property fails for inputs of equal height but different width: they are accepted, and
every forward pass then throws. -/
theorem C41_sum_width_mismatch [CommRing R] (a b output : Tensor R) (hs : a.samples = b.samples)
    (hm : a.maps = b.maps) (hh : a.height = b.height) (hw : a.width ≠ b.width)
    (hpos : 0 < a.samples ∧ 0 < a.maps ∧ 0 < a.height)
    (hcreate : sumCreate a.shape b.shape = some output.shape) :
    sumConnect a.shape b.shape output.shape = .done true ∧ sumForward a b output = .fatal := by
  rw [sumCreate, if_neg (by simpa [shape] using hs), if_neg (by simpa [shape] using hm)] at hcreate
  simp only [shape, Option.some.injEq, Shape.mk.injEq] at hcreate
  obtain ⟨e1, e2, e3, e4⟩ := hcreate
  refine ⟨?_, ?_⟩
  · unfold sumConnect
    rw [if_neg (by simpa [shape] using hs), if_neg]
    simp only [shape, Shape.elements, ne_eq, Decidable.not_not]
    rw [← e1, ← e2, ← e3, ← e4, hh]
  · unfold sumForward TensorMath.add
    rw [if_pos]
    right; right; left
    rw [elements_eq, elements_eq, ← hs, ← hm, ← hh]
    intro he
    obtain ⟨p1, p2, p3⟩ := hpos
    exact hw (Nat.eq_of_mul_eq_mul_left (Nat.mul_pos (Nat.mul_pos p1 p2) p3) he)

/-- And inputs of different height make `Connect` read an uninitialised pointer. -/
theorem C41_sum_height_mismatch (a b o : Shape) (hs : a.samples = b.samples)
    (hm : a.maps = b.maps) (hh : a.height ≠ b.height)
    (hpos : 0 < a.samples ∧ 0 < a.maps ∧ 0 < a.width)
    (hcreate : sumCreate a b = some o) : sumConnect a b o = .undefined := by
  rw [sumCreate, if_neg (by simpa using hs), if_neg (by simpa using hm)] at hcreate
  injection hcreate with hcreate
  subst hcreate
  unfold sumConnect
  rw [if_neg (by simpa using hs), if_pos]
  simp only [Shape.elements]
  intro he
  obtain ⟨p1, p2, p3⟩ := hpos
  have := Nat.eq_of_mul_eq_mul_right p3 he
  exact hh (Nat.eq_of_mul_eq_mul_left (Nat.mul_pos p1 p2) this).symm

/-- Non-vacuity. -/
example : (sumForward (⟨1, 2, 1, 1, [1, 2]⟩ : Tensor Int) ⟨1, 2, 1, 1, [10, 20]⟩ ⟨1, 2, 1, 1, [0, 0]⟩) =
    .done ⟨1, 2, 1, 1, [11, 22]⟩ := by decide +kernel
example : (sumForward (⟨1, 2, 1, 1, [1, 2]⟩ : Tensor Int) ⟨1, 1, 1, 1, [10]⟩ ⟨1, 2, 1, 1, [0, 0]⟩) =
    .fatal := by decide +kernel

/-! ## C42 -/

/-- C42, forward: the output is the input at offset `(bx / 2, by / 2)` and zero around it. -/
theorem C42_forward [Zero R] (bx by' : Nat) (input output : Tensor R) (hi : input.WF)
    (ho : output.WF) (hcreate : output.shape = resizeCreate bx by' input.shape) :
    resizeConnect bx by' input.shape output.shape = .done true ∧
    ∃ u, resizeForward bx by' input output = some u ∧ Sh output u ∧ u.WF ∧
      (∀ x y m s, input.InRange x y m s →
        u.get (x + bx / 2) (y + by' / 2) m s = input.get x y m s) ∧
      (∀ x y m s, output.InRange x y m s →
        (∀ x' y', input.InRange x' y' m s → ¬ (x = x' + bx / 2 ∧ y = y' + by' / 2)) →
        u.get x y m s = some 0) := by
  simp only [resizeCreate, shape, Shape.mk.injEq] at hcreate
  obtain ⟨e1, e2, e3, e4⟩ := hcreate
  refine ⟨?_, ?_⟩
  · unfold resizeConnect
    rw [if_neg]
    simp only [shape]
    omega
  · obtain ⟨u, u1, u2, u3, u4⟩ := resizeForward_spec (bx := bx) (by' := by') hi ho e1 e4 e2 e3
    refine ⟨u, u1, u2, u3, ?_, ?_⟩
    · rintro x y m s ⟨i1, i2, i3, i4⟩
      rw [u4 _ _ m s ⟨by omega, by omega, by omega, by omega⟩, if_pos (by omega),
        Nat.add_sub_cancel, Nat.add_sub_cancel]
    · rintro x y m s ⟨i1, i2, i3, i4⟩ hno
      rw [u4 _ _ m s ⟨by omega, by omega, by omega, by omega⟩, if_neg]
      intro hc
      exact hno (x - bx / 2) (y - by' / 2) ⟨by omega, by omega, by omega, by omega⟩ (by omega)

/-- C42, backward: the window that holds the input is read back; a layer that need not propagate
leaves the delta alone. -/
theorem C42_backward [Zero R] (bx by' : Nat) (d dx : Tensor R) (hd : d.WF) (hx : dx.WF)
    (hcreate : d.shape = resizeCreate bx by' dx.shape) :
    (∃ u, resizeBackward bx by' true d dx = some u ∧ Sh dx u ∧ u.WF ∧
      ∀ x y m s, dx.InRange x y m s → u.get x y m s = d.get (x + bx / 2) (y + by' / 2) m s) ∧
    resizeBackward bx by' false d dx = some dx := by
  simp only [resizeCreate, shape, Shape.mk.injEq] at hcreate
  obtain ⟨e1, e2, e3, e4⟩ := hcreate
  exact ⟨resizeBackward_spec hd hx e1 e4 e2 e3, rfl⟩

theorem sum_window {M : Type _} [AddCommMonoid M] {n b c : Nat} (hc : c ≤ b) (f : Nat → M) :
    (∑ x ∈ Finset.range (n + b), if c ≤ x ∧ x < c + n then f x else 0) =
      ∑ x ∈ Finset.range n, f (x + c) := by
  have h1 : (∑ x ∈ Finset.Ico c (c + n), if c ≤ x ∧ x < c + n then f x else 0) =
      ∑ x ∈ Finset.range (n + b), if c ≤ x ∧ x < c + n then f x else 0 := by
    refine Finset.sum_subset ?_ ?_
    · intro x hx
      rw [Finset.mem_Ico] at hx
      rw [Finset.mem_range]; omega
    · intro x _ hx
      rw [if_neg]
      intro h
      exact hx (Finset.mem_Ico.2 h)
  rw [← h1, Finset.sum_Ico_eq_sum_range, Nat.add_sub_cancel_left]
  refine Finset.sum_congr rfl fun x hx => ?_
  rw [Finset.mem_range] at hx
  rw [if_pos (by omega), Nat.add_comm]

/-- C42: the layer connects to an output exactly if it has the shape of the enlarged image, and ends the program
otherwise. -/
theorem C42_connect (bx by' : Nat) (input output : Shape) :
    (resizeConnect bx by' input output = .done true ↔ output.samples = input.samples ∧
      output.width = input.width + bx ∧ output.height = input.height + by' ∧ output.maps = input.maps) ∧
    (resizeConnect bx by' input output = .fatal ∨ resizeConnect bx by' input output = .done true) := by
  unfold resizeConnect
  split
  · rename_i h
    refine ⟨⟨nofun, fun e => ?_⟩, Or.inl rfl⟩
    omega
  · rename_i h
    refine ⟨⟨fun _ => ?_, fun _ => rfl⟩, Or.inr rfl⟩
    omega

example : resizeConnect 4 2 ⟨1, 5, 6, 3⟩ ⟨1, 9, 8, 3⟩ = .done true ∧
    resizeConnect 4 2 ⟨1, 5, 6, 3⟩ ⟨1, 9, 9, 3⟩ = .fatal := by decide

/-- C42: the backward pass is the adjoint of the forward pass: `<forward x, d> = <x, backward d>`
for all inputs `x` and deltas `d`. -/
theorem C42_adjoint [CommRing R] (bx by' : Nat) (input output d dx : Tensor R) (hi : input.WF)
    (ho : output.WF) (hd : d.WF) (hx : dx.WF) (hcreate : output.shape = resizeCreate bx by' input.shape)
    (h1 : Sh output d) (h2 : Sh input dx) :
    ∃ u v, resizeForward bx by' input output = some u ∧ resizeBackward bx by' true d dx = some v ∧
      dot u d = dot input v := by
  simp only [resizeCreate, shape, Shape.mk.injEq] at hcreate
  obtain ⟨e1, e2, e3, e4⟩ := hcreate
  obtain ⟨u, u1, u2, u3, u4⟩ := resizeForward_spec (bx := bx) (by' := by') hi ho e1 e4 e2 e3
  obtain ⟨p1, p2, p3, p4⟩ := h1
  obtain ⟨q1, q2, q3, q4⟩ := h2
  obtain ⟨v, v1, v2, v3, v4⟩ := resizeBackward_spec (bx := bx) (by' := by') hd hx (by omega)
    (by omega) (by omega) (by omega)
  refine ⟨u, v, u1, v1, ?_⟩
  obtain ⟨r1, r2, r3, r4⟩ := u2
  unfold dot
  rw [← r1, ← r2, ← r3, ← r4, e1, e2, e3, e4]
  refine Finset.sum_congr rfl fun s hs => Finset.sum_congr rfl fun m hm => ?_
  simp only [Finset.mem_range] at hs hm
  have step : ∀ y ∈ Finset.range (input.height + by'), ∀ x ∈ Finset.range (input.width + bx),
      u.val x y m s * d.val x y m s =
      if bx / 2 ≤ x ∧ x < bx / 2 + input.width then
        (if by' / 2 ≤ y ∧ y < by' / 2 + input.height then
          input.val (x - bx / 2) (y - by' / 2) m s * d.val x y m s else 0) else 0 := by
    intro y hy x hx
    simp only [Finset.mem_range] at hx hy
    have hg := u4 x y m s ⟨by omega, by omega, by omega, by omega⟩
    by_cases hc1 : bx / 2 ≤ x ∧ x < bx / 2 + input.width
    · by_cases hc2 : by' / 2 ≤ y ∧ y < by' / 2 + input.height
      · rw [if_pos (by omega), get_eq_val hi ⟨by omega, by omega, by omega, by omega⟩] at hg
        rw [if_pos hc1, if_pos hc2, val_of_get hg]
      · rw [if_neg (by omega)] at hg
        rw [if_pos hc1, if_neg hc2, val_of_get hg, zero_mul]
    · rw [if_neg (by omega)] at hg
      rw [if_neg hc1, val_of_get hg, zero_mul]
  rw [Finset.sum_congr rfl fun y hy => Finset.sum_congr rfl (step y hy)]
  rw [Finset.sum_congr rfl fun y _ => sum_window (by omega) (fun x => if by' / 2 ≤ y ∧
    y < by' / 2 + input.height then input.val (x - bx / 2) (y - by' / 2) m s * d.val x y m s else 0)]
  rw [Finset.sum_comm, Finset.sum_congr rfl fun x _ => sum_window (by omega) (fun y =>
    input.val (x + bx / 2 - bx / 2) (y - by' / 2) m s * d.val (x + bx / 2) y m s), Finset.sum_comm]
  refine Finset.sum_congr rfl fun y hy => Finset.sum_congr rfl fun x hx => ?_
  simp only [Finset.mem_range] at hx hy
  have hg := v4 x y m s ⟨by omega, by omega, by omega, by omega⟩
  rw [get_eq_val hd ⟨by omega, by omega, by omega, by omega⟩] at hg
  rw [val_of_get hg, Nat.add_sub_cancel, Nat.add_sub_cancel]

/-- Non-vacuity: border (3, 1) around a 2 x 1 image; the left border is one, the top none. -/
example : (resizeForward 3 1 (⟨1, 2, 1, 1, [7, 8]⟩ : Tensor Int) ⟨1, 5, 2, 1, List.replicate 10 1⟩).map
      (·.data) = some [0, 7, 8, 0, 0, 0, 0, 0, 0, 0] ∧
    (resizeBackward 3 1 true (⟨1, 5, 2, 1, [1, 2, 3, 4, 5, 6, 7, 8, 9, 10]⟩ : Tensor Int)
      ⟨1, 2, 1, 1, [0, 0]⟩).map (·.data) = some [2, 3] := by decide +kernel

/-! ## C50 -/

/-- C50: the input delta becomes the sum of the deltas of all outputs, whatever it was before. -/
theorem C50_accumulate [AddCommMonoid R] (ds : List (Tensor R)) (dx : Tensor R) (hx : dx.WF)
    (hd : ∀ d ∈ ds, Sh dx d ∧ d.WF) :
    ∃ u, accumulate ds dx = some u ∧ Sh dx u ∧ u.WF ∧
      ∀ x y m s, dx.InRange x y m s → u.get x y m s = some ((ds.map fun d => d.val x y m s).sum) :=
  accumulate_spec hx hd

/-- C50, forward: an output created by the layer (a tensor of the size of the input, made a shadow
of it, src/net/GradientAccumulationLayer.cpp:38-43) has the very buffer of the input, so that every
reader sees the data of the input; the input is not touched. -/
theorem C50_outputs_share_data (w : Own.World) (i j n : Nat) (t : Own.T) (hi : w.tensors i = none)
    (hj : w.tensors j = some t) :
    ∃ w', [Own.Op.constructSized i n, .shadow i j].foldlM Own.exec w = some w' ∧
      w'.tensors j = some t ∧
      ∃ t', w'.tensors i = some t' ∧ t'.ptr = t.ptr ∧ t'.elements = t.elements ∧ t'.shadow = true := by
  have hij : j ≠ i := by rintro rfl; rw [hi] at hj; cases hj
  by_cases hn : n = 0
  · subst hn
    simp [List.foldlM, Own.exec, hi, hj, Own.resize, Own.deleteIfPossible, Own.World.set, hij]
  · simp [List.foldlM, Own.exec, hi, hj, Own.resize, Own.deleteIfPossible, Own.World.set, hij, hn,
      Own.release]

/-- Non-vacuity: two readers. -/
example : (accumulate [(⟨1, 2, 1, 1, [1, 2]⟩ : Tensor Int), ⟨1, 2, 1, 1, [10, 20]⟩]
    ⟨1, 2, 1, 1, [99, 99]⟩).map (·.data) = some [11, 22] := by decide +kernel

/-! ## C58 -/

/-- C58: the spatial prior layer adds two maps with the relative coordinates in front of the maps
of its input, and its backward pass drops their deltas. -/
theorem C58_spatial_prior [Field R] (input output d dx : Tensor R) (hi : input.WF) (ho : output.WF)
    (hd : d.WF) (hx : dx.WF) (hs : output.samples = input.samples) (hw : output.width = input.width)
    (hh : output.height = input.height) (hm : output.maps = input.maps + 2)
    (h1 : Sh output d) (h2 : Sh input dx) :
    (∃ u, spatialForward input output = some u ∧ Sh output u ∧ u.WF ∧
      ∀ x y s, x < input.width → y < input.height → s < input.samples →
        u.get x y 0 s = some ((x : R) / (input.width : R)) ∧
        u.get x y 1 s = some ((y : R) / (input.height : R)) ∧
        ∀ m, m < input.maps → u.get x y (m + 2) s = input.get x y m s) ∧
    (∃ v, spatialBackward d dx = some v ∧ Sh dx v ∧ v.WF ∧
      ∀ x y m s, input.InRange x y m s → v.get x y m s = d.get x y (m + 2) s) := by
  obtain ⟨p1, p2, p3, p4⟩ := h1
  obtain ⟨q1, q2, q3, q4⟩ := h2
  refine ⟨?_, ?_⟩
  · obtain ⟨u, u1, u2, u3, u4⟩ := spatialForward_spec hi ho hs hw hh hm
    refine ⟨u, u1, u2, u3, ?_⟩
    intro x y s h1 h2 h3
    refine ⟨?_, ?_, ?_⟩
    · rw [u4 x y 0 s ⟨by omega, by omega, by omega, by omega⟩, if_pos rfl]
    · rw [u4 x y 1 s ⟨by omega, by omega, by omega, by omega⟩, if_neg (by omega), if_pos rfl]
    · intro m hm'
      rw [u4 x y (m + 2) s ⟨by omega, by omega, by omega, by omega⟩, if_neg (by omega),
        if_neg (by omega), Nat.add_sub_cancel]
  · obtain ⟨v, v1, v2, v3, v4⟩ := spatialBackward_spec hd hx (by omega) (by omega) (by omega)
      (by omega)
    refine ⟨v, v1, v2, v3, ?_⟩
    rintro x y m s ⟨i1, i2, i3, i4⟩
    exact v4 x y m s ⟨by omega, by omega, by omega, by omega⟩

/-- Non-vacuity. -/
example : (spatialForward (⟨1, 2, 2, 1, [1, 2, 3, 4]⟩ : Tensor Rat) ⟨1, 2, 2, 3, List.replicate 12 0⟩).map
    (·.data) = some [0, 1/2, 0, 1/2, 0, 0, 1/2, 1/2, 1, 2, 3, 4] := by decide +kernel

/-! ## C59 -/

/-- C59, up-scaling: every output pixel is a copy of the input pixel of its region, and the
backward pass is the adjoint. -/
theorem C59_upscale [CommRing R] (rw rh : Nat) (input output d dx : Tensor R) (hi : input.WF)
    (ho : output.WF) (hd : d.WF) (hx : dx.WF) (hs : output.samples = input.samples)
    (hm : output.maps = input.maps) (hw : output.width = input.width * rw)
    (hh : output.height = input.height * rh) (h1 : Sh output d) (h2 : Sh input dx) :
    ∃ u v, upscaleForward rw rh input output = some u ∧ upscaleBackward rw rh d dx = some v ∧
      (∀ x y m s, output.InRange x y m s → u.val x y m s = input.val (x / rw) (y / rh) m s) ∧
      (∀ x y m s, input.InRange x y m s → v.val x y m s =
        ∑ ry ∈ Finset.range rh, ∑ rx ∈ Finset.range rw, d.val (x * rw + rx) (y * rh + ry) m s) ∧
      dot u d = dot input v := by
  obtain ⟨p1, p2, p3, p4⟩ := h1
  obtain ⟨q1, q2, q3, q4⟩ := h2
  obtain ⟨u, u1, u2, u3, u4⟩ := C38_up input output rw rh 1 hi ho (by rw [hw, Nat.mul_comm])
    (by rw [hh, Nat.mul_comm]) hm hs
  obtain ⟨v, v1, v2, v3, v4⟩ := C38_down d dx rw rh 1 hd hx (by rw [← p2, hw, ← q2, Nat.mul_comm])
    (by rw [← p3, hh, ← q3, Nat.mul_comm]) (by omega) (by omega)
  refine ⟨u, v, u1, v1, ?_, ?_, ?_⟩
  · intro x y m s hin
    rw [u4 x y m s hin, one_mul]
  · rintro x y m s ⟨i1, i2, i3, i4⟩
    rw [v4 x y m s ⟨by omega, by omega, by omega, by omega⟩, one_mul]
  · obtain ⟨v', u', e1, e2, e3⟩ := C38_adjoint d input dx output rw rh 1 hd hi hx ho
      ⟨q1, q2, q3, q4⟩ (Sh.symm ⟨p1, p2, p3, p4⟩) (by rw [← p2, hw, Nat.mul_comm])
      (by rw [← p3, hh, Nat.mul_comm]) (by omega) (by omega)
    rw [v1] at e1
    rw [u1] at e2
    injection e1 with e1
    injection e2 with e2
    subst e1 e2
    have hc : ∀ a b : Tensor R, Sh a b → dot a b = dot b a := by
      rintro a b ⟨k1, k2, k3, k4⟩
      unfold dot
      rw [k1, k2, k3, k4]
      simp only [mul_comm]
    rw [hc u d (u2.symm.trans ⟨p1, p2, p3, p4⟩), ← e3, hc v input
      (v2.symm.trans (Sh.symm ⟨q1, q2, q3, q4⟩))]

/-- C59, input down-sampling: every output is the mean of its region. -/
theorem C59_downsample [Field R] (rw rh : Nat) (input output : Tensor R) (hi : input.WF)
    (ho : output.WF) (hs : input.samples = output.samples) (hm : input.maps = output.maps)
    (hw : input.width = output.width * rw) (hh : input.height = output.height * rh) :
    ∃ u, downsampleForward rw rh input output = some u ∧ Sh output u ∧ u.WF ∧
      ∀ x y m s, output.InRange x y m s → u.val x y m s =
        (∑ ry ∈ Finset.range rh, ∑ rx ∈ Finset.range rw, input.val (x * rw + rx) (y * rh + ry) m s) /
          ((rw : R) * (rh : R)) := by
  obtain ⟨u, u1, u2, u3, u4⟩ := C38_down input output rw rh (1 / ((rw : R) * (rh : R))) hi ho
    (by rw [hw, Nat.mul_comm]) (by rw [hh, Nat.mul_comm]) hm hs
  refine ⟨u, u1, u2, u3, ?_⟩
  intro x y m s hin
  rw [u4 x y m s hin, one_div, div_eq_inv_mul]

/-- Non-vacuity. -/
example : (upscaleForward 2 1 (⟨1, 2, 1, 1, [1, 2]⟩ : Tensor Int) ⟨1, 4, 1, 1, [0, 0, 0, 0]⟩).map (·.data) =
    some [1, 1, 2, 2] ∧
    (downsampleForward 2 1 (⟨1, 4, 1, 1, [1, 2, 5, 6]⟩ : Tensor Rat) ⟨1, 2, 1, 1, [0, 0]⟩).map (·.data) =
    some [3/2, 11/2] := by decide +kernel

end CN24.Props
