import Verif.Model.GradientLayers
import Verif.Proof.Gradient
import Verif.Base.Kernel

/-
Conversions between buffers and tensors, and two general ways to show that a layer back-propagates exactly.
-/

namespace CN24.Net
open CN24 CN24.Tensor Finset

theorem pair_comm (n : Nat) (a b : Vec) : pair n a b = pair n b a :=
  Finset.sum_congr rfl fun _ _ => mul_comm _ _

theorem tensorOf_wf (sh : Shape) (v : Vec) : (tensorOf sh v).WF := by
  unfold WF tensorOf elements
  simp

theorem tensorOf_is (sh : Shape) (v : Vec) :
    (tensorOf sh v).Is sh.samples sh.width sh.height sh.maps := ⟨rfl, rfl, rfl, rfl, tensorOf_wf sh v⟩

theorem tensorOf_samples (sh : Shape) (v : Vec) : (tensorOf sh v).samples = sh.samples := rfl
theorem tensorOf_width (sh : Shape) (v : Vec) : (tensorOf sh v).width = sh.width := rfl
theorem tensorOf_height (sh : Shape) (v : Vec) : (tensorOf sh v).height = sh.height := rfl
theorem tensorOf_maps (sh : Shape) (v : Vec) : (tensorOf sh v).maps = sh.maps := rfl

theorem tensorOf_sh (sh : Shape) (v w : Vec) : Sh (tensorOf sh v) (tensorOf sh w) := ⟨rfl, rfl, rfl, rfl⟩

theorem elements_shape (sh : Shape) (v : Vec) : (tensorOf sh v).elements = sh.elements := by
  unfold elements Shape.elements tensorOf
  exact Nat.mul_right_comm _ _ _

theorem shape_elements (t : Tensor ℝ) : t.shape.elements = t.elements := by
  unfold elements Shape.elements shape
  exact (Nat.mul_right_comm _ _ _)

theorem tensorOf_getD (sh : Shape) (v : Vec) {i : Nat} (h : i < sh.elements) :
    (tensorOf sh v).data.getD i 0 = v i := by
  unfold Shape.elements at h
  rw [Nat.mul_right_comm] at h
  unfold tensorOf
  rw [List.getD_eq_getElem?_getD, List.getElem?_map, List.getElem?_range h]
  rfl

theorem tensorOf_val (sh : Shape) (v : Vec) {x y m s : Nat} (h : (tensorOf sh v).InRange x y m s) :
    (tensorOf sh v).val x y m s = v ((tensorOf sh 0).offset x y m s) := by
  have := offset_lt _ h
  rw [elements_shape] at this
  unfold Tensor.val
  rw [tensorOf_getD sh v this]
  rfl

/-- A scalar product of tensors, in terms of buffers. -/
theorem dot_tensorOf (sh : Shape) (t : Tensor ℝ) (v : Vec) (h : Sh (tensorOf sh 0) t) :
    dot t (tensorOf sh v) = pair sh.elements v (vecOf t) := by
  have hs : Sh t (tensorOf sh v) := h.symm
  have he : t.elements = sh.elements := by rw [← elements_shape sh 0, h.elements]
  rw [dot_eq hs, he]
  refine Finset.sum_congr rfl fun i hi => ?_
  rw [tensorOf_getD sh v (Finset.mem_range.1 hi), mul_comm]
  rfl

theorem dot_tensorOf' (sh : Shape) (t : Tensor ℝ) (v : Vec) (h : Sh (tensorOf sh 0) t) :
    dot (tensorOf sh v) t = pair sh.elements (vecOf t) v := by
  rw [dot_eq (show Sh (tensorOf sh v) t from h), elements_shape]
  refine Finset.sum_congr rfl fun i hi => ?_
  rw [tensorOf_getD sh v (Finset.mem_range.1 hi), mul_comm]
  rfl

/-- Two buffers of the same shape are equal where all coordinates agree. -/
theorem vec_ext {sh : Shape} {t : Tensor ℝ} (h : Sh (tensorOf sh 0) t) (f : Vec)
    (hf : ∀ x y m s, (tensorOf sh 0).InRange x y m s → t.val x y m s = f ((tensorOf sh 0).offset x y m s)) :
    ∀ i < sh.elements, vecOf t i = f i := by
  intro i hi
  rw [← elements_shape sh 0] at hi
  obtain ⟨x, y, m, s, hin, rfl⟩ := offset_surj _ hi
  rw [← hf x y m s hin]
  unfold Tensor.val vecOf
  rw [h.offset]

theorem tensorOf_vecOf {sh : Shape} {t : Tensor ℝ} (h : Sh (tensorOf sh 0) t) (hw : t.WF) :
    tensorOf sh (vecOf t) = t := by
  obtain ⟨h1, h2, h3, h4⟩ := h
  cases t with
  | mk a b c d l =>
    change sh.samples = a at h1
    change sh.width = b at h2
    change sh.height = c at h3
    change sh.maps = d at h4
    subst h1 h2 h3 h4
    unfold tensorOf vecOf
    simp only [Tensor.mk.injEq, true_and]
    unfold WF elements at hw
    simp only at hw
    rw [← hw]
    refine List.ext_getElem? fun i => ?_
    rw [List.getElem?_map]
    by_cases hi : i < l.length
    · rw [List.getElem?_range hi, List.getElem?_eq_getElem hi, Option.map_some, List.getD_eq_getElem?_getD,
        List.getElem?_eq_getElem hi]
      rfl
    · rw [List.getElem?_eq_none (by simpa using hi), List.getElem?_eq_none (by simpa using hi)]
      rfl

/-- One entry of a buffer as a scalar product. -/
theorem pair_single (n i : Nat) (v : Vec) (hi : i < n) : pair n (fun k => if k = i then 1 else 0) v = v i := by
  unfold pair
  rw [Finset.sum_eq_single i]
  · simp
  · intro b _ hb; simp [hb]
  · intro h; exact absurd (Finset.mem_range.2 hi) h

theorem pair_hasDerivAt (n : Nat) (a : Vec) (X : ℝ → Vec) (X' : Vec)
    (h : ∀ i < n, HasDerivAt (fun s => X s i) (X' i) 0) :
    HasDerivAt (fun s => pair n a (X s)) (pair n a X') 0 := by
  unfold pair
  exact HasDerivAt.fun_sum fun i hi => (h i (Finset.mem_range.1 hi)).const_mul (a i)

theorem pair_sub (n : Nat) (a v w : Vec) : pair n a v - pair n a w = pair n a fun i => v i - w i := by
  unfold pair
  rw [← Finset.sum_sub_distrib]
  exact Finset.sum_congr rfl fun _ _ => by ring

/-- Sums over the inputs, those without propagation contributing nothing. -/
theorem sum_inputs (ins : List (Nat × Bool)) (r X' : Nat → Vec)
    (hstop : ∀ j k : Nat, ins[j]? = some (k, false) → ∀ i < k, X' j i = 0) :
    (∑ j ∈ range ins.length, if (ins.getD j (0, false)).2 = true then
      pair (ins.getD j (0, false)).1 (r j) (X' j) else 0) =
    ∑ j ∈ range ins.length, pair (ins.getD j (0, false)).1 (r j) (X' j) := by
  refine Finset.sum_congr rfl fun j hj => ?_
  have hj' := Finset.mem_range.1 hj
  obtain ⟨e, he⟩ : ∃ e, ins[j]? = some e := ⟨_, List.getElem?_eq_getElem hj'⟩
  have hg : ins.getD j (0, false) = e := by rw [List.getD_eq_getElem?_getD, he]; rfl
  rw [hg]
  obtain ⟨k, pr⟩ := e
  cases pr with
  | true => rfl
  | false =>
    rw [if_neg (by simp)]
    symm
    unfold pair
    refine Finset.sum_eq_zero fun i hi => ?_
    rw [hstop j k he i (Finset.mem_range.1 hi), mul_zero]

/-- Layers whose output is an affine function of the inputs back-propagate exactly if the backward pass is the
adjoint of the forward pass. -/
theorem exact_affine (L : LayerSem) (ins : List (Nat × Bool)) (out : Nat → Nat) (B : Nat → Vec → Vec) (k : Vec → ℝ)
    (p : Vec) (x : Nat → Vec) (hloss : ∀ q z, L.loss q z = 0)
    (hF : ∀ q z d, pair (out 0) d (L.forward q z 0) =
      k d + ∑ j ∈ range ins.length, pair (ins.getD j (0, false)).1 (B j d) (z j))
    (hB : ∀ (d : Nat → Vec) (j n : Nat), ins[j]? = some (n, true) →
      (L.backward (ins.any (·.2)) p x (L.forward p x) d).1 j = some (B j (d 0))) :
    ExactAt L 0 ins 1 out p x := by
  intro P P' X X' hP hX _ hX' hstop
  have hder : ∀ j ∈ range ins.length, ∀ i < (ins.getD j (0, false)).1,
      HasDerivAt (fun s => X s j i) (X' j i) 0 := by
    intro j hj i hi
    have hj' := Finset.mem_range.1 hj
    have he : ins[j]? = some (ins.getD j (0, false)) := by
      rw [List.getD_eq_getElem?_getD, List.getElem?_eq_getElem hj']; rfl
    exact hX' j (ins.getD j (0, false)).1 (ins.getD j (0, false)).2 he i hi
  have hout : ∀ (q : Vec) (z : Nat → Vec) (i : Nat), i < out 0 → L.forward q z 0 i =
      k (fun n => if n = i then 1 else 0) + ∑ j ∈ range ins.length,
        pair (ins.getD j (0, false)).1 (B j fun n => if n = i then 1 else 0) (z j) := by
    intro q z i hi
    rw [← hF, pair_single _ _ _ hi]
  refine ⟨fun _ i => ∑ j ∈ range ins.length,
    pair (ins.getD j (0, false)).1 (B j fun n => if n = i then 1 else 0) (X' j), 0, ?_, ?_, ?_⟩
  · intro b hb i hi
    obtain rfl : b = 0 := Nat.lt_one_iff.1 hb
    simp only [hout _ _ i hi]
    refine HasDerivAt.const_add _ (HasDerivAt.fun_sum fun j hj => ?_)
    exact pair_hasDerivAt _ _ (fun s => X s j) (X' j) (hder j hj)
  · simp only [hloss]
    exact hasDerivAt_const _ _
  · intro d
    refine ⟨fun j => B j (d 0), fun j n hj => hB d j n hj, ?_⟩
    rw [sum_inputs ins _ X' hstop]
    have h1 := hF p X' (d 0)
    have h0 := hF p (fun _ => 0) (d 0)
    have hz : ∑ j ∈ range ins.length, pair (ins.getD j (0, false)).1 (B j (d 0)) ((fun _ => 0 : Nat → Vec) j) = 0 :=
      Finset.sum_eq_zero fun j _ => by simp [pair]
    rw [hz, add_zero] at h0
    have h2 : pair (out 0) (d 0) (fun i => ∑ j ∈ range ins.length,
        pair (ins.getD j (0, false)).1 (B j fun n => if n = i then 1 else 0) (X' j)) =
        pair (out 0) (d 0) (L.forward p X' 0) - pair (out 0) (d 0) (L.forward p (fun _ => 0) 0) := by
      rw [pair_sub]
      refine Finset.sum_congr rfl fun i hi => ?_
      have hi' := Finset.mem_range.1 hi
      beta_reduce
      rw [hout p X' i hi', hout p (fun _ => 0) i hi']
      have hz' : ∑ j ∈ range ins.length, pair (ins.getD j (0, false)).1 (B j fun n => if n = i then 1 else 0)
          ((fun _ => 0 : Nat → Vec) j) = 0 := Finset.sum_eq_zero fun j _ => by simp [pair]
      rw [hz']
      ring
    rw [Finset.range_one, Finset.sum_singleton, h2, h1, h0]
    simp only [pair, Finset.range_zero, Finset.sum_empty]
    ring

/-- Layers that apply a function to every element. -/
theorem exact_elementwise (L : LayerSem) (n : Nat) (pr : Bool) (out : Nat → Nat) (hout : out 0 = n) (F : ℝ → ℝ)
    (F' : Nat → ℝ) (p : Vec) (x : Nat → Vec) (hloss : ∀ q z, L.loss q z = 0)
    (hF : ∀ q z, ∀ i < n, L.forward q z 0 i = F (z 0 i))
    (hd : ∀ i < n, HasDerivAt F (F' i) (x 0 i))
    (hB : ∀ d : Nat → Vec, ∃ r, (L.backward pr p x (L.forward p x) d).1 0 = some r ∧
      ∀ i < n, r i = d 0 i * F' i) :
    ExactAt L 0 [(n, pr)] 1 out p x := by
  intro P P' X X' hP hX _ hX' hstop
  refine ⟨fun _ i => F' i * X' 0 i, 0, ?_, ?_, ?_⟩
  · intro b hb i hi
    obtain rfl : b = 0 := Nat.lt_one_iff.1 hb
    rw [hout] at hi
    simp only [hF _ _ i hi]
    have h1 := hX' 0 n pr rfl i hi
    have h2 := hd i hi
    rw [← hX] at h2
    exact HasDerivAt.comp (h₂ := F) (0 : ℝ) h2 h1
  · simp only [hloss]
    exact hasDerivAt_const _ _
  · intro d
    obtain ⟨r, hr, hri⟩ := hB d
    refine ⟨fun _ => r, ?_, ?_⟩
    · intro j k hj
      cases j with
      | zero =>
        cases hj
        simpa using hr
      | succ j => simp at hj
    · rw [sum_inputs [(n, pr)] _ X' hstop]
      simp only [List.length_singleton, Finset.range_one, Finset.sum_singleton, List.getD_cons_zero]
      simp only [pair, Finset.range_zero, Finset.sum_empty, hout]
      rw [zero_add, add_zero]
      refine Finset.sum_congr rfl fun i hi => ?_
      rw [hri i (Finset.mem_range.1 hi)]
      ring

end CN24.Net
