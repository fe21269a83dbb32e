import Verif.Props.GradientLayers

/-
C65, C85: concrete cases of the layers that back-propagate exactly under conditions.
-/

namespace CN24.Net
open CN24 CN24.Tensor CN24.Props Finset

/-- Pixels with growing values. -/
noncomputable def growing : Nat → Vec := fun _ i => i + 1

theorem growing_val (sh : Shape) {x y m s : Nat} (h : (tensorOf sh (growing 0)).InRange x y m s) :
    (tensorOf sh (growing 0)).val x y m s = ((tensorOf sh 0).offset x y m s : ℝ) + 1 := tensorOf_val sh _ h

/-- Where values grow to the right and downwards, the last pixel of each region is its only greatest one. -/
theorem growing_noTies (rw rh sw sh ow oh : Nat) (inp : Shape) (hrw : 0 < rw) (hrh : 0 < rh)
    (hin : Inside rw rh sw sh ow oh inp) : NoTies rw rh sw sh ow oh inp (growing 0) := by
  intro ox oy m s hx hy hm hs
  have h1 := hin.1 ox hx
  have h2 := hin.2 oy hy
  refine ⟨rw - 1, rh - 1, by omega, by omega, ?_⟩
  intro i j hi hj hne
  rw [growing_val inp ⟨by show _ < inp.width; omega, by show _ < inp.height; omega, hm, hs⟩,
    growing_val inp ⟨by show _ < inp.width; omega, by show _ < inp.height; omega, hm, hs⟩]
  have : (tensorOf inp 0).offset (ox * sw + i) (oy * sh + j) m s <
      (tensorOf inp 0).offset (ox * sw + (rw - 1)) (oy * sh + (rh - 1)) m s := by
    show s * inp.maps * inp.width * inp.height + m * inp.width * inp.height + (oy * sh + j) * inp.width + (ox * sw + i) <
      s * inp.maps * inp.width * inp.height + m * inp.width * inp.height + (oy * sh + (rh - 1)) * inp.width + (ox * sw + (rw - 1))
    rcases Nat.lt_or_ge j (rh - 1) with h | h
    · have h3 : (oy * sh + j + 1) * inp.width ≤ (oy * sh + (rh - 1)) * inp.width := Nat.mul_le_mul_right _ (by omega)
      rw [Nat.add_mul (oy * sh + j) 1, Nat.one_mul] at h3
      omega
    · obtain rfl : j = rh - 1 := by omega
      have : i ≠ rw - 1 := fun e => hne ⟨e, rfl⟩
      omega
  have : ((tensorOf inp 0).offset (ox * sw + i) (oy * sh + j) m s : ℝ) <
      (tensorOf inp 0).offset (ox * sw + (rw - 1)) (oy * sh + (rh - 1)) m s := by exact_mod_cast this
  linarith

/-- Overlapping regions of two by two pixels, two maps, two images. -/
example (p : Vec) : ExactAt (poolSem 0 2 2 1 1 4 2 ⟨2, 5, 3, 2⟩) 0 [((⟨2, 5, 3, 2⟩ : Shape).elements, true)] 1
    (fun _ => (⟨2, 4, 2, 2⟩ : Shape).elements) p growing := by
  have hin : Inside 2 2 1 1 4 2 ⟨2, 5, 3, 2⟩ :=
    ⟨fun ox h => by show ox * 1 + 2 ≤ 5; omega, fun oy h => by show oy * 1 + 2 ≤ 3; omega⟩
  exact C65_strided_pooling 0 2 2 1 1 4 2 _ (by norm_num) (by norm_num) (by norm_num) (by norm_num) hin (by norm_num)
    true p growing (fun i _ => by unfold growing; positivity)
    (growing_noTies _ _ _ _ _ _ _ (by norm_num) (by norm_num) hin)

/-- Regions of three by two pixels. -/
example (p : Vec) : ExactAt (maxPoolSem 0 3 2 2 2 ⟨2, 6, 4, 2⟩) 0 [((⟨2, 6, 4, 2⟩ : Shape).elements, true)] 1
    (fun _ => (⟨2, 2, 2, 2⟩ : Shape).elements) p growing := by
  have hin : Inside 3 2 3 2 2 2 ⟨2, 6, 4, 2⟩ :=
    ⟨fun ox h => by show ox * 3 + 3 ≤ 6; omega, fun oy h => by show oy * 2 + 2 ≤ 4; omega⟩
  exact C65_max_pooling 0 3 2 2 2 _ (by norm_num) (by norm_num) rfl rfl (by norm_num)
    true p growing (fun i _ => by unfold growing; positivity)
    (growing_noTies _ _ _ _ _ _ _ (by norm_num) (by norm_num) hin)

example (p : Vec) : ExactAt (reluSem ⟨2, 5, 3, 2⟩) 0 [((⟨2, 5, 3, 2⟩ : Shape).elements, true)] 1
    (fun _ => (⟨2, 5, 3, 2⟩ : Shape).elements) p fun _ i => i - 7 / 2 :=
  C65_relu _ true p _ fun i _ h => by
    have h2 : (2 * i : ℝ) = 7 := by
      have : (i : ℝ) - 7 / 2 = 0 := h
      linarith
    have h3 : 2 * i = 7 := by exact_mod_cast h2
    omega

/-- The weights of the pixels may have several maps. -/
example (p : Vec) (out : Nat → Nat) : ExactAt (errorSem (1 / 2) ⟨2, 5, 3, 2⟩ ⟨2, 5, 3, 4⟩) 0
    [((⟨2, 5, 3, 2⟩ : Shape).elements, true), ((⟨2, 5, 3, 2⟩ : Shape).elements, false),
      ((⟨2, 5, 3, 4⟩ : Shape).elements, false)] 0 out p growing :=
  C65_error (1 / 2) ⟨2, 5, 3, 2⟩ ⟨2, 5, 3, 4⟩ ⟨rfl, rfl, rfl, by norm_num⟩ true out p growing

/-- Kernels of two by two pixels with a stride of one, two groups. -/
example (p : Vec) (pr : Bool) : let l : Convolution.Layer ℝ := Convolution.Layer.connect ⟨2, 2, 2, 1, 1, 0, 0, 2⟩ 0 1 3 3 2 2 2
    ExactAt (convSem l) (l.weights.elements + l.bias.elements) [(l.input.elements, pr)] 1
      (fun _ => l.output.elements) p growing := by
  intro l
  refine C65_convolution l (Props.connect_connected _ _ _ _ _ _ _ _ (by decide) (by decide) (by decide) (by decide) (by decide)
    (by decide)) rfl pr (fun _ => ?_) p growing
  have : ∀ tm < 8, ∀ ox < 2, ∀ oy < 2, (l.shape.iy tm oy < 3 ↔ l.shape.ix tm ox < 3) := by decide +kernel
  exact fun tm ox oy h1 h2 h3 _ _ _ => this tm h1 ox h2 oy h3

end CN24.Net
