import Verif.Model.StepChecked
import Verif.Props.StepRounding

/-
C106: updates of weights do not overflow for numbers of reasonable size.
-/

namespace CN24.StepRounding
open CN24 CN24.Flt CN24.RoundingNet

theorem check_of {a : Single} (h : a.Finite) : Checked.check a = .of a := if_pos h

theorem add_of {a b : Single} (h : (a + b).Finite) : Checked.of a + Checked.of b = .of (a + b) := check_of h
theorem sub_of {a b : Single} (h : (a - b).Finite) : Checked.of a - Checked.of b = .of (a - b) := check_of h
theorem mul_of {a b : Single} (h : (a * b).Finite) : Checked.of a * Checked.of b = .of (a * b) := check_of h
theorem div_of {a b : Single} (hb : b ≠ 0) (h : (a / b).Finite) : Checked.of a / Checked.of b = .of (a / b) := by
  show (if b = 0 then Checked.overflow else Checked.check (a / b)) = _
  rw [if_neg hb, check_of h]

theorem cast_eq (f : Nat → Checked) (n : Nat) : @Nat.cast Checked ⟨f⟩ n = f n := rfl

theorem cast_of {n : Nat} (h : ((n : Single)).Finite) : ((n : Nat) : Checked) = .of (n : Single) :=
  (cast_eq (fun n => Checked.check n) n).trans (check_of h)

theorem sign_of (w : Single) : sign (Checked.of w) = .of (sign w) := by
  unfold sign
  rw [show (0 : Checked) = .of 0 from rfl]
  simp only [Checked.of_lt]
  split
  · rfl
  · split <;> rfl

theorem finite_of {a : Single} (h : |a.value| < 2 ^ 128) : a.Finite := by
  unfold Single.Finite
  have he : (0 : ℚ) < 2 ^ 149 := by positivity
  unfold Flt.value at h
  rw [abs_div, abs_of_pos he, div_lt_iff₀ he, ← pow_add] at h
  have h' : |a.units| < 2 ^ (128 + 149) := by exact_mod_cast h
  zify
  exact h'

theorem Approx.finite {v : Single} {x A d : ℚ} {c : Nat} (h : Approx v x A c d) (hc : c ≤ 7) (hA : A ≤ 2 ^ 126) (hd : d ≤ 2 ^ 100) :
    v.Finite := by
  apply finite_of
  have h1 := h.err
  have h2 := h.size
  have h3 : (1 + ulp 24) ^ c ≤ (1 + ulp 24) ^ 7 := Flt.pow_mono 24 hc
  have h4 : (1 + ulp 24) ^ 7 ≤ 2 := by unfold ulp; norm_num
  have h5 : |v.value| ≤ |v.value - x| + |x| := by
    have := abs_add_le (v.value - x) x
    rwa [sub_add_cancel] at this
  have hA0 : 0 ≤ A := (abs_nonneg _).trans h2
  have h6 : ((1 + ulp 24) ^ c - 1) * A ≤ 1 * A := mul_le_mul_of_nonneg_right (by linarith) hA0
  have : (2 : ℚ) ^ 126 + 2 ^ 126 + 2 ^ 100 < 2 ^ 128 := by norm_num
  linarith

/-- If all results on the way are finite, nothing overflows. -/
theorem descend_of (r : Rule Single) (g w last : Single) (hcf : ((r.count : Single)).Finite) (hc0 : ((r.count : Single)) ≠ 0)
    (f1 : (g / (r.count : Single)).Finite) (f2 : (g / (r.count : Single) * r.lossSampling).Finite)
    (f3 : (r.layerLr * (g / (r.count : Single) * r.lossSampling)).Finite) (f4 : (r.l2 * w).Finite) (f5 : (r.l1 * sign w).Finite)
    (f6 : (r.l2 * w + r.l1 * sign w).Finite) (f7 : (r.layerLr * (r.l2 * w + r.l1 * sign w)).Finite)
    (f8 : (r.layerLr * (g / (r.count : Single) * r.lossSampling) + r.layerLr * (r.l2 * w + r.l1 * sign w)).Finite)
    (f9 : (r.lr * (r.layerLr * (g / (r.count : Single) * r.lossSampling) + r.layerLr * (r.l2 * w + r.l1 * sign w))).Finite)
    (f10 : (r.momentum * last).Finite)
    (f11 : (r.lr * (r.layerLr * (g / (r.count : Single) * r.lossSampling) + r.layerLr * (r.l2 * w + r.l1 * sign w)) +
      r.momentum * last).Finite)
    (f12 : (w - (r.lr * (r.layerLr * (g / (r.count : Single) * r.lossSampling) + r.layerLr * (r.l2 * w + r.l1 * sign w)) +
      r.momentum * last)).Finite) :
    descend r.checked (.of g) (.of w, .of last) = (.of (descend r g (w, last)).1, .of (descend r g (w, last)).2) := by
  unfold descend step direction Rule.checked
  dsimp only
  rw [sign_of, cast_of hcf, div_of hc0 f1, mul_of f2, mul_of f3, mul_of f4, mul_of f5, add_of f6, mul_of f7, add_of f8, mul_of f9,
    mul_of f10, add_of f11, sub_of f12]

/-- An update does not overflow if gradient, weight and last step are below `2^60` and the settings below `2^20`; it is then
the update of `C106_step_partial`. -/
theorem C106_no_overflow (r : Rule Single) (g w last : Single) (hc : 0 < r.count) (hc' : r.count < 2 ^ 24)
    (hg : |g.value| ≤ 2 ^ 60) (hw : |w.value| ≤ 2 ^ 60) (hlast : |last.value| ≤ 2 ^ 60)
    (hL : |r.layerLr.value| ≤ 2 ^ 20) (h1 : |r.l1.value| ≤ 2 ^ 20) (h2 : |r.l2.value| ≤ 2 ^ 20)
    (hm : |r.momentum.value| ≤ 2 ^ 20) (hP : |r.lossSampling.value| ≤ 1) (hlr : |r.lr.value| ≤ 1) :
    descend r.checked (.of g) (.of w, .of last) = (.of (descend r g (w, last)).1, .of (descend r g (w, last)).2) := by
  have hp : 1 ≤ 24 := by norm_num
  have hcu : ((r.count : Single)).units = r.count * 2 ^ 149 := cast_exact hc'
  have hcv : ((r.count : Single)).value = r.count := by
    unfold Flt.value
    rw [hcu]
    push_cast
    exact mul_div_cancel_right₀ _ (by positivity)
  have hcpos : 0 < ((r.count : Single)).units := by
    rw [hcu]
    positivity
  have hc0 : ((r.count : Single)) ≠ 0 := by
    intro h
    rw [h] at hcpos
    exact absurd hcpos (lt_irrefl _)
  have hcf : ((r.count : Single)).Finite := by
    apply finite_of
    rw [hcv, Nat.abs_cast]
    have : (r.count : ℚ) < 2 ^ 24 := by exact_mod_cast hc'
    exact this.trans (by norm_num)
  have hcq : (1 : ℚ) ≤ r.count := by exact_mod_cast hc
  have hu := ulp_pos 24
  have hu' : ulp 24 ≤ 1 / 100 := by unfold ulp; norm_num
  have ht := tiny_pos 149
  have ht' : tiny 149 ≤ 1 := by
    unfold tiny
    rw [div_le_one (by positivity)]
    exact one_le_pow₀ (by norm_num)
  have mulb : ∀ {a b x y : ℚ}, |a| ≤ x → 0 ≤ b → b ≤ y → |a| * b ≤ x * y := fun ha hb hby =>
    mul_le_mul ha hby hb ((abs_nonneg _).trans ha)
  -- the gradient
  have a1 := (Approx.div hp g (r.count : Single) hcpos)
  have A1 : |g.value / ((r.count : Single)).value| ≤ 2 ^ 60 := by
    rw [hcv, abs_div, Nat.abs_cast]
    exact (div_le_self (abs_nonneg _) hcq).trans hg
  have a2 := a1.mul_right hp r.lossSampling
  have A2 : |g.value / ((r.count : Single)).value| * |r.lossSampling.value| ≤ 2 ^ 60 := by
    have := mulb A1 (abs_nonneg r.lossSampling.value) hP
    rwa [mul_one] at this
  have D2 : (1 + ulp 24) * (|r.lossSampling.value| * tiny 149) + tiny 149 ≤ 2 ^ 2 := by
    have : |r.lossSampling.value| * tiny 149 ≤ 1 * 1 := mulb hP ht.le ht'
    nlinarith
  have a3 := a2.mul_left hp r.layerLr
  have A3 : |r.layerLr.value| * (|g.value / ((r.count : Single)).value| * |r.lossSampling.value|) ≤ 2 ^ 80 :=
    (mulb hL (by positivity) A2).trans (by norm_num)
  have D3 : (1 + ulp 24) * (|r.layerLr.value| * ((1 + ulp 24) * (|r.lossSampling.value| * tiny 149) + tiny 149)) + tiny 149 ≤ 2 ^ 24 := by
    have : |r.layerLr.value| * ((1 + ulp 24) * (|r.lossSampling.value| * tiny 149) + tiny 149) ≤ 2 ^ 20 * 2 ^ 2 :=
      mulb hL (by positivity) D2
    norm_num at this ⊢
    nlinarith
  -- the penalties
  have b1 := Approx.mul hp r.l2 w
  have B1 : |r.l2.value * w.value| ≤ 2 ^ 80 := by
    rw [abs_mul]
    exact (mulb h2 (abs_nonneg _) hw).trans (by norm_num)
  have b2 := Approx.mul hp r.l1 (sign w)
  have B2 : |r.l1.value * (sign w).value| ≤ 2 ^ 20 := by
    rw [abs_mul, sign_value]
    have := mulb h1 (abs_nonneg _) (sign_le w.value)
    rwa [mul_one] at this
  have b3 := b1.add hp b2
  have D5 : (1 + ulp 24) * (tiny 149 + tiny 149) ≤ 2 ^ 2 := by nlinarith
  have b4 := b3.mul_left hp r.layerLr
  have B3 : |r.l2.value * w.value| + |r.l1.value * (sign w).value| ≤ 2 ^ 81 := (add_le_add B1 B2).trans (by norm_num)
  have B4 : |r.layerLr.value| * (|r.l2.value * w.value| + |r.l1.value * (sign w).value|) ≤ 2 ^ 101 :=
    (mulb hL (by positivity) B3).trans (by norm_num)
  have D6 : (1 + ulp 24) * (|r.layerLr.value| * ((1 + ulp 24) * (tiny 149 + tiny 149))) + tiny 149 ≤ 2 ^ 24 := by
    have : |r.layerLr.value| * ((1 + ulp 24) * (tiny 149 + tiny 149)) ≤ 2 ^ 20 * 2 ^ 2 := mulb hL (by positivity) D5
    norm_num at this ⊢
    nlinarith
  -- the step
  have d1 := (a3.mono le_rfl D3).add hp (b4.mono le_rfl D6)
  have E1 := add_le_add A3 B4
  have F1 : (1 + ulp 24) * ((2 : ℚ) ^ 24 + 2 ^ 24) ≤ 2 ^ 26 := by norm_num; linarith
  have d2 := (d1.mono le_rfl F1).mul_left hp r.lr
  have E2 := mulb hlr (by positivity) E1
  have F2 : (1 + ulp 24) * (|r.lr.value| * (2 : ℚ) ^ 26) + tiny 149 ≤ 2 ^ 28 := by
    have : |r.lr.value| * (2 : ℚ) ^ 26 ≤ 1 * 2 ^ 26 := mulb hlr (by positivity) le_rfl
    norm_num at this ⊢
    nlinarith [abs_nonneg r.lr.value]
  have m1 := Approx.mul hp r.momentum last
  have E3 : |r.momentum.value * last.value| ≤ 2 ^ 80 := by
    rw [abs_mul]
    exact (mulb hm (abs_nonneg _) hlast).trans (by norm_num)
  have s1 := (d2.mono (c' := 5) (by norm_num) F2).add hp (m1.mono (c' := 5) (d' := 1) (by norm_num) ht')
  have E4 := add_le_add E2 E3
  have F4 : (1 + ulp 24) * ((2 : ℚ) ^ 28 + 1) ≤ 2 ^ 30 := by norm_num; linarith
  have w1 := ((Approx.exact w).mono (c' := 6) (d' := 0) (by norm_num) le_rfl).sub hp (s1.mono le_rfl F4)
  have E5 := add_le_add hw E4
  have F5 : (1 + ulp 24) * (0 + (2 : ℚ) ^ 30) ≤ 2 ^ 32 := by norm_num; linarith
  exact descend_of r g w last hcf hc0
    (Approx.finite a1 (by norm_num) (A1.trans (by norm_num)) (ht'.trans (by norm_num)))
    (Approx.finite a2 (by norm_num) (A2.trans (by norm_num)) (D2.trans (by norm_num)))
    (Approx.finite a3 (by norm_num) (A3.trans (by norm_num)) (D3.trans (by norm_num)))
    (Approx.finite b1 (by norm_num) (B1.trans (by norm_num)) (ht'.trans (by norm_num)))
    (Approx.finite b2 (by norm_num) (B2.trans (by norm_num)) (ht'.trans (by norm_num)))
    (Approx.finite b3 (by norm_num) (B3.trans (by norm_num)) (D5.trans (by norm_num)))
    (Approx.finite b4 (by norm_num) (B4.trans (by norm_num)) (D6.trans (by norm_num)))
    (Approx.finite d1 (by norm_num) (E1.trans (by norm_num)) (F1.trans (by norm_num)))
    (Approx.finite d2 (by norm_num) (E2.trans (by norm_num)) (F2.trans (by norm_num)))
    (Approx.finite m1 (by norm_num) (E3.trans (by norm_num)) (ht'.trans (by norm_num)))
    (Approx.finite s1 (by norm_num) (E4.trans (by norm_num)) (F4.trans (by norm_num)))
    (Approx.finite w1 (by norm_num) (E5.trans (by norm_num)) (F5.trans (by norm_num)))

example : descend usual.checked (.of ((512 : Nat) : Single)) (.of 1, .of 0) =
    (.of (descend usual ((512 : Nat) : Single) (1, 0)).1, .of (descend usual ((512 : Nat) : Single) (1, 0)).2) := by
  decide +kernel

/-- A gradient close to the largest number overflows with a learning rate of four for the layer. -/
theorem C106_overflow : (descend ({ slow with layerLr := ⟨2 ^ 151⟩ } : Rule Single).checked (.of ⟨2 ^ 276⟩) (.of 1, .of 0)).1 = Checked.overflow := by
  decide +kernel

end CN24.StepRounding
