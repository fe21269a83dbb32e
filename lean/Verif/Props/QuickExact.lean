import Verif.Props.QuickRounding

/-
C108: the same for the trainer model with exact numbers.
-/

namespace CN24.QuickRounding
open CN24

section
variable {R : Type _} [Field R] [LinearOrder R] [IsStrictOrderedRing R]

theorem pos_of_pos_mul {a b : R} (h : 0 < a * b) (ha : 0 ≤ a) : 0 < b := by
  by_contra hb
  exact absurd h (not_lt.2 (mul_nonpos_of_nonneg_of_nonpos ha (not_lt.1 hb)))

omit [IsStrictOrderedRing R] in
theorem sgn_exact (a : R) : (0 < a ∧ Trainer.sgn a = 1) ∨ (a = 0 ∧ Trainer.sgn a = 0) ∨ (a < 0 ∧ Trainer.sgn a = -1) := by
  unfold Trainer.sgn
  rcases lt_trichotomy a 0 with h | h | h
  · exact Or.inr (Or.inr ⟨h, by rw [if_neg (not_lt.2 h.le), if_pos h]; rfl⟩)
  · exact Or.inr (Or.inl ⟨h, by subst h; simp⟩)
  · exact Or.inl ⟨h, by rw [if_pos h, if_neg (not_lt.2 h.le)]; rfl⟩

/-- C108 for exact numbers: with `mu` above one, a step that follows a step that did not lead uphill does not lead uphill. -/
theorem C108_exact (mu lr : R) (hmu : 1 < mu) (hlr : 0 ≤ lr) (first : Bool) (slope lastSlope lastStep : R)
    (hl : lastStep * lastSlope ≤ 0) : Trainer.quickStep mu lr first slope lastSlope lastStep * slope ≤ 0 := by
  have hss : 0 ≤ slope * slope := mul_self_nonneg _
  unfold Trainer.quickStep
  split
  · nlinarith
  · split
    · have : -slope * lr * slope = -(lr * (slope * slope)) := by ring
      rw [this]
      have := mul_nonneg hlr hss
      linarith
    · have hq : (if |slope| < |mu * (lastSlope - slope)| ∧ Trainer.sgn lastStep ≠ Trainer.sgn (lastSlope - slope) then
          lastStep * slope / (lastSlope - slope) else mu * lastStep) * slope ≤ 0 := by
        split
        · rename_i h
          have h2 : lastStep * (lastSlope - slope) ≤ 0 := by
            rcases sgn_exact lastStep with ⟨a, a'⟩ | ⟨a, a'⟩ | ⟨a, a'⟩ <;>
              rcases sgn_exact (lastSlope - slope) with ⟨b, b'⟩ | ⟨b, b'⟩ | ⟨b, b'⟩
            · exact absurd (a'.trans b'.symm) h.2
            · rw [b, mul_zero]
            · exact (mul_neg_of_pos_of_neg a b).le
            · rw [a, zero_mul]
            · rw [a, zero_mul]
            · rw [a, zero_mul]
            · exact (mul_neg_of_neg_of_pos a b).le
            · rw [b, mul_zero]
            · exact absurd (a'.trans b'.symm) h.2
          have hd : lastSlope - slope ≠ 0 := by
            intro e
            have := h.1
            rw [e, mul_zero, abs_zero] at this
            exact absurd this (not_lt.2 (abs_nonneg _))
          have e : lastStep * slope / (lastSlope - slope) * slope =
              lastStep * (lastSlope - slope) * (slope * slope) / ((lastSlope - slope) * (lastSlope - slope)) := by
            field_simp
          rw [e]
          exact div_nonpos_of_nonpos_of_nonneg (mul_nonpos_of_nonpos_of_nonneg h2 hss) (mul_self_nonneg _)
        · rename_i h
          by_contra hcon
          push Not at hcon
          have hup : 0 < lastStep * slope := by
            rw [mul_assoc] at hcon
            exact pos_of_pos_mul hcon (by linarith)
          refine h ⟨?_, ?_⟩
          · have hopp : lastSlope * slope ≤ 0 := by
              by_contra hc
              have h1 : 0 < (lastStep * slope) * (lastSlope * slope) := mul_pos hup (not_le.1 hc)
              have h2 : (lastStep * slope) * (lastSlope * slope) = (lastStep * lastSlope) * (slope * slope) := by ring
              have h3 := mul_nonpos_of_nonpos_of_nonneg hl hss
              linarith
            have hbig : |slope| ≤ |lastSlope - slope| := by
              rw [← sq_le_sq]
              nlinarith [mul_self_nonneg lastSlope]
            have hs0 : 0 < |slope| := abs_pos.2 fun e => by rw [e, mul_zero] at hup; exact lt_irrefl _ hup
            rw [abs_mul, abs_of_pos (by linarith : 0 < mu)]
            nlinarith
          · intro e
            rcases sgn_exact lastStep with ⟨a, a'⟩ | ⟨a, a'⟩ | ⟨a, a'⟩ <;>
              rcases sgn_exact (lastSlope - slope) with ⟨b, b'⟩ | ⟨b, b'⟩ | ⟨b, b'⟩ <;>
              first
                | (rw [a', b'] at e; exact absurd e (by decide))
                | (rw [a, zero_mul] at hup; exact lt_irrefl _ hup)
                | (have hs : 0 < slope := pos_of_pos_mul hup a.le
                   have hz : lastSlope ≤ 0 := by
                     by_contra hc
                     exact absurd (mul_pos a (not_le.1 hc)) (not_lt.2 hl)
                   linarith)
                | (have hs : slope < 0 := by
                     by_contra hc
                     exact absurd hup (not_lt.2 (mul_nonpos_of_nonpos_of_nonneg a.le (not_lt.1 hc)))
                   have hz : 0 ≤ lastSlope := by
                     by_contra hc
                     exact absurd (mul_pos_of_neg_of_neg a (not_le.1 hc)) (not_lt.2 hl)
                   linarith)
      dsimp only
      split
      · have h1 := mul_nonneg hlr hss
        rw [sub_mul, mul_assoc lr]
        linarith
      · exact hq

end

/-- After an overshoot. -/
example : Trainer.quickStep (7 / 4 : ℚ) 1 false (-2) 1 (-1) * (-2) ≤ 0 :=
  C108_exact _ _ (by norm_num) (by norm_num) false (-2) 1 (-1) (by norm_num)

end CN24.QuickRounding
