import Verif.Props.StepRounding
import Verif.Props.LossLine

/-
C106: whole iterations, from the gradients of the passes.
-/

namespace CN24.StepRounding
open CN24 CN24.Flt CN24.RoundingNet

/-- The updated weight after an iteration with several passes is that of the rule for the sum of the gradients, up to rounding. -/
theorem C106_iteration_partial (r : Rule Single) (gs : List Single) (w last : Single) (hc : 0 < r.count) (hc' : r.count < 2 ^ 24)
    (hn : gs.length ≤ 2 ^ 22) (K : ℚ) (hK : 1 ≤ K)
    (hL : |r.layerLr.value| ≤ K) (hP : |r.lossSampling.value| ≤ 1) (hlr : |r.lr.value| ≤ 1) :
    |(iteration r gs (w, last)).1.value - (manual r.exact (gs.map Flt.value).sum w.value last.value).1| ≤
      magnitude r.exact (accumulated gs).value w.value last.value / 2 ^ 21 +
        K * (gs.length / 2 ^ 23) * ((gs.map fun g => |g.value|).sum / r.count) + K / 2 ^ 146 := by
  have h1 := (C106_step_partial r (accumulated gs) w last hc hc' K hK hL hP hlr).1
  have hsum := LossLine.sum_approx gs 0 0 0 0 ⟨by rw [value_zero]; simp, by simp, le_rfl⟩
  rw [zero_add, zero_add, Nat.zero_add] at hsum
  change Approx (accumulated gs) _ _ _ _ at hsum
  have herr := hsum.err
  rw [add_zero] at herr
  have hA0 : 0 ≤ (gs.map fun g => |g.value|).sum := (abs_nonneg _).trans hsum.size
  have hnq : (gs.length : ℚ) ≤ 2 ^ 22 := by exact_mod_cast hn
  have hu : ulp 24 = 1 / 2 ^ 24 := rfl
  have hnu : (gs.length : ℚ) * ulp 24 ≤ 1 / 2 := by rw [hu]; norm_num; linarith
  have hpow := pow_le_two_mul 24 gs.length hnu
  have herr' : |(accumulated gs).value - (gs.map Flt.value).sum| ≤ gs.length / 2 ^ 23 * (gs.map fun g => |g.value|).sum := by
    refine herr.trans (mul_le_mul_of_nonneg_right ?_ hA0)
    refine (sub_le_iff_le_add'.2 hpow).trans (le_of_eq ?_)
    rw [hu]
    ring
  have hcq : (0 : ℚ) < r.count := by exact_mod_cast hc
  have hdiff : (manual r.exact (accumulated gs).value w.value last.value).1 - (manual r.exact (gs.map Flt.value).sum w.value last.value).1 =
      -(r.lr.value * r.layerLr.value * r.lossSampling.value * (((accumulated gs).value - (gs.map Flt.value).sum) / r.count)) := by
    unfold manual Rule.exact
    dsimp only
    ring
  have h2 : |(manual r.exact (accumulated gs).value w.value last.value).1 - (manual r.exact (gs.map Flt.value).sum w.value last.value).1| ≤
      K * (gs.length / 2 ^ 23) * ((gs.map fun g => |g.value|).sum / r.count) := by
    rw [hdiff, abs_neg, abs_mul, abs_mul, abs_mul, abs_div, Nat.abs_cast]
    have e1 : |r.lr.value| * |r.layerLr.value| * |r.lossSampling.value| ≤ K := by
      calc |r.lr.value| * |r.layerLr.value| * |r.lossSampling.value| ≤ 1 * K * 1 := by gcongr
        _ = K := by ring
    have e2 : |(accumulated gs).value - (gs.map Flt.value).sum| / r.count ≤ gs.length / 2 ^ 23 * (gs.map fun g => |g.value|).sum / r.count := by
      gcongr
    calc _ ≤ K * (gs.length / 2 ^ 23 * (gs.map fun g => |g.value|).sum / r.count) := by gcongr
      _ = _ := by ring
  have h3 := abs_add_le ((iteration r gs (w, last)).1.value - (manual r.exact (accumulated gs).value w.value last.value).1)
    ((manual r.exact (accumulated gs).value w.value last.value).1 - (manual r.exact (gs.map Flt.value).sum w.value last.value).1)
  rw [sub_add_sub_cancel] at h3
  have h1' : |(iteration r gs (w, last)).1.value - (manual r.exact (accumulated gs).value w.value last.value).1| ≤
      magnitude r.exact (accumulated gs).value w.value last.value / 2 ^ 21 + K / 2 ^ 146 := h1
  linarith

/-- Three passes. -/
example : |(iteration usual [1, ⟨2 ^ 140⟩, ⟨-2 ^ 149⟩] (1, 0)).1.value -
    (manual usual.exact (([1, ⟨2 ^ 140⟩, ⟨-2 ^ 149⟩] : List Single).map Flt.value).sum (1 : Single).value (0 : Single).value).1| ≤
      magnitude usual.exact (accumulated ([1, ⟨2 ^ 140⟩, ⟨-2 ^ 149⟩] : List Single)).value (1 : Single).value (0 : Single).value / 2 ^ 21 +
        1 * ((([1, ⟨2 ^ 140⟩, ⟨-2 ^ 149⟩] : List Single).length : ℚ) / 2 ^ 23) *
          ((([1, ⟨2 ^ 140⟩, ⟨-2 ^ 149⟩] : List Single).map fun g => |g.value|).sum / (usual.count : ℚ)) + 1 / 2 ^ 146 :=
  C106_iteration_partial usual _ 1 0 (by decide) (by decide) (by norm_num) 1 (le_refl _)
    (by rw [show usual.layerLr.value = 1 from value_one']; simp)
    (by rw [show usual.lossSampling.value = 1 from value_one']; simp)
    (by show |(((2 ^ 136 : Int)) : ℚ) / 2 ^ 149| ≤ 1; rw [abs_of_nonneg (by positivity)]; norm_num)

end CN24.StepRounding
