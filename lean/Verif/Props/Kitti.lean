import Verif.Model.Kitti
import Mathlib.Algebra.Order.Ring.Rat
import Mathlib.Tactic.Linarith
import Mathlib.Tactic.NormNum
import Mathlib.Tactic.Ring
import Mathlib.Tactic.Positivity

/-! C54: the localised KITTI error weight is bounded. -/

namespace CN24.Props
open CN24 CN24.Kitti
section
variable {R : Type _} [Field R] [LinearOrder R] [IsStrictOrderedRing R]

theorem clamp_bounds (v : R) : 1 ≤ clamp v ∧ clamp v ≤ 7 := by
  unfold clamp
  refine ⟨le_max_left _ _, max_le (by norm_num) (min_le_left _ _)⟩

theorem quotient_bounds (hsc : Nat → Nat) (y : Nat) :
    (1 : R) ≤ quotient hsc y ∧ (quotient hsc y : R) ≤ 7 := by
  unfold quotient
  split
  · constructor <;> norm_num
  · exact clamp_bounds _

/-- The road region of the reference image as seen from the vanishing point: below line 190, and not
further from the centre column than three times the distance from line 140. -/
def InRoadRegion (wsc hsc : Nat → Nat) (x y : Nat) : Prop :=
  hsc 190 < y ∧ (wsc ((wsc 613 : Int) - x).natAbs : Int) ≤ 3 * ((y : Int) - hsc 140)

/-- The weight of a pixel outside the road region is exactly 0.1275. -/
theorem C54_outside (wsc hsc : Nat → Nat) (x y : Nat) (h : ¬ InRoadRegion wsc hsc x y) :
    (localizedError wsc hsc x y : R) = 1275 / 10000 := by
  have h0 : (xyAllowed wsc hsc x y * yFactor hsc y : R) = 0 := by
    unfold xyAllowed yFactor distance
    by_cases h1 : hsc 190 < y
    · have h2 : ¬ (wsc ((wsc 613 : Int) - x).natAbs : Int) ≤ 3 * ((y : Int) - hsc 140) :=
        fun h2 => h ⟨h1, h2⟩
      rw [if_pos (by omega), zero_mul]
    · rw [if_neg (show ¬ y > hsc 190 from h1), mul_zero]
  unfold localizedError
  rw [h0]
  norm_num

/-- Inside the road region the weight is 0.51 times the square of the clamped inverse distance from line
170. -/
theorem C54_inside (wsc hsc : Nat → Nat) (x y : Nat) (h : InRoadRegion wsc hsc x y)
    (h170 : hsc 170 ≤ hsc 190) :
    (localizedError wsc hsc x y : R) =
      51 / 100 * (max 1 (min 7 ((hsc 200 : R) / ((y : R) - (hsc 170 : R))))) ^ 2 := by
  have h1 : (xyAllowed wsc hsc x y * yFactor hsc y : R) = 1 := by
    unfold xyAllowed yFactor distance
    have h2 := h.2
    rw [if_neg (by omega), if_pos (show y > hsc 190 from h.1), one_mul]
  unfold localizedError
  rw [h1]
  unfold quotient
  have := h.1
  rw [if_neg (by omega)]
  unfold clamp
  ring

/-- C54: for every pixel, image size and rounding of the scaled coordinates the weight lies between
0.1275 and 24.99. -/
theorem C54_bounds (wsc hsc : Nat → Nat) (x y : Nat) :
    (1275 / 10000 : R) ≤ localizedError wsc hsc x y ∧
      (localizedError wsc hsc x y : R) ≤ 2499 / 100 := by
  by_cases hr : InRoadRegion wsc hsc x y
  · have h1 : (xyAllowed wsc hsc x y * yFactor hsc y : R) = 1 := by
      unfold xyAllowed yFactor distance
      have h2 := hr.2
      rw [if_neg (by omega), if_pos (show y > hsc 190 from hr.1), one_mul]
    unfold localizedError
    rw [h1]
    obtain ⟨b1, b2⟩ := quotient_bounds (R := R) hsc y
    generalize (quotient hsc y : R) = q at b1 b2
    have h3 : 1 ≤ q ^ 2 := by nlinarith
    have h4 : q ^ 2 ≤ 49 := by nlinarith
    constructor
    · linarith
    · linarith
  · rw [C54_outside wsc hsc x y hr]
    constructor <;> norm_num

/-- Further down the image within the road region the weight never grows. -/
theorem C54_decreasing (wsc hsc : Nat → Nat) (x x' y y' : Nat) (hr : InRoadRegion wsc hsc x y)
    (hr' : InRoadRegion wsc hsc x' y') (h170 : hsc 170 ≤ hsc 190) (hy : y ≤ y') :
    (localizedError wsc hsc x' y' : R) ≤ localizedError wsc hsc x y := by
  rw [C54_inside wsc hsc x y hr h170, C54_inside wsc hsc x' y' hr' h170]
  have h1 := hr.1
  have hp : (0 : R) < (y : R) - (hsc 170 : R) := by
    have : ((hsc 170 : Nat) : R) < (y : R) := by exact_mod_cast (by omega : hsc 170 < y)
    linarith
  have hyR : (y : R) ≤ (y' : R) := by exact_mod_cast hy
  have hle : (hsc 200 : R) / ((y' : R) - (hsc 170 : R)) ≤ (hsc 200 : R) / ((y : R) - (hsc 170 : R)) :=
    div_le_div_of_nonneg_left (by positivity) hp (by linarith)
  have hm := max_le_max (le_refl (1 : R)) (min_le_min (le_refl (7 : R)) hle)
  have h0 : (0 : R) ≤ max 1 (min 7 ((hsc 200 : R) / ((y' : R) - (hsc 170 : R)))) :=
    le_trans (by norm_num) (le_max_left _ _)
  have := pow_le_pow_left₀ h0 hm 2
  linarith

/-- The exact scaling of an image of any size keeps line 170 above line 190, as the theorems above
ask for, so the claims hold for the function the program uses. -/
theorem C54_images (x y w h : Nat) :
    ((1275 / 10000 : R) ≤ kittiError x y w h ∧ (kittiError x y w h : R) ≤ 2499 / 100) ∧
      170 * h / 370 ≤ 190 * h / 370 :=
  ⟨C54_bounds _ _ x y, Nat.div_le_div_right (by omega)⟩

end

/-- Both bounds are attained on the 1226 x 370 reference image. -/
theorem C54_attained : (kittiError 613 198 1226 370 : Rat) = 2499 / 100 ∧
    (kittiError 613 100 1226 370 : Rat) = 1275 / 10000 := by
  constructor <;> decide +kernel

/-- Non-vacuity of the road region: a pixel inside and one outside. -/
example : InRoadRegion (fun v => v * 1226 / 1226) (fun v => v * 370 / 370) 600 250 ∧
    ¬ InRoadRegion (fun v => v * 1226 / 1226) (fun v => v * 370 / 370) 0 200 := by
  unfold InRoadRegion
  decide

example : (kittiError 600 250 1226 370 : Rat) = 51 / 16 := by decide +kernel

end CN24.Props
