import Verif.Proof.Colorize
import Mathlib.Algebra.Order.Ring.Rat

/-
Property theorems about painting network outputs: C47.
-/

namespace CN24.Props
open CN24 CN24.Tensor CN24.Colorize

variable {R : Type _} [Field R] [LinearOrder R]

/-! ## C47 -/

/-- Class `k` is the first one with the highest output at the pixel. -/
def HighestClass (classes : Nat) (output : Tensor R) (x y s k : Nat) : Prop :=
  k < classes ∧ ∃ v, output.get x y k s = some v ∧
    ∀ c w, c < classes → output.get x y c s = some w → w ≤ v ∧ (c < k → w < v)

/-- The pixel shows `color`: red, green and blue are its third, second and first byte. -/
def ShowsColor (uchar : Nat → R) (t : Tensor R) (x y s color : Nat) : Prop :=
  t.get x y 0 s = some (uchar (color / 2 ^ 16 % 256)) ∧
  t.get x y 1 s = some (uchar (color / 2 ^ 8 % 256)) ∧
  t.get x y 2 s = some (uchar (color % 256))

/-- C47: every pixel at which some class has an output above the smallest positive float is painted
in the colour of the class with the highest output; every other one in the colour of class 0.  The
full property asks for the highest class at those pixels, too. -/
theorem C47_partial (uchar : Nat → R) (tiny : R) (classes : Nat) (hc : 2 ≤ classes)
    (colors : List Nat) (hcol : colors.length = classes) (output target : Tensor R) (ho : output.WF)
    (ht : target.WF) (hmaps : classes ≤ output.maps) (hm : 3 ≤ target.maps)
    (h1 : output.width = target.width) (h2 : output.height = target.height)
    (h3 : output.samples = target.samples) :
    ∃ u, colorize uchar tiny classes colors output target = some u ∧ Sh target u ∧ u.WF ∧
      (∀ x y m s, target.InRange x y m s → 3 ≤ m → u.get x y m s = target.get x y m s) ∧
      ∀ x y s, x < output.width → y < output.height → s < output.samples →
        ((∃ c v, c < classes ∧ output.get x y c s = some v ∧ tiny < v) →
          ∃ k color, HighestClass classes output x y s k ∧ colors[k]? = some color ∧
            ShowsColor uchar u x y s color) ∧
        ((∀ c v, c < classes → output.get x y c s = some v → v ≤ tiny) →
          ∃ color, colors[0]? = some color ∧ ShowsColor uchar u x y s color) := by
  have key : ∀ x y s, x < output.width → y < output.height → s < output.samples →
      ∃ k color, colors[k]? = some color ∧
        pixel uchar tiny classes colors output x y s = some (channels uchar color) ∧
        ((∃ c v, c < classes ∧ output.get x y c s = some v ∧ tiny < v) →
          HighestClass classes output x y s k) ∧
        ((∀ c v, c < classes → output.get x y c s = some v → v ≤ tiny) → k = 0) := by
    intro x y s hx hy hs
    let val : Nat → R := fun c => (output.get x y c s).getD 0
    have hval : ∀ c, c < classes → output.get x y c s = some (val c) := by
      intro c hc'
      obtain ⟨v, hv⟩ := get_of_inRange ho (x := x) (y := y) (m := c) (s := s) ⟨hx, hy, by omega, hs⟩
      simp [val, hv]
    clear_value val
    obtain ⟨k, v, e, h⟩ := argmaxLoop_spec classes tiny val
    have hk : k < classes := by
      rcases h with ⟨_, h, _⟩ | ⟨h, _⟩ <;> omega
    refine ⟨k, colors[k]'(by omega), List.getElem?_eq_getElem _, ?_, ?_, ?_⟩
    · unfold pixel
      rw [if_neg (by omega), argmaxLoop_congr (g := fun i => some (val i)) (fun i hi => hval i hi), e,
        Option.bind_some]
      have : rd colors k = some (colors[k]'(by omega)) := List.getElem?_eq_getElem _
      dsimp only
      rw [this]
      rfl
    · rintro ⟨c, w, hcc, hw, hlt⟩
      rw [hval c hcc] at hw
      rw [← Option.some.inj hw] at hlt
      rcases h with ⟨h, _⟩ | ⟨_, _, _, h4, h5⟩
      · exact absurd hlt (not_lt.2 (h c hcc))
      · refine ⟨hk, val k, hval k hk, ?_⟩
        intro c' w' hc' hw'
        rw [hval c' hc'] at hw'
        rw [← Option.some.inj hw']
        exact ⟨h4 c' hc', h5 c'⟩
    · intro hall
      rcases h with ⟨_, h, _⟩ | ⟨_, _, hlt, _⟩
      · exact h
      · exact absurd hlt (not_lt.2 (hall k _ hk (hval k hk)))
  obtain ⟨u, e, hu⟩ := colorize_spec (uchar := uchar) (tiny := tiny) (classes := classes)
    (colors := colors) (output := output) (by omega) ht hm h1 h2 h3 (by
      intro x y s hx hy hs
      obtain ⟨k, color, _, hp, _⟩ := key x y s hx hy hs
      rw [hp]; rfl)
  have hshow : ∀ x y s color, x < output.width → y < output.height → s < output.samples →
      pixel uchar tiny classes colors output x y s = some (channels uchar color) →
      ShowsColor uchar u x y s color := by
    intro x y s color hx hy hs hp
    have hin : ∀ m, m < 3 → target.InRange x y m s := fun m hm' =>
      ⟨by omega, by omega, by omega, by omega⟩
    refine ⟨hu.hit (hin 0 (by omega)) ?_, hu.hit (hin 1 (by omega)) ?_, hu.hit (hin 2 (by omega)) ?_⟩ <;>
      (rw [hp]; rfl)
  refine ⟨u, e, hu.sh, hu.wf, ?_, ?_⟩
  · intro x y m s hin hm3
    refine hu.miss hin ?_
    cases pixel uchar tiny classes colors output x y s with
    | none => rfl
    | some c =>
      show channel m c = none
      unfold channel
      rw [if_neg (by omega), if_neg (by omega), if_neg (by omega)]
  · intro x y s hx hy hs
    obtain ⟨k, color, hk, hp, k1, k2⟩ := key x y s hx hy hs
    refine ⟨fun h => ⟨k, color, k1 h, hk, hshow x y s color hx hy hs hp⟩, fun h => ?_⟩
    rw [k2 h] at hk
    exact ⟨color, hk, hshow x y s color hx hy hs hp⟩

/-- C47 for one class: every pixel is painted in the colour of the class, scaled by the output mapped
from -1..1 to 0..1. -/
theorem C47_single_class (uchar : Nat → R) (tiny : R) (color : Nat) (colors : List Nat)
    (hcol : colors[0]? = some color) (output target : Tensor R) (ho : output.WF)
    (ht : target.WF) (hmaps : 1 ≤ output.maps) (hm : 3 ≤ target.maps)
    (h1 : output.width = target.width) (h2 : output.height = target.height)
    (h3 : output.samples = target.samples) :
    ∃ u, colorize uchar tiny 1 colors output target = some u ∧
      ∀ x y s, x < output.width → y < output.height → s < output.samples →
        ∃ v, output.get x y 0 s = some v ∧
          u.get x y 0 s = some (uchar (color / 2 ^ 16 % 256) * ((v + 1) / 2)) ∧
          u.get x y 1 s = some (uchar (color / 2 ^ 8 % 256) * ((v + 1) / 2)) ∧
          u.get x y 2 s = some (uchar (color % 256) * ((v + 1) / 2)) := by
  have key : ∀ x y s, x < output.width → y < output.height → s < output.samples →
      ∃ v, output.get x y 0 s = some v ∧ pixel uchar tiny 1 colors output x y s =
        some (uchar (color / 2 ^ 16 % 256) * ((v + 1) / 2),
          uchar (color / 2 ^ 8 % 256) * ((v + 1) / 2), uchar (color % 256) * ((v + 1) / 2)) := by
    intro x y s hx hy hs
    obtain ⟨v, hv⟩ := get_of_inRange ho (x := x) (y := y) (m := 0) (s := s) ⟨hx, hy, by omega, hs⟩
    refine ⟨v, hv, ?_⟩
    unfold pixel
    have : rd colors 0 = some color := hcol
    rw [if_pos rfl, this, Option.bind_some, hv]
    rfl
  obtain ⟨u, e, hu⟩ := colorize_spec (uchar := uchar) (tiny := tiny) (classes := 1)
    (colors := colors) (output := output) (by rintro _ rfl; simp at hcol) ht hm h1 h2 h3 (by
      intro x y s hx hy hs
      obtain ⟨v, _, hp⟩ := key x y s hx hy hs
      rw [hp]; rfl)
  refine ⟨u, e, ?_⟩
  intro x y s hx hy hs
  obtain ⟨v, hv, hp⟩ := key x y s hx hy hs
  have hin : ∀ m, m < 3 → target.InRange x y m s := fun m hm' =>
    ⟨by omega, by omega, by omega, by omega⟩
  refine ⟨v, hv, hu.hit (hin 0 (by omega)) ?_, hu.hit (hin 1 (by omega)) ?_,
    hu.hit (hin 2 (by omega)) ?_⟩ <;> (rw [hp]; rfl)

end CN24.Props

namespace CN24.Props
open CN24 CN24.Tensor CN24.Colorize

/-- The full property fails: where every output is negative, the colour of class 0 is shown although
class 1 has the highest output. -/
theorem C47_negative_outputs :
    (colorize (fun n => (n : Rat)) (1 / 2 ^ 126) 2 [0x112233, 0x445566]
      ⟨1, 1, 1, 2, [-2, -1]⟩ ⟨1, 1, 1, 3, [0, 0, 0]⟩).map (·.data) = some [0x11, 0x22, 0x33] ∧
    HighestClass 2 (⟨1, 1, 1, 2, [-2, -1]⟩ : Tensor Rat) 0 0 0 1 := by
  refine ⟨by decide +kernel, by omega, -1, rfl, ?_⟩
  intro c w hc hw
  have : c = 0 ∨ c = 1 := by omega
  rcases this with rfl | rfl
  · have hv : (some (-2) : Option Rat) = some w := hw
    rw [← Option.some.inj hv]; decide +kernel
  · have hv : (some (-1) : Option Rat) = some w := hw
    rw [← Option.some.inj hv]; decide +kernel

/-- Non-vacuity: two pixels, two classes. -/
example : (colorize (fun n => (n : Rat)) (1 / 2 ^ 126) 2 [0x112233, 0x445566]
      ⟨1, 2, 1, 2, [3, -1, 1, 5]⟩ ⟨1, 2, 1, 3, [0, 0, 0, 0, 0, 0]⟩).map (·.data) =
    some [0x11, 0x44, 0x22, 0x55, 0x33, 0x66] := by decide +kernel

end CN24.Props
