import Verif.Model.Colorize
import Verif.Base.Writes

namespace CN24.Colorize
open CN24.Tensor
variable {R : Type _}

/-- Channel `m` of a colour. -/
def channel (m : Nat) (c : R × R × R) : Option R :=
  if m = 0 then some c.1 else if m = 1 then some c.2.1 else if m = 2 then some c.2.2 else none

theorem put3_spec {t : Tensor R} (hw : t.WF) (hm : 3 ≤ t.maps) {x y s : Nat} (hx : x < t.width)
    (hy : y < t.height) (hs : s < t.samples) (c : R × R × R) :
    ∃ u, put3 x y s c t = some u ∧ Upd t u (fun x' y' m' s' =>
      if x' = x ∧ y' = y ∧ s' = s then channel m' c else none) := by
  unfold put3
  obtain ⟨u, e, h⟩ := upd_bind (f := fun t => (t.put x y 1 s c.2.1).bind fun t => t.put x y 2 s c.2.2)
    (upd_put hw (x := x) (y := y) (m := 0) (s := s) ⟨hx, hy, by omega, hs⟩ c.1) (by
      intro u hu1 hu2
      obtain ⟨q1, q2, q3, q4⟩ := hu1
      exact upd_bind (f := fun t => t.put x y 2 s c.2.2)
        (upd_put hu2 (x := x) (y := y) (m := 1) (s := s)
          ⟨by omega, by omega, by omega, by omega⟩ c.2.1) (by
          intro v hv1 hv2
          obtain ⟨r1, r2, r3, r4⟩ := hv1
          exact upd_put hv2 (x := x) (y := y) (m := 2) (s := s)
            ⟨by omega, by omega, by omega, by omega⟩ c.2.2))
  refine ⟨u, e, h.congr ?_⟩
  intro x' y' m' s' _
  unfold channel
  by_cases hc : x' = x ∧ y' = y ∧ s' = s
  · obtain ⟨rfl, rfl, rfl⟩ := hc
    by_cases h0 : m' = 0
    · subst h0; simp
    · by_cases h1 : m' = 1
      · subst h1; simp
      · by_cases h2 : m' = 2
        · subst h2; simp
        · simp [h0, h1, h2]
  · rw [if_neg hc, if_neg (by tauto), if_neg (by tauto), if_neg (by tauto)]
    rfl

section
variable [Field R] [LinearOrder R]

theorem colorize_spec {uchar : Nat → R} {tiny : R} {classes : Nat} {colors : List Nat}
    {output target : Tensor R} (hcol : classes = 1 → colors ≠ []) (hw : target.WF)
    (hm : 3 ≤ target.maps) (h1 : output.width = target.width) (h2 : output.height = target.height)
    (h3 : output.samples = target.samples)
    (hp : ∀ x y s, x < output.width → y < output.height → s < output.samples →
      (pixel uchar tiny classes colors output x y s).isSome) :
    ∃ u, colorize uchar tiny classes colors output target = some u ∧
      Upd target u (fun x y m s => (pixel uchar tiny classes colors output x y s).bind (channel m)) := by
  unfold colorize
  rw [if_neg (by tauto)]
  refine upd_loop hw (fun sample x y m s => if s = sample then
    (pixel uchar tiny classes colors output x y s).bind (channel m) else none) _ ?_ ?_ ?_
  · intro sample u hs hu1 hu2
    refine upd_loop hu2 (fun y' x y m s => if s = sample ∧ y = y' then
      (pixel uchar tiny classes colors output x y s).bind (channel m) else none) _ ?_ ?_ ?_
    · intro y' u' hy hu1' hu2'
      refine upd_loop hu2' (fun x' x y m s => if s = sample ∧ y = y' ∧ x = x' then
        (pixel uchar tiny classes colors output x y s).bind (channel m) else none) _ ?_ ?_ ?_
      · intro x' u'' hx hu1'' hu2''
        obtain ⟨c, hc⟩ := Option.isSome_iff_exists.1 (hp x' y' sample hx hy hs)
        rw [hc, Option.bind_some]
        obtain ⟨q1, q2, q3, q4⟩ := (hu1.trans hu1').trans hu1''
        obtain ⟨w, ew, hw'⟩ := put3_spec hu2'' (by omega) (x := x') (y := y') (s := sample) (by omega)
          (by omega) (by omega) c
        refine ⟨w, ew, hw'.congr ?_⟩
        intro x y m s _
        by_cases h : x = x' ∧ y = y' ∧ s = sample
        · obtain ⟨rfl, rfl, rfl⟩ := h
          rw [if_pos ⟨rfl, rfl, rfl⟩, if_pos ⟨rfl, rfl, rfl⟩, hc, Option.bind_some]
        · rw [if_neg h, if_neg (by tauto)]
      · intro x' x y m s v _ _ h
        split at h
        · rename_i hc; rw [if_pos ⟨hc.1, hc.2.1⟩]; exact h
        · simp at h
      · intro x y m s v hin h
        split at h
        · rename_i hc
          obtain ⟨q1, q2, q3, q4⟩ := hu1.trans hu1'
          refine ⟨x, ?_, by rw [if_pos ⟨hc.1, hc.2, rfl⟩]; exact h⟩
          have := hin.1
          omega
        · simp at h
    · intro y' x y m s v _ _ h
      split at h
      · rename_i hc; rw [if_pos hc.1]; exact h
      · simp at h
    · intro x y m s v hin h
      split at h
      · rename_i hc
        obtain ⟨q1, q2, q3, q4⟩ := hu1
        refine ⟨y, ?_, by rw [if_pos ⟨hc, rfl⟩]; exact h⟩
        have := hin.2.1
        omega
      · simp at h
  · intro sample x y m s v _ _ h
    split at h
    · exact h
    · simp at h
  · intro x y m s v hin h
    refine ⟨s, ?_, by rw [if_pos rfl]; exact h⟩
    have := hin.2.2.2
    omega

end
end CN24.Colorize
