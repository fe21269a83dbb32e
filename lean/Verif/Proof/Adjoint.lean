import Verif.Proof.TensorMath
import Mathlib.Algebra.BigOperators.Group.Finset.Sigma

namespace CN24.TensorMath
open CN24 CN24.Tensor

variable {R : Type _} [CommRing R]

theorem col2im_adjoint {c : ColShape} {x y g0 t0 : Tensor R}
    (hstride : 0 < c.strideWidth ∧ 0 < c.strideHeight)
    (hx : c.FitsSource x) (hg : c.FitsSource g0) (hy : c.FitsTarget y) (ht : c.FitsTarget t0)
    (hagree : ∀ tm ox oy, tm < c.targetMaps → ox < y.width → oy < y.height →
      0 ≤ c.iy tm oy → c.iy tm oy < c.sourceHeight → 0 ≤ c.ix tm ox →
      (c.iy tm oy < c.sourceWidth ↔ c.ix tm ox < c.sourceWidth)) :
    ∃ p q, im2col c x t0 = .done p ∧ col2im c g0 y = .done q ∧ Sh y p ∧ Sh x q ∧
      dot p y = dot x q := by
  obtain ⟨p, hp1, hp2, hp3, hp4⟩ := im2col_spec hstride.1 hstride.2 hx ht
  have hxg : Sh x g0 := by
    obtain ⟨_, a, b, d, e⟩ := hx
    obtain ⟨_, a', b', d', e'⟩ := hg
    exact ⟨by omega, by omega, by omega, by omega⟩
  have hty : Sh t0 y := by
    obtain ⟨_, a, b, d, e⟩ := hy
    obtain ⟨_, a', b', d', e'⟩ := ht
    exact ⟨by omega, by omega, by omega, by omega⟩
  have hin : ∀ sample tm oy ox, sample < c.samples → tm < c.targetMaps → oy < y.height →
      ox < y.width → (0 ≤ c.iy tm oy ∧ c.iy tm oy < c.sourceHeight) →
      (0 ≤ c.ix tm ox ∧ c.iy tm oy < c.sourceWidth) →
      g0.InRange (c.ix tm ox).toNat (c.iy tm oy).toNat (c.imap tm) sample := by
    intro sample tm oy ox h1 h2 h3 h4 h5 h6
    have := (hagree tm ox oy h2 h4 h3 h5.1 h5.2 h6.1).1 h6.2
    have := imap_lt h2
    obtain ⟨_, a', b', d', e'⟩ := hg
    exact ⟨by omega, by omega, by omega, by omega⟩
  have hbound : ∀ e ∈ col2imAdds c g0 y, e.1 < g0.data.length := by
    rintro ⟨i, v⟩ he
    unfold col2imAdds at he
    simp only [List.mem_flatMap, List.mem_range] at he
    obtain ⟨sample, h1, tm, h2, oy, h3, he⟩ := he
    split at he
    · rename_i h5
      simp only [List.mem_flatMap, List.mem_range] at he
      obtain ⟨ox, h4, he⟩ := he
      split at he
      · rename_i h6
        simp only [List.mem_singleton, Prod.mk.injEq] at he
        rw [he.1, hg.1]
        exact offset_lt _ (hin _ _ _ _ h1 h2 h3 h4 h5 h6)
      · simp at he
    · simp at he
  obtain ⟨q, hq1, hq2, hq3, hq4⟩ := adds_spec
    (t := ({ g0 with data := List.replicate g0.data.length 0 } : Tensor R))
    (es := col2imAdds c g0 y) (by intro e he; simpa using hbound e he)
  have hxq : Sh x q := hxg.trans ⟨hq2.1, hq2.2.1, hq2.2.2.1, hq2.2.2.2⟩
  refine ⟨p, q, hp1, ?_, hty.symm.trans hp2, hxq, ?_⟩
  · rw [col2im_eq hstride.1 hstride.2 hg hy, hq1]; rfl
  -- right side
  have hlen : g0.data.length = x.elements := by rw [hg.1]; exact hxg.elements
  have hR : dot x q = pairSum (fun j => x.data.getD j 0) (col2imAdds c g0 y) := by
    rw [dot_eq hxq, ← sum_mul_sumAt _ x.elements _ (fun e he => by rw [← hlen]; exact hbound e he)]
    refine Finset.sum_congr rfl fun j hj => ?_
    have hj' := Finset.mem_range.1 hj
    congr 1
    have := hq4 j
    rw [List.getD_eq_getElem?_getD, this]
    simp [hlen, hj']
  rw [hR]
  unfold col2imAdds
  rw [pairSum_flatMap_range]
  -- left side
  have hpw : p.width = y.width := by have := hp2.2.1; have := hty.2.1; omega
  have hph : p.height = y.height := by have := hp2.2.2.1; have := hty.2.2.1; omega
  have hpm : p.maps = c.samples := by have := hp2.2.2.2; have := ht.2.2.1; omega
  have hps : p.samples = c.targetMaps := by have := hp2.1; have := ht.2.1; omega
  unfold dot
  rw [hpw, hph, hpm, hps, Finset.sum_comm]
  refine Finset.sum_congr rfl fun sample hsample => ?_
  rw [pairSum_flatMap_range]
  refine Finset.sum_congr rfl fun tm htm => ?_
  rw [pairSum_flatMap_range]
  refine Finset.sum_congr rfl fun oy hoy => ?_
  simp only [Finset.mem_range] at hsample htm hoy
  have hval : ∀ ox, ox < y.width → p.val ox oy sample tm =
      padded x (c.ix tm ox) (c.iy tm oy) (c.imap tm) sample := by
    intro ox hox
    exact val_of_get (hp4 ox oy sample tm (by rw [hty.2.1]; exact hox)
      (by rw [hty.2.2.1]; exact hoy) hsample htm)
  by_cases h5 : 0 ≤ c.iy tm oy ∧ c.iy tm oy < c.sourceHeight
  · rw [if_pos h5, pairSum_flatMap_range]
    refine Finset.sum_congr rfl fun ox hox => ?_
    have hox' := Finset.mem_range.1 hox
    rw [hval ox hox']
    unfold padded
    rw [hx.2.1, hx.2.2.1]
    by_cases h6 : 0 ≤ c.ix tm ox ∧ c.iy tm oy < c.sourceWidth
    · have h7 := (hagree tm ox oy htm hox' hoy h5.1 h5.2 h6.1).1 h6.2
      rw [if_pos ⟨⟨h6.1, h7⟩, h5⟩, if_pos h6]
      unfold pairSum val
      simp [hxg.offset]
    · rw [if_neg h6, if_neg]
      · simp [pairSum]
      · rintro ⟨⟨h7, h8⟩, _⟩
        exact h6 ⟨h7, (hagree tm ox oy htm hox' hoy h5.1 h5.2 h7).2 h8⟩
  · rw [if_neg h5]
    have : ∀ ox ∈ Finset.range y.width, p.val ox oy sample tm * y.val ox oy sample tm = 0 := by
      intro ox hox
      rw [hval ox (Finset.mem_range.1 hox)]
      unfold padded
      rw [hx.2.1, hx.2.2.1, if_neg (fun h => h5 h.2), zero_mul]
    rw [Finset.sum_eq_zero this]
    rfl

end CN24.TensorMath
