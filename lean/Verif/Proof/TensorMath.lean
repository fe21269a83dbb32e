import Verif.Model.TensorMath
import Verif.Base.Kernel

namespace CN24.TensorMath
open CN24 CN24.Tensor

section
variable {R : Type _} [Zero R] [Add R] [Mul R]

/-! ### IM2COL -/

omit [Add R] [Mul R] in
/-- The padded image: the source pixel, or zero outside. -/
def padded (source : Tensor R) (ix iy : Int) (m s : Nat) : R :=
  if (0 ≤ ix ∧ ix < source.width) ∧ (0 ≤ iy ∧ iy < source.height) then
    source.val ix.toNat iy.toNat m s
  else 0

omit [Zero R] [Add R] [Mul R] in
/-- The source tensor has the dimensions announced in the arguments. -/
def ColShape.FitsSource (c : ColShape) (t : Tensor R) : Prop :=
  t.WF ∧ t.width = c.sourceWidth ∧ t.height = c.sourceHeight ∧ t.maps = c.maps ∧
    t.samples = c.samples

omit [Zero R] [Add R] [Mul R] in
/-- The column tensor has the dimensions that the convolution layer gives it. -/
def ColShape.FitsTarget (c : ColShape) (t : Tensor R) : Prop :=
  t.WF ∧ t.samples = c.targetMaps ∧ t.maps = c.samples ∧ (t.width : Int) = c.targetWidth ∧
    (t.height : Int) = c.targetHeight

theorem imap_lt {c : ColShape} {tm : Nat} (h : tm < c.targetMaps) : c.imap tm < c.maps := by
  unfold ColShape.imap
  unfold ColShape.targetMaps at h
  have hpos : 0 < c.kernelWidth * c.kernelHeight := by
    rcases Nat.eq_zero_or_pos (c.kernelWidth * c.kernelHeight) with h0 | h0
    · rw [h0] at h; simp at h
    · exact h0
  rw [Nat.div_lt_iff_lt_mul hpos, Nat.mul_comm]
  exact h

omit [Zero R] [Add R] [Mul R] in
theorem source_index {c : ColShape} {t : Tensor R} (hf : c.FitsSource t) (sample tm : Nat)
    (iy ix : Int) :
    t.offset 0 0 0 sample + c.sourceIndex tm iy ix = t.offset ix.toNat iy.toNat (c.imap tm) sample := by
  obtain ⟨_, h1, h2, h3, h4⟩ := hf
  rw [offset_eq, offset_eq]
  unfold ColShape.sourceIndex
  rw [← h1, ← h2]
  ring

omit [Zero R] [Add R] [Mul R] in
theorem target_index {c : ColShape} {t : Tensor R} (hf : c.FitsTarget t) (sample tm oy ox : Nat) :
    t.offset 0 0 0 tm + c.targetIndex sample oy ox = t.offset ox oy sample tm := by
  obtain ⟨_, h1, h2, h3, h4⟩ := hf
  rw [offset_eq, offset_eq]
  unfold ColShape.targetIndex
  have e1 : c.targetHeight.toNat = t.height := by omega
  have e2 : c.targetWidth.toNat = t.width := by omega
  rw [e1, e2]
  ring

omit [Zero R] [Add R] [Mul R] in
theorem target_size {c : ColShape} {t : Tensor R} (hf : c.FitsTarget t) :
    c.targetSize = ((t.samples * t.width * t.height * t.maps : Nat) : Int) := by
  obtain ⟨_, h1, h2, h3, h4⟩ := hf
  unfold ColShape.targetSize
  rw [← h3, ← h4, ← h1, ← h2]
  push_cast
  ring

theorem im2col_spec {c : ColShape} {source target : Tensor R} (hsw : 0 < c.strideWidth)
    (hsh : 0 < c.strideHeight) (hs : c.FitsSource source) (ht : c.FitsTarget target) :
    ∃ u, im2col c source target = .done u ∧ Sh target u ∧ u.WF ∧
      ∀ ox oy sample tm, ox < target.width → oy < target.height → sample < c.samples →
        tm < c.targetMaps →
        u.get ox oy sample tm =
          some (padded source (c.ix tm ox) (c.iy tm oy) (c.imap tm) sample) := by
  have e1 : c.targetHeight.toNat = target.height := by have := ht.2.2.2.2; omega
  have e2 : c.targetWidth.toNat = target.width := by have := ht.2.2.2.1; omega
  unfold im2col
  rw [if_neg (by omega), if_neg (by rw [target_size ht]; simp), e1, e2]
  let pv : Nat → Nat → Nat → Nat → R := fun ox oy sample tm =>
    padded source (c.ix tm ox) (c.iy tm oy) (c.imap tm) sample
  have key := forLoop_puts (t0 := target) (t := target) (n := c.samples)
    (f := fun sample => forLoop c.targetMaps (fun tm =>
      forLoop target.height (fun oy =>
        if 0 ≤ c.iy tm oy ∧ c.iy tm oy < c.sourceHeight then
          forLoop target.width (fun ox target =>
            if 0 ≤ c.ix tm ox ∧ c.ix tm ox < c.sourceWidth then
              (rd source.data (source.offset 0 0 0 sample +
                c.sourceIndex tm (c.iy tm oy) (c.ix tm ox))).bind fun v =>
              target.putElem (target.offset 0 0 0 tm + c.targetIndex sample oy ox) v
            else target.putElem (target.offset 0 0 0 tm + c.targetIndex sample oy ox) 0)
        else
          forLoop target.width (fun ox target =>
            target.putElem (target.offset 0 0 0 tm + c.targetIndex sample oy ox) 0))))
    (fun sample => (List.range c.targetMaps).flatMap fun tm => (List.range target.height).flatMap
      fun oy => (List.range target.width).flatMap fun ox =>
        [(target.offset ox oy sample tm, pv ox oy sample tm)]) (Sh.rfl' target) (by
      intro sample u hsample hu
      refine forLoop_puts _ hu ?_
      intro tm u htm hu
      refine forLoop_puts _ hu ?_
      intro oy u hoy hu
      by_cases hy : 0 ≤ c.iy tm oy ∧ c.iy tm oy < c.sourceHeight
      · rw [if_pos hy]
        refine forLoop_puts _ hu ?_
        intro ox u hox hu
        rw [hu.offset, target_index ht]
        by_cases hx : 0 ≤ c.ix tm ox ∧ c.ix tm ox < c.sourceWidth
        · rw [if_pos hx]
          have hin : source.InRange (c.ix tm ox).toNat (c.iy tm oy).toNat (c.imap tm) sample := by
            obtain ⟨_, h1, h2, h3, h4⟩ := hs
            have := imap_lt htm
            exact ⟨by omega, by omega, by omega, by omega⟩
          rw [source_index hs]
          have hg := get_eq_val hs.1 hin
          unfold Tensor.get at hg
          rw [hg, Option.bind_some, putElem_eq_puts]
          have : pv ox oy sample tm = source.val (c.ix tm ox).toNat (c.iy tm oy).toNat (c.imap tm) sample := by
            show padded _ _ _ _ _ = _
            unfold padded
            rw [if_pos]
            rw [hs.2.1, hs.2.2.1]
            exact ⟨hx, hy⟩
          rw [this]
        · rw [if_neg hx, putElem_eq_puts]
          have : pv ox oy sample tm = 0 := by
            show padded _ _ _ _ _ = _
            unfold padded
            rw [if_neg]
            rw [hs.2.1, hs.2.2.1]
            exact fun h => hx h.1
          rw [this]
      · rw [if_neg hy]
        refine forLoop_puts _ hu ?_
        intro ox u hox hu
        rw [hu.offset, target_index ht, putElem_eq_puts]
        have : pv ox oy sample tm = 0 := by
          show padded _ _ _ _ _ = _
          unfold padded
          rw [if_neg]
          rw [hs.2.1, hs.2.2.1]
          exact fun h => hy h.2
        rw [this])
  rw [key]
  obtain ⟨u, h1, h2, h3, h4, _⟩ := puts_coord ht.1
    (es := (List.range c.samples).flatMap fun sample => (List.range c.targetMaps).flatMap fun tm =>
      (List.range target.height).flatMap fun oy => (List.range target.width).flatMap fun ox =>
        [(target.offset ox oy sample tm, pv ox oy sample tm)])
    (R := fun x y m s => target.InRange x y m s) (val := fun x y m s => some (pv x y m s))
    (fun x y m s h => ⟨h, rfl⟩) (by
      intro i v
      simp only [List.mem_flatMap, List.mem_range, List.mem_singleton, Prod.mk.injEq,
        Option.some.injEq, InRange, ht.2.1, ht.2.2.1]
      constructor
      · rintro ⟨s, hs, m, hm, y, hy, x, hx, rfl, rfl⟩
        exact ⟨x, y, s, m, ⟨hx, hy, hs, hm⟩, rfl, rfl⟩
      · rintro ⟨x, y, s, m, ⟨hx, hy, hs, hm⟩, rfl, rfl⟩
        exact ⟨s, hs, m, hm, y, hy, x, hx, rfl, rfl⟩)
  refine ⟨u, by rw [h1]; rfl, h2, h3, ?_⟩
  intro ox oy sample tm h5 h6 h7 h8
  exact h4 ox oy sample tm ⟨h5, h6, by rw [ht.2.2.1]; exact h7, by rw [ht.2.1]; exact h8⟩

/-! ### SMS -/

theorem sms_spec {source target : Tensor R} (hs : source.WF) (ht : target.WF)
    (hw : source.width = target.width) (hh : source.height = target.height)
    (h1 : source.samples = target.maps) (h2 : source.maps = target.samples) :
    ∃ u, sms source target = some u ∧ Sh target u ∧ u.WF ∧
      ∀ x y m s, target.InRange x y m s → u.get x y m s = source.get x y s m := by
  unfold sms
  let v : Nat → Nat → Nat → R := fun m s i => source.data.getD (source.offset 0 0 s m + i) 0
  have hrange : ∀ (t : Tensor R) m s i, m < t.maps → s < t.samples → i < t.width * t.height →
      t.offset 0 0 m s + i = t.offset (i % t.width) (i / t.width) m s ∧
      t.InRange (i % t.width) (i / t.width) m s := by
    intro t m s i hm hs hi
    have hwpos : 0 < t.width := by
      rcases Nat.eq_zero_or_pos t.width with h | h
      · rw [h] at hi; simp at hi
      · exact h
    refine ⟨?_, Nat.mod_lt _ hwpos, ?_, hm, hs⟩
    · unfold offset
      have := Nat.div_add_mod' i t.width
      omega
    · rw [Nat.div_lt_iff_lt_mul hwpos, Nat.mul_comm]; exact hi
  rw [forLoop_puts (t0 := target) (fun s => (List.range target.maps).flatMap fun m =>
    (List.range (target.width * target.height)).flatMap fun i =>
      [(target.offset 0 0 m s + i, v m s i)]) (Sh.rfl' target)]
  · obtain ⟨u, g1, g2, g3, g4, _⟩ := puts_indexed (t := target) (ι := Nat × Nat × Nat)
      (es := (List.range target.samples).flatMap fun s => (List.range target.maps).flatMap fun m =>
        (List.range (target.width * target.height)).flatMap fun i =>
          [(target.offset 0 0 m s + i, v m s i)])
      (fun k => k.1 < target.samples ∧ k.2.1 < target.maps ∧ k.2.2 < target.width * target.height)
      (fun k => target.offset 0 0 k.2.1 k.1 + k.2.2) (fun k => v k.2.1 k.1 k.2.2)
      (by
        intro i w
        simp only [List.mem_flatMap, List.mem_range, List.mem_singleton, Prod.mk.injEq]
        constructor
        · rintro ⟨s, hs, m, hm, j, hj, rfl, rfl⟩; exact ⟨(s, m, j), ⟨hs, hm, hj⟩, rfl, rfl⟩
        · rintro ⟨⟨s, m, j⟩, ⟨hs, hm, hj⟩, rfl, rfl⟩; exact ⟨s, hs, m, hm, j, hj, rfl, rfl⟩)
      (by
        rintro ⟨s, m, i⟩ ⟨h3, h4, h5⟩
        obtain ⟨e, hin⟩ := hrange target m s i h4 h3 h5
        simp only
        rw [e, ht]; exact offset_lt _ hin)
      (by
        rintro ⟨s, m, i⟩ ⟨s', m', i'⟩ ⟨h3, h4, h5⟩ ⟨h3', h4', h5'⟩ e
        obtain ⟨e1, hin⟩ := hrange target m s i h4 h3 h5
        obtain ⟨e2, hin'⟩ := hrange target m' s' i' h4' h3' h5'
        simp only at e ⊢
        rw [e1, e2] at e
        obtain ⟨_, _, rfl, rfl⟩ := offset_inj _ hin hin' e
        rw [← e1, ← e2] at e
        have : i = i' := by omega
        rw [this])
    refine ⟨u, g1, g2, by rw [WF, g3, ht, g2.elements], ?_⟩
    intro x y m s hin
    obtain ⟨hx, hy, hm, hsm⟩ := hin
    have hi : y * target.width + x < target.width * target.height := by
      have := radix_lt hy hx
      rw [Nat.mul_comm target.width]; exact this
    have := g4 (s, m, y * target.width + x) ⟨hsm, hm, hi⟩
    simp only at this
    have e : target.offset 0 0 m s + (y * target.width + x) = target.offset x y m s := by
      unfold offset; omega
    rw [e] at this
    unfold Tensor.get rd
    rw [g2.offset, this]
    have e2 : source.offset 0 0 s m + (y * target.width + x) = source.offset x y s m := by
      unfold offset; rw [hw]; omega
    have hg : source.get x y s m = some (v m s (y * target.width + x)) := by
      show _ = some (source.data.getD _ 0)
      rw [e2]
      exact get_eq_val hs ⟨by omega, by omega, by omega, by omega⟩
    exact hg.symm
  · intro s u hsm hu
    refine forLoop_puts _ hu ?_
    intro m u hm hu
    refine forLoop_puts _ hu ?_
    intro i u hi hu
    obtain ⟨e, hin⟩ := hrange source s m i (by omega) (by omega) (by rw [hw, hh]; exact hi)
    rw [rd_getD 0 (by rw [e, hs]; exact offset_lt _ hin), Option.bind_some, hu.offset,
      putElem_eq_puts]

end

variable {R : Type _} [CommRing R]

/-! ### COL2IM -/

omit [CommRing R] in
theorem setSample_all {t : Tensor R} (hw : t.WF) (v : R) :
    setSample t none v = some { t with data := List.replicate t.data.length v } := by
  unfold setSample
  simp only
  have hoff : t.offset 0 0 0 t.samples = t.data.length := by
    rw [hw, offset_eq, elements_eq]; ring
  rw [hoff, forRange_puts (t0 := t) (fun i => [(i, v)]) (Sh.rfl' t)
    (fun i u _ _ _ => putElem_eq_puts u i v)]
  obtain ⟨u, h1, h2, h3, h4, h5⟩ := puts_indexed (t := t) (ι := Nat)
    (es := (List.range (t.data.length - 0)).flatMap fun i => [(0 + i, v)])
    (fun k => k < t.data.length) (fun k => k) (fun _ => v)
    (by
      intro i w
      simp only [List.mem_flatMap, List.mem_range, List.mem_singleton, Prod.mk.injEq]
      constructor
      · rintro ⟨k, hk, rfl, rfl⟩; exact ⟨0 + k, by omega, rfl, rfl⟩
      · rintro ⟨k, hk, rfl, rfl⟩; exact ⟨i, by omega, by omega, rfl⟩)
    (fun k hk => hk) (fun _ _ _ _ _ => rfl)
  rw [h1]
  congr 1
  obtain ⟨e1, e2, e3, e4⟩ := h2
  have : u.data = List.replicate t.data.length v := by
    apply List.ext_getElem?
    intro j
    by_cases hj : j < t.data.length
    · rw [h4 j hj]; simp [hj]
    · rw [List.getElem?_eq_none (by omega), List.getElem?_eq_none (by simp; omega)]
  cases u
  simp_all

theorem addElem_eq_mods (t : Tensor R) (i : Nat) (v : R) :
    addElem t i v = t.mods (adds [(i, v)]) := by
  unfold addElem
  rw [rd_bind_putElem t i (· + v), updElem_eq_mods]; rfl

/-- The additions `COL2IM` makes, in order. -/
def col2imAdds (c : ColShape) (source target : Tensor R) : List (Nat × R) :=
  (List.range c.samples).flatMap fun sample => (List.range c.targetMaps).flatMap fun tm =>
    (List.range target.height).flatMap fun oy =>
      if 0 ≤ c.iy tm oy ∧ c.iy tm oy < c.sourceHeight then
        (List.range target.width).flatMap fun ox =>
          if 0 ≤ c.ix tm ox ∧ c.iy tm oy < c.sourceWidth then
            [(source.offset (c.ix tm ox).toNat (c.iy tm oy).toNat (c.imap tm) sample,
              target.val ox oy sample tm)]
          else []
      else []

theorem col2im_eq {c : ColShape} {source target : Tensor R} (hsw : 0 < c.strideWidth)
    (hsh : 0 < c.strideHeight) (hs : c.FitsSource source) (ht : c.FitsTarget target) :
    col2im c source target = .ofOption
      (({ source with data := List.replicate source.data.length 0 } : Tensor R).mods
        (adds (col2imAdds c source target))) := by
  have e1 : c.targetHeight.toNat = target.height := by have := ht.2.2.2.2; omega
  have e2 : c.targetWidth.toNat = target.width := by have := ht.2.2.2.1; omega
  unfold col2im
  rw [setSample_all hs.1, Outcome.ofOption_some, Outcome.bind_done, if_neg (by omega),
    if_neg (by rw [target_size ht]; simp), e1, e2]
  congr 1
  have hsh0 : Sh source ({ source with data := List.replicate source.data.length 0 } : Tensor R) :=
    ⟨rfl, rfl, rfl, rfl⟩
  unfold col2imAdds
  rw [adds_flatMap]
  refine forLoop_mods _ hsh0 ?_
  intro sample u hsample hu
  rw [adds_flatMap]
  refine forLoop_mods _ hu ?_
  intro tm u htm hu
  rw [adds_flatMap]
  refine forLoop_mods _ hu ?_
  intro oy u hoy hu
  by_cases hy : 0 ≤ c.iy tm oy ∧ c.iy tm oy < c.sourceHeight
  · rw [if_pos hy, if_pos hy, adds_flatMap]
    refine forLoop_mods _ hu ?_
    intro ox u hox hu
    by_cases hx : 0 ≤ c.ix tm ox ∧ c.iy tm oy < c.sourceWidth
    · rw [if_pos hx, if_pos hx, hu.offset, source_index hs, target_index ht]
      have hin : target.InRange ox oy sample tm :=
        ⟨hox, hoy, by rw [ht.2.2.1]; exact hsample, by rw [ht.2.1]; exact htm⟩
      have hg := get_eq_val ht.1 hin
      unfold Tensor.get at hg
      rw [hg, Option.bind_some, addElem_eq_mods]
    · rw [if_neg hx, if_neg hx]; rfl
  · rw [if_neg hy, if_neg hy]; rfl

/-! ### DOWN, UP and ADD -/

theorem down_spec {source target : Tensor R} {rw rh : Nat} {factor : R} (hs : source.WF)
    (ht : target.WF) (hw : source.width = rw * target.width)
    (hh : source.height = rh * target.height) (hm : source.maps = target.maps)
    (hsm : source.samples = target.samples) :
    ∃ u, down source target rw rh factor = some u ∧ Sh target u ∧ u.WF ∧
      ∀ x y m s, target.InRange x y m s →
        u.get x y m s = some ((∑ ry ∈ Finset.range rh, ∑ rx ∈ Finset.range rw,
          source.val (rw * x + rx) (rh * y + ry) m s) * factor) := by
  unfold down
  let v : Nat → Nat → Nat → Nat → R := fun x y m s =>
    (∑ ry ∈ Finset.range rh, ∑ rx ∈ Finset.range rw,
          source.val (rw * x + rx) (rh * y + ry) m s) * factor
  rw [forLoop_puts (t0 := target) (fun s => (List.range target.maps).flatMap fun m =>
    (List.range target.height).flatMap fun y => (List.range target.width).flatMap fun x =>
      [(target.offset x y m s, v x y m s)]) (Sh.rfl' target)]
  · obtain ⟨u, h1, h2, h3, h4, _⟩ := puts_coord ht
      (es := (List.range target.samples).flatMap fun s => (List.range target.maps).flatMap fun m =>
        (List.range target.height).flatMap fun y => (List.range target.width).flatMap fun x =>
          [(target.offset x y m s, v x y m s)])
      (R := fun x y m s => target.InRange x y m s) (val := fun x y m s => some (v x y m s))
      (fun x y m s h => ⟨h, rfl⟩) (by
        intro i w
        simp only [List.mem_flatMap, List.mem_range, List.mem_singleton, Prod.mk.injEq,
          Option.some.injEq, InRange]
        constructor
        · rintro ⟨s, hs, m, hm, y, hy, x, hx, rfl, rfl⟩
          exact ⟨x, y, m, s, ⟨hx, hy, hm, hs⟩, rfl, rfl⟩
        · rintro ⟨x, y, m, s, ⟨hx, hy, hm, hs⟩, rfl, rfl⟩
          exact ⟨s, hs, m, hm, y, hy, x, hx, rfl, rfl⟩)
    exact ⟨u, h1, h2, h3, h4⟩
  · intro s u hs' hu
    refine forLoop_puts _ hu ?_
    intro m u hm' hu
    refine forLoop_puts _ hu ?_
    intro y u hy hu
    refine forLoop_puts _ hu ?_
    intro x u hx hu
    have hsum : forLoop rh (fun ry => forLoop rw (fun rx sum =>
        (source.get (rw * x + rx) (rh * y + ry) m s).map fun v => sum + v)) 0 =
        some (∑ ry ∈ Finset.range rh, ∑ rx ∈ Finset.range rw,
          source.val (rw * x + rx) (rh * y + ry) m s) := by
      rw [forLoop_sum (g := fun ry => ∑ rx ∈ Finset.range rw,
          source.val (rw * x + rx) (rh * y + ry) m s)]
      · rw [zero_add]
      · intro ry acc hry
        rw [forLoop_sum (g := fun rx => source.val (rw * x + rx) (rh * y + ry) m s)]
        intro rx acc hrx
        rw [get_eq_val hs]
        · rfl
        · have e1 := radix_lt (a := x) (b := target.width) (n := rw) (x := rx) hx hrx
          have e2 := radix_lt (a := y) (b := target.height) (n := rh) (x := ry) hy hry
          rw [Nat.mul_comm x, Nat.mul_comm target.width] at e1
          rw [Nat.mul_comm y, Nat.mul_comm target.height] at e2
          exact ⟨by omega, by omega, by omega, by omega⟩
    rw [hsum, Option.bind_some, put_eq_puts hu]

omit [CommRing R] in
theorem up_spec [Zero R] [Add R] [Mul R] {source target : Tensor R} {rw rh : Nat} {factor : R} (hs : source.WF)
    (ht : target.WF) (hw : target.width = rw * source.width)
    (hh : target.height = rh * source.height) (hm : target.maps = source.maps)
    (hsm : target.samples = source.samples) :
    ∃ u, up source target rw rh factor = some u ∧ Sh target u ∧ u.WF ∧
      ∀ x y m s rx ry, source.InRange x y m s → rx < rw → ry < rh →
        u.get (rw * x + rx) (rh * y + ry) m s = some (source.val x y m s * factor) := by
  unfold up
  have hin : ∀ x y m s rx ry, source.InRange x y m s → rx < rw → ry < rh →
      target.InRange (rw * x + rx) (rh * y + ry) m s := by
    rintro x y m s rx ry ⟨hx, hy, hm', hs'⟩ hrx hry
    have e1 := radix_lt (a := x) (b := source.width) (n := rw) (x := rx) hx hrx
    have e2 := radix_lt (a := y) (b := source.height) (n := rh) (x := ry) hy hry
    rw [Nat.mul_comm x, Nat.mul_comm source.width] at e1
    rw [Nat.mul_comm y, Nat.mul_comm source.height] at e2
    exact ⟨by omega, by omega, by omega, by omega⟩
  rw [forLoop_puts (t0 := target) (fun s => (List.range source.maps).flatMap fun m =>
    (List.range source.height).flatMap fun y => (List.range source.width).flatMap fun x =>
      (List.range rh).flatMap fun ry => (List.range rw).flatMap fun rx =>
      [(target.offset (rw * x + rx) (rh * y + ry) m s, source.val x y m s * factor)])
      (Sh.rfl' target)]
  · obtain ⟨u, g1, g2, g3, g4, _⟩ := puts_indexed (t := target)
      (ι := Nat × Nat × Nat × Nat × Nat × Nat)
      (es := (List.range source.samples).flatMap fun s => (List.range source.maps).flatMap fun m =>
        (List.range source.height).flatMap fun y => (List.range source.width).flatMap fun x =>
        (List.range rh).flatMap fun ry => (List.range rw).flatMap fun rx =>
        [(target.offset (rw * x + rx) (rh * y + ry) m s, source.val x y m s * factor)])
      (fun ⟨x, y, m, s, rx, ry⟩ => source.InRange x y m s ∧ rx < rw ∧ ry < rh)
      (fun ⟨x, y, m, s, rx, ry⟩ => target.offset (rw * x + rx) (rh * y + ry) m s)
      (fun ⟨x, y, m, s, _, _⟩ => source.val x y m s * factor)
      (by
        intro i w
        simp only [List.mem_flatMap, List.mem_range, List.mem_singleton, Prod.mk.injEq]
        constructor
        · rintro ⟨s, hs, m, hm, y, hy, x, hx, ry, hry, rx, hrx, rfl, rfl⟩
          exact ⟨(x, y, m, s, rx, ry), ⟨⟨hx, hy, hm, hs⟩, hrx, hry⟩, rfl, rfl⟩
        · rintro ⟨⟨x, y, m, s, rx, ry⟩, ⟨⟨hx, hy, hm, hs⟩, hrx, hry⟩, rfl, rfl⟩
          exact ⟨s, hs, m, hm, y, hy, x, hx, ry, hry, rx, hrx, rfl, rfl⟩)
      (by
        rintro ⟨x, y, m, s, rx, ry⟩ ⟨h1, h2, h3⟩
        simp only
        rw [ht]; exact offset_lt _ (hin _ _ _ _ _ _ h1 h2 h3))
      (by
        rintro ⟨x, y, m, s, rx, ry⟩ ⟨x', y', m', s', rx', ry'⟩ ⟨h1, h2, h3⟩ ⟨h1', h2', h3'⟩ e
        simp only at e ⊢
        obtain ⟨e1, e2, rfl, rfl⟩ := offset_inj _ (hin _ _ _ _ _ _ h1 h2 h3)
          (hin _ _ _ _ _ _ h1' h2' h3') e
        rw [Nat.mul_comm rw x, Nat.mul_comm rw x'] at e1
        rw [Nat.mul_comm rh y, Nat.mul_comm rh y'] at e2
        obtain ⟨rfl, _⟩ := radix_inj h2 h2' e1
        obtain ⟨rfl, _⟩ := radix_inj h3 h3' e2
        rfl)
    refine ⟨u, g1, g2, by rw [WF, g3, ht, g2.elements], ?_⟩
    intro x y m s rx ry h1 h2 h3
    have := g4 (x, y, m, s, rx, ry) ⟨h1, h2, h3⟩
    simp only at this
    unfold Tensor.get rd
    rw [g2.offset]; exact this
  · intro s u hs' hu
    refine forLoop_puts _ hu ?_
    intro m u hm' hu
    refine forLoop_puts _ hu ?_
    intro y u hy hu
    refine forLoop_puts _ hu ?_
    intro x u hx hu
    rw [get_eq_val hs ⟨hx, hy, hm', hs'⟩, Option.bind_some]
    refine forLoop_puts _ hu ?_
    intro ry u hry hu
    refine forLoop_puts _ hu ?_
    intro rx u hrx hu
    rw [put_eq_puts hu]

theorem add_spec {a b target : Tensor R} (ha : a.WF) (hb : b.WF) (ht : target.WF)
    (h1 : a.samples = b.samples) (h2 : b.samples = target.samples) (h3 : a.elements = b.elements)
    (h4 : b.elements = target.elements) :
    ∃ u, add a b target = .done u ∧ Sh target u ∧ u.data.length = target.data.length ∧
      ∀ i, i < target.elements → u.data[i]? = some (a.data.getD i 0 + b.data.getD i 0) := by
  unfold add
  rw [if_neg (by omega)]
  rw [forLoop_puts (t0 := target) (fun e => [(e, a.data.getD e 0 + b.data.getD e 0)]) (Sh.rfl' target)]
  · obtain ⟨u, g1, g2, g3, g4, _⟩ := puts_indexed (t := target) (ι := Nat)
      (es := (List.range a.elements).flatMap fun e => [(e, a.data.getD e 0 + b.data.getD e 0)])
      (fun k => k < a.elements) (fun k => k) (fun k => a.data.getD k 0 + b.data.getD k 0)
      (by
        intro i w
        simp only [List.mem_flatMap, List.mem_range, List.mem_singleton, Prod.mk.injEq])
      (fun k hk => by rw [ht]; omega) (fun k k' _ _ e => by subst e; rfl)
    exact ⟨u, by rw [g1]; rfl, g2, g3, fun i hi => g4 i (by omega)⟩
  · intro e u he _
    rw [rd_getD 0 (by rw [ha]; omega), Option.bind_some, rd_getD 0 (by rw [hb]; omega),
      Option.bind_some, putElem_eq_puts]

end CN24.TensorMath
