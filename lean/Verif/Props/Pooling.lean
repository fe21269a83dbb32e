import Verif.Proof.Pooling

/-
Property theorems about the pooling layers: C36 (accepted geometries), C39 (max-pooling),
C40 (overlapping max-pooling).
-/

namespace CN24.Props
open CN24 CN24.Tensor CN24.Pooling

/-- `v` is the greatest value of the region of `t` with corner `(x0, y0)` and size `rw × rh`. -/
def RegionMax {α : Type _} [LE α] (t : Tensor α) (x0 y0 rw rh m s : Nat) (v : α) : Prop :=
  (∃ i j, i < rw ∧ j < rh ∧ t.get (x0 + i) (y0 + j) m s = some v) ∧
  ∀ i j w, i < rw → j < rh → t.get (x0 + i) (y0 + j) m s = some w → w ≤ v

section
variable {α : Type _} [LinearOrder α]

theorem found_regionMax {t : Tensor α} {lowest : α} {x0 y0 rw rh m s : Nat} {r : α × Nat × Nat}
    (h : Found t lowest x0 y0 rw rh m s r)
    (hex : ∃ i j w, i < rw ∧ j < rh ∧ t.get (x0 + i) (y0 + j) m s = some w ∧ lowest ≤ w) :
    RegionMax t x0 y0 rw rh m s r.1 := by
  rcases h with ⟨h1, rfl⟩ | ⟨i, j, hi, hj, _, h3, _, h5⟩
  · obtain ⟨i, j, w, hi, hj, hw, hl⟩ := hex
    have := le_antisymm (h1 i j w hi hj hw) hl
    subst this
    exact ⟨⟨i, j, hi, hj, hw⟩, h1⟩
  · exact ⟨⟨i, j, hi, hj, h3⟩, h5⟩

theorem found_position {t : Tensor α} {lowest : α} {x0 y0 rw rh m s : Nat} {r : α × Nat × Nat}
    (h : Found t lowest x0 y0 rw rh m s r)
    (hex : ∃ i j w, i < rw ∧ j < rh ∧ t.get (x0 + i) (y0 + j) m s = some w ∧ lowest < w) :
    (∃ i j, i < rw ∧ j < rh ∧ r.2 = (x0 + i, y0 + j)) ∧ t.get r.2.1 r.2.2 m s = some r.1 ∧
      RegionMax t x0 y0 rw rh m s r.1 := by
  obtain ⟨i, j, w, hi, hj, hw, hl⟩ := hex
  have hm := found_regionMax h ⟨i, j, w, hi, hj, hw, hl.le⟩
  rcases h with ⟨h1, rfl⟩ | ⟨i, j, hi, hj, h2, h3, h4, h5⟩
  · exact absurd (h1 i j w hi hj hw) (not_le.2 hl)
  · exact ⟨⟨i, j, hi, hj, h2⟩, by rw [h2]; exact h3, hm⟩

/-! ## C39 -/

/-- C39, forward: every output is the greatest value of its region.  Values below the start value
`lowest` (negative infinity) are excluded. -/
theorem C39_forward (input out : Tensor α) (mx my : Tensor Nat) (lowest : α) (rw rh : Nat)
    (hrw : 0 < rw) (hrh : 0 < rh)
    (hi : input.WF) (hm : mx.WF) (hy : my.WF) (ho : out.WF) (h1 : Sh out mx) (h2 : Sh out my)
    (hs : out.samples = input.samples) (hmaps : out.maps = input.maps)
    (hw : input.width = out.width * rw) (hh : input.height = out.height * rh)
    (hlow : ∀ v ∈ input.data, lowest ≤ v) :
    ∃ mx' my' out', forward lowest rw rh input ((mx, my), out) = some ((mx', my'), out') ∧
      Sh out out' ∧ out'.WF ∧
      ∀ ox oy m s, out.InRange ox oy m s → ∃ v, out'.get ox oy m s = some v ∧
        RegionMax input (ox * rw) (oy * rh) rw rh m s v := by
  obtain ⟨mx', my', out', g1, _, _, g4, _, _, g7, g8⟩ :=
    forward_spec (lowest := lowest) hi hm hy ho h1 h2 hs hmaps hw hh
  refine ⟨mx', my', out', g1, g4, g7, ?_⟩
  intro ox oy m s hin
  obtain ⟨r, f1, f2, _⟩ := g8 ox oy m s hin
  refine ⟨r.1, f2, found_regionMax f1 ?_⟩
  obtain ⟨i1, i2, i3, i4⟩ := hin
  have e1 := radix_lt i1 hrw
  have e2 := radix_lt i2 hrh
  obtain ⟨w, hw'⟩ := get_some hi (x := ox * rw + 0) (y := oy * rh + 0) (m := m) (s := s)
    ⟨by omega, by omega, by omega, by omega⟩
  exact ⟨0, 0, w, hrw, hrh, hw', hlow w (List.mem_of_getElem? hw')⟩

/-- C39, backward: after a forward pass the backward pass hands the delta of each output to one
position of its region that holds the region's maximum; all other positions get zero.  Every
region must contain a value above `lowest`, and the image must be at most 2^24 pixels wide and
high, since the positions are stored as `float`. -/
theorem C39_gradient_partial {β : Type _} [Zero β] (input out : Tensor α) (mx my : Tensor Nat)
    (d dx : Tensor β) (lowest : α) (rw rh : Nat)
    (hi : input.WF) (hm : mx.WF) (hy : my.WF) (ho : out.WF) (h1 : Sh out mx) (h2 : Sh out my)
    (hs : out.samples = input.samples) (hmaps : out.maps = input.maps)
    (hw : input.width = out.width * rw) (hh : input.height = out.height * rh)
    (hd : d.WF) (hdx : dx.WF) (hd1 : Sh out d) (hd2 : Sh input dx)
    (hsize : input.width ≤ 2 ^ 24 ∧ input.height ≤ 2 ^ 24)
    (hlow : ∀ ox oy m s, out.InRange ox oy m s → ∃ i j w, i < rw ∧ j < rh ∧
      input.get (ox * rw + i) (oy * rh + j) m s = some w ∧ lowest < w) :
    ∃ mx' my' out' dx', forward lowest rw rh input ((mx, my), out) = some ((mx', my'), out') ∧
      backward mx' my' d dx = some dx' ∧ Sh dx dx' ∧ dx'.WF ∧
      ∃ px py : Nat → Nat → Nat → Nat → Nat,
        (∀ ox oy m s, out.InRange ox oy m s →
          (∃ i j, i < rw ∧ j < rh ∧ px ox oy m s = ox * rw + i ∧ py ox oy m s = oy * rh + j) ∧
          (∃ v, input.get (px ox oy m s) (py ox oy m s) m s = some v ∧
            RegionMax input (ox * rw) (oy * rh) rw rh m s v) ∧
          dx'.get (px ox oy m s) (py ox oy m s) m s = d.get ox oy m s) ∧
        (∀ x y m s, input.InRange x y m s →
          (∀ ox oy, out.InRange ox oy m s → ¬ (px ox oy m s = x ∧ py ox oy m s = y)) →
          dx'.get x y m s = some 0) := by
  obtain ⟨mx', my', out', g1, g2, g3, g4, g5, g6, g7, g8⟩ :=
    forward_spec (lowest := lowest) hi hm hy ho h1 h2 hs hmaps hw hh
  have hpos : ∃ P : Nat → Nat → Nat → Nat → Nat × Nat, ∀ ox oy m s, out.InRange ox oy m s →
      (∃ i j, i < rw ∧ j < rh ∧ (P ox oy m s).1 = ox * rw + i ∧ (P ox oy m s).2 = oy * rh + j) ∧
      (∃ v, input.get (P ox oy m s).1 (P ox oy m s).2 m s = some v ∧
            RegionMax input (ox * rw) (oy * rh) rw rh m s v) ∧
      mx'.get ox oy m s = some (P ox oy m s).1 ∧ my'.get ox oy m s = some (P ox oy m s).2 := by
    refine ⟨fun ox oy m s => ((mx'.get ox oy m s).getD 0, (my'.get ox oy m s).getD 0), ?_⟩
    intro ox oy m s hin
    obtain ⟨r, f1, f2, f3, f4⟩ := g8 ox oy m s hin
    obtain ⟨⟨i, j, hi', hj', hr⟩, f5, f6⟩ := found_position f1 (hlow ox oy m s hin)
    obtain ⟨i1, i2, i3, i4⟩ := hin
    have e1 := radix_lt i1 hi'
    have e2 := radix_lt i2 hj'
    have r1 : r.2.1 = ox * rw + i := by rw [hr]
    have r2 : r.2.2 = oy * rh + j := by rw [hr]
    rw [toF32_of_lt (by omega)] at f3
    rw [toF32_of_lt (by omega)] at f4
    simp only [f3, f4, Option.getD_some]
    exact ⟨⟨i, j, hi', hj', r1, r2⟩, ⟨r.1, f5, f6⟩, trivial, trivial⟩
  obtain ⟨P, hP⟩ := hpos
  obtain ⟨cl, c1, c2, c3, c4⟩ := clear_spec hdx (0 : β)
  have hin_cl : ∀ ox oy m s, out.InRange ox oy m s →
      cl.InRange (P ox oy m s).1 (P ox oy m s).2 m s := by
    intro ox oy m s hin
    obtain ⟨⟨i, j, hi', hj', r1, r2⟩, _⟩ := hP ox oy m s hin
    obtain ⟨i1, i2, i3, i4⟩ := hin
    have e1 := radix_lt i1 hi'
    have e2 := radix_lt i2 hj'
    obtain ⟨q1, q2, q3, q4⟩ := hd2.trans c2
    exact ⟨by omega, by omega, by omega, by omega⟩
  obtain ⟨k1, k2, k3, k4⟩ := hd2.trans c2
  obtain ⟨l1, l2, l3, l4⟩ := hd1
  have hdget : ∀ ox oy m s, out.InRange ox oy m s → ∃ v, d.get ox oy m s = some v := by
    rintro ox oy m s ⟨i1, i2, i3, i4⟩
    unfold Tensor.get
    exact ⟨_, rd_eq_some (by
      rw [hd]; exact offset_lt d ⟨by omega, by omega, by omega, by omega⟩)⟩
  -- the position determines the output
  have hinj : ∀ ox oy m s ox' oy', out.InRange ox oy m s → out.InRange ox' oy' m s →
      P ox oy m s = P ox' oy' m s → ox = ox' ∧ oy = oy' := by
    intro ox oy m s ox' oy' hin hin' he
    obtain ⟨⟨i, j, hi', hj', r1, r2⟩, _⟩ := hP ox oy m s hin
    obtain ⟨⟨i', j', hi'', hj'', r1', r2'⟩, _⟩ := hP ox' oy' m s hin'
    rw [he] at r1 r2
    exact ⟨(radix_inj hi' hi'' (r1.symm.trans r1')).1, (radix_inj hj' hj'' (r2.symm.trans r2')).1⟩
  have hrun : backward mx' my' d dx = cl.puts ((List.range cl.samples).flatMap fun s =>
      (List.range cl.maps).flatMap fun m => (List.range d.width).flatMap fun ox =>
        (List.range d.height).flatMap fun oy =>
          [(cl.offset (P ox oy m s).1 (P ox oy m s).2 m s, (d.get ox oy m s).getD 0)]) := by
    unfold backward
    rw [c1, Option.bind_some]
    refine forLoop_puts _ (Sh.rfl' cl) ?_
    intro s u hs' hu
    refine forLoop_puts _ hu ?_
    intro m u hm' hu
    refine forLoop_puts _ hu ?_
    intro ox u hox hu
    refine forLoop_puts _ hu ?_
    intro oy u hoy hu
    have hin : out.InRange ox oy m s := ⟨by omega, by omega, by omega, by omega⟩
    obtain ⟨_, _, p1, p2⟩ := hP ox oy m s hin
    obtain ⟨v, hv⟩ := hdget ox oy m s hin
    rw [p1, p2, hv]
    simp only [Option.bind_some, Option.getD_some]
    exact put_eq_puts hu _ _ _ _ _
  obtain ⟨u, u1, u2, u3, u4, u5⟩ := puts_indexed (t := cl) (ι := Nat × Nat × Nat × Nat)
    (es := (List.range cl.samples).flatMap fun s =>
      (List.range cl.maps).flatMap fun m => (List.range d.width).flatMap fun ox =>
        (List.range d.height).flatMap fun oy =>
          [(cl.offset (P ox oy m s).1 (P ox oy m s).2 m s, (d.get ox oy m s).getD 0)])
    (fun q => out.InRange q.1 q.2.1 q.2.2.1 q.2.2.2)
    (fun q => cl.offset (P q.1 q.2.1 q.2.2.1 q.2.2.2).1 (P q.1 q.2.1 q.2.2.1 q.2.2.2).2 q.2.2.1 q.2.2.2)
    (fun q => (d.get q.1 q.2.1 q.2.2.1 q.2.2.2).getD 0)
    (by
      intro i w
      simp only [List.mem_flatMap, List.mem_range, List.mem_singleton, Prod.mk.injEq, InRange]
      constructor
      · rintro ⟨s, hs, m, hm, x, hx, y, hy, rfl, rfl⟩
        exact ⟨(x, y, m, s), ⟨by dsimp only; omega, by dsimp only; omega, by dsimp only; omega,
          by dsimp only; omega⟩, rfl, rfl⟩
      · rintro ⟨⟨x, y, m, s⟩, ⟨hx, hy, hm, hs⟩, rfl, rfl⟩
        simp only at hx hy hm hs
        exact ⟨s, by omega, m, by omega, x, by omega, y, by omega, rfl, rfl⟩)
    (by
      rintro ⟨x, y, m, s⟩ hin
      rw [c3]; exact offset_lt _ (hin_cl x y m s hin))
    (by
      rintro ⟨x, y, m, s⟩ ⟨x', y', m', s'⟩ hin hin' he
      obtain ⟨e1, e2, e3, e4⟩ := offset_inj cl (hin_cl x y m s hin) (hin_cl x' y' m' s' hin') he
      simp only at e1 e2 e3 e4 hin hin' ⊢
      subst e3 e4
      obtain ⟨rfl, rfl⟩ := hinj x y m s x' y' hin hin' (Prod.ext e1 e2)
      rfl)
  refine ⟨mx', my', out', u, g1, by rw [hrun, u1], c2.trans u2,
    by rw [WF, u3, c3, u2.elements], fun ox oy m s => (P ox oy m s).1,
    fun ox oy m s => (P ox oy m s).2, ?_, ?_⟩
  · intro ox oy m s hin
    obtain ⟨p1, p2, p3, p4⟩ := hP ox oy m s hin
    refine ⟨p1, p2, ?_⟩
    have := u4 (ox, oy, m, s) hin
    obtain ⟨v, hv⟩ := hdget ox oy m s hin
    rw [hv]
    simp only [hv, Option.getD_some] at this
    unfold Tensor.get rd
    rw [u2.offset]; exact this
  · intro x y m s hin hno
    have hin2 : cl.InRange x y m s := (hd2.trans c2).inRange.2 hin
    have := u5 (cl.offset x y m s) (by
      rintro ⟨x', y', m', s'⟩ hin' he
      obtain ⟨e1, e2, e3, e4⟩ := offset_inj cl (hin_cl x' y' m' s' hin') hin2 he
      simp only at e1 e2 e3 e4 hin'
      subst e3 e4
      exact hno x' y' hin' ⟨e1, e2⟩)
    have h0 := c4 x y m s (hd2.inRange.2 hin)
    unfold Tensor.get rd at h0 ⊢
    rw [u2.offset, this]; exact h0

/-- The full property fails: in a region without a value above `lowest` no position is recorded and
the delta is written to pixel (0, 0), here destroying the gradient of another region. -/
theorem C39_lowest_region_misplaced :
    (forward (-10 : Int) 1 1 ⟨1, 2, 1, 1, [5, -10]⟩ ((⟨1, 2, 1, 1, [0, 0]⟩, ⟨1, 2, 1, 1, [0, 0]⟩),
        ⟨1, 2, 1, 1, [0, 0]⟩)).bind
      (fun r => (backward r.1.1 r.1.2 (⟨1, 2, 1, 1, [3, 4]⟩ : Tensor Int) ⟨1, 2, 1, 1, [0, 0]⟩).map
        fun dx => (r.2.data, dx.data)) = some ([5, -10], [4, 0]) := by decide +kernel

/-- Non-vacuity: two 2x2 regions side by side, with a tie in the second. -/
example : (forward (-10 : Int) 2 2 ⟨1, 4, 2, 1, [1, 2, 7, 7, 9, 4, 5, 7]⟩
      ((⟨1, 2, 1, 1, [0, 0]⟩, ⟨1, 2, 1, 1, [0, 0]⟩), ⟨1, 2, 1, 1, [0, 0]⟩)).bind
      (fun r => (backward r.1.1 r.1.2 (⟨1, 2, 1, 1, [3, 4]⟩ : Tensor Int)
        ⟨1, 4, 2, 1, [1, 1, 1, 1, 1, 1, 1, 1]⟩).map fun dx => (r.2.data, dx.data)) =
    some ([9, 7], [0, 0, 4, 0, 3, 0, 0, 0]) := by decide +kernel

/-! ## C40 -/

/-- C40, forward part: every output is the greatest value of its window. -/
theorem C40_forward (input out : Tensor α) (mask : Tensor Nat) (lowest : α) (rw rh sw sh : Nat)
    (hrw : 0 < rw) (hrh : 0 < rh) (hi : input.WF) (hm : mask.WF) (ho : out.WF) (h1 : Sh out mask)
    (hs : out.samples = input.samples) (hmaps : out.maps = input.maps)
    (hw : ∀ ox, ox < out.width → ox * sw + rw ≤ input.width)
    (hh : ∀ oy, oy < out.height → oy * sh + rh ≤ input.height)
    (hlow : ∀ v ∈ input.data, lowest ≤ v) :
    ∃ mask' out', advForward lowest rw rh sw sh input (mask, out) = some (mask', out') ∧
      Sh out out' ∧ out'.WF ∧
      ∀ ox oy m s, out.InRange ox oy m s → ∃ v, out'.get ox oy m s = some v ∧
        RegionMax input (ox * sw) (oy * sh) rw rh m s v := by
  obtain ⟨mask', out', g1, _, g3, _, g5, g6⟩ :=
    advForward_spec (lowest := lowest) hi hm ho h1 hs hmaps hw hh
  refine ⟨mask', out', g1, g3, g5, ?_⟩
  intro ox oy m s hin
  obtain ⟨r, f1, f2, _⟩ := g6 ox oy m s hin
  refine ⟨r.1, f2, found_regionMax f1 ?_⟩
  obtain ⟨i1, i2, i3, i4⟩ := hin
  have e1 := hw ox i1
  have e2 := hh oy i2
  obtain ⟨w, hw'⟩ := get_some hi (x := ox * sw + 0) (y := oy * sh + 0) (m := m) (s := s)
    ⟨by omega, by omega, by omega, by omega⟩
  exact ⟨0, 0, w, hrw, hrh, hw', hlow w (List.mem_of_getElem? hw')⟩

/-- The windows that contain an input column are exactly those between the computed bounds. -/
theorem window_bounds {i o region stride outputs : Nat} (hs : 0 < stride) (ho : o < outputs)
    (h1 : o * stride ≤ i) (h2 : i < o * stride + region) :
    advStart i region stride ≤ o ∧ o < advEnd i stride outputs := by
  unfold advStart advEnd
  constructor
  · split
    · omega
    · have : (i - region) / stride < o := by
        rw [Nat.div_lt_iff_lt_mul hs]; omega
      omega
  · have : o ≤ i / stride := by rw [Nat.le_div_iff_mul_le hs]; exact h1
    omega

theorem forRange_sum {R : Type _} [AddCommMonoid R] {a b : Nat} {f : Nat → R → Option R}
    {g : Nat → R} (h : ∀ k s, a ≤ k → k < b → f k s = some (s + g k)) (s : R) :
    forRange a b f s = some (s + ∑ k ∈ Finset.Ico a b, g k) := by
  unfold forRange
  rw [forLoop_sum (g := fun k => g (a + k)) (fun k s hk => h (a + k) s (by omega) (by omega)),
    Finset.sum_Ico_eq_sum_range]

/-- C40, backward: after a forward pass the backward pass assigns to every input position the sum
of the deltas of exactly those outputs whose recorded position it is; the recorded position lies in
the window of the output and holds its maximum.  Every window must contain a value above `lowest`
and the image have at most 2^24 pixels, since positions are stored as `float`. -/
theorem C40_gradient_partial {β : Type _} [AddCommMonoid β] (input out : Tensor α)
    (mask : Tensor Nat) (d dx : Tensor β) (lowest : α) (rw rh sw sh : Nat)
    (hsw : 0 < sw) (hsh : 0 < sh) (hi : input.WF) (hm : mask.WF) (ho : out.WF) (h1 : Sh out mask)
    (hs : out.samples = input.samples) (hmaps : out.maps = input.maps)
    (hw : ∀ ox, ox < out.width → ox * sw + rw ≤ input.width)
    (hh : ∀ oy, oy < out.height → oy * sh + rh ≤ input.height)
    (hd : d.WF) (hdx : dx.WF) (hd1 : Sh out d) (hd2 : Sh input dx)
    (hsize : input.width * input.height ≤ 2 ^ 24)
    (hlow : ∀ ox oy m s, out.InRange ox oy m s → ∃ i j w, i < rw ∧ j < rh ∧
      input.get (ox * sw + i) (oy * sh + j) m s = some w ∧ lowest < w) :
    ∃ mask' out' dx', advForward lowest rw rh sw sh input (mask, out) = some (mask', out') ∧
      advBackward rw rh sw sh mask' d dx = some dx' ∧ Sh dx dx' ∧ dx'.WF ∧
      ∃ px py : Nat → Nat → Nat → Nat → Nat,
        (∀ ox oy m s, out.InRange ox oy m s →
          (∃ i j, i < rw ∧ j < rh ∧ px ox oy m s = ox * sw + i ∧ py ox oy m s = oy * sh + j) ∧
          (∃ v, input.get (px ox oy m s) (py ox oy m s) m s = some v ∧
            RegionMax input (ox * sw) (oy * sh) rw rh m s v)) ∧
        ∀ x y m s, input.InRange x y m s →
          dx'.get x y m s = some (∑ oy ∈ Finset.range out.height, ∑ ox ∈ Finset.range out.width,
            if px ox oy m s = x ∧ py ox oy m s = y then d.val ox oy m s else 0) := by
  obtain ⟨mask', out', g1, g2, g3, g4, g5, g6⟩ :=
    advForward_spec (lowest := lowest) hi hm ho h1 hs hmaps hw hh
  have hpos : ∃ P : Nat → Nat → Nat → Nat → Nat × Nat, ∀ ox oy m s, out.InRange ox oy m s →
      (∃ i j, i < rw ∧ j < rh ∧ (P ox oy m s).1 = ox * sw + i ∧ (P ox oy m s).2 = oy * sh + j) ∧
      (∃ v, input.get (P ox oy m s).1 (P ox oy m s).2 m s = some v ∧
            RegionMax input (ox * sw) (oy * sh) rw rh m s v) ∧
      (P ox oy m s).1 < input.width ∧ (P ox oy m s).2 < input.height ∧
      mask'.get ox oy m s = some (input.width * (P ox oy m s).2 + (P ox oy m s).1) := by
    refine ⟨fun ox oy m s => ((mask'.get ox oy m s).getD 0 % input.width,
      (mask'.get ox oy m s).getD 0 / input.width), ?_⟩
    intro ox oy m s hin
    obtain ⟨r, f1, f2, f3⟩ := g6 ox oy m s hin
    obtain ⟨⟨i, j, hi', hj', hr⟩, f5, f6⟩ := found_position f1 (hlow ox oy m s hin)
    obtain ⟨i1, i2, i3, i4⟩ := hin
    have e1 := hw ox i1
    have e2 := hh oy i2
    have r1 : r.2.1 = ox * sw + i := by rw [hr]
    have r2 : r.2.2 = oy * sh + j := by rw [hr]
    have b1 : r.2.1 < input.width := by omega
    have b2 : r.2.2 < input.height := by omega
    have hlt : input.width * r.2.2 + r.2.1 < 2 ^ 24 := by
      have := radix_lt b2 b1
      rw [Nat.mul_comm] at this
      rw [Nat.mul_comm input.height] at this
      omega
    rw [toF32_of_lt hlt] at f3
    have m1 : (input.width * r.2.2 + r.2.1) % input.width = r.2.1 := by
      rw [Nat.mul_add_mod, Nat.mod_eq_of_lt b1]
    have m2 : (input.width * r.2.2 + r.2.1) / input.width = r.2.2 := by
      rw [Nat.mul_add_div (by omega), Nat.div_eq_of_lt b1]; omega
    simp only [f3, Option.getD_some, m1, m2]
    exact ⟨⟨i, j, hi', hj', r1, r2⟩, ⟨r.1, f5, f6⟩, b1, b2, trivial⟩
  obtain ⟨P, hP⟩ := hpos
  obtain ⟨k1, k2, k3, k4⟩ := hd2
  obtain ⟨l1, l2, l3, l4⟩ := hd1
  have hsum : ∀ x y m s, dx.InRange x y m s →
      forRange (advStart y rh sh) (advEnd y sh d.height) (fun oy =>
          forRange (advStart x rw sw) (advEnd x sw d.width) (fun ox sum =>
            (mask'.get ox oy m s).bind fun k =>
            if k = toF32 (x + dx.width * y) then (d.get ox oy m s).map fun v => sum + v
            else some sum)) 0 =
        some (∑ oy ∈ Finset.range out.height, ∑ ox ∈ Finset.range out.width,
            if (P ox oy m s).1 = x ∧ (P ox oy m s).2 = y then d.val ox oy m s else 0) := by
    rintro x y m s ⟨i1, i2, i3, i4⟩
    have hlt : x + dx.width * y < 2 ^ 24 := by
      have := radix_lt i2 i1
      rw [Nat.mul_comm] at this
      rw [Nat.mul_comm dx.height] at this
      rw [k2, k3] at hsize
      omega
    have hy0 : advEnd y sh d.height ≤ out.height := by unfold advEnd; omega
    have hx0 : advEnd x sw d.width ≤ out.width := by unfold advEnd; omega
    rw [forRange_sum (g := fun oy => ∑ ox ∈ Finset.Ico (advStart x rw sw) (advEnd x sw d.width),
        if (P ox oy m s).1 = x ∧ (P ox oy m s).2 = y then d.val ox oy m s else 0)]
    · rw [zero_add]
      congr 1
      have hcol : ∀ oy ∈ Finset.range out.height,
          ∑ ox ∈ Finset.Ico (advStart x rw sw) (advEnd x sw d.width),
            (if (P ox oy m s).1 = x ∧ (P ox oy m s).2 = y then d.val ox oy m s else 0) =
          ∑ ox ∈ Finset.range out.width,
            (if (P ox oy m s).1 = x ∧ (P ox oy m s).2 = y then d.val ox oy m s else 0) := by
        intro oy hoy
        refine Finset.sum_subset ?_ ?_
        · intro ox hox
          rw [Finset.mem_Ico] at hox
          rw [Finset.mem_range]; omega
        · intro ox hox hnot
          rw [if_neg]
          rintro ⟨e1, e2⟩
          have hin : out.InRange ox oy m s := ⟨Finset.mem_range.1 hox, Finset.mem_range.1 hoy, by omega, by omega⟩
          obtain ⟨⟨i, j, hi', hj', r1, r2⟩, _⟩ := hP ox oy m s hin
          obtain ⟨w1, w2⟩ := window_bounds (i := x) (o := ox) (region := rw) (stride := sw)
            (outputs := d.width) hsw (by have := hin.1; omega) (by omega) (by omega)
          exact hnot (Finset.mem_Ico.2 ⟨w1, w2⟩)
      rw [← Finset.sum_congr rfl hcol]
      refine Finset.sum_subset ?_ ?_
      · intro oy hoy
        rw [Finset.mem_Ico] at hoy
        rw [Finset.mem_range]; omega
      · intro oy hoy hnot
        rw [hcol oy hoy]
        refine Finset.sum_eq_zero fun ox hox => ?_
        rw [if_neg]
        rintro ⟨e1, e2⟩
        have hin : out.InRange ox oy m s := ⟨Finset.mem_range.1 hox, Finset.mem_range.1 hoy, by omega, by omega⟩
        obtain ⟨⟨i, j, hi', hj', r1, r2⟩, _⟩ := hP ox oy m s hin
        obtain ⟨w1, w2⟩ := window_bounds (i := y) (o := oy) (region := rh) (stride := sh)
          (outputs := d.height) hsh (by have := hin.2.1; omega) (by omega) (by omega)
        exact hnot (Finset.mem_Ico.2 ⟨w1, w2⟩)
    · intro oy acc ha hb
      rw [forRange_sum]
      intro ox acc ha' hb'
      have hin : out.InRange ox oy m s := ⟨by omega, by omega, by omega, by omega⟩
      obtain ⟨_, _, b1, b2, p3⟩ := hP ox oy m s hin
      rw [p3, toF32_of_lt hlt, Option.bind_some]
      have hgv := get_eq_val hd (x := ox) (y := oy) (m := m) (s := s)
        ⟨by have := hin.1; omega, by have := hin.2.1; omega, by omega, by omega⟩
      have hiff : input.width * (P ox oy m s).2 + (P ox oy m s).1 = x + dx.width * y ↔
          (P ox oy m s).1 = x ∧ (P ox oy m s).2 = y := by
        constructor
        · intro he
          rw [← k2] at he i1
          have := radix_inj (n := input.width) (a := (P ox oy m s).2) (b := y) b1 i1
            (by rw [Nat.mul_comm, Nat.mul_comm y]; omega)
          exact ⟨this.2, this.1⟩
        · rintro ⟨rfl, rfl⟩
          rw [k2]; omega
      by_cases hc : (P ox oy m s).1 = x ∧ (P ox oy m s).2 = y
      · rw [if_pos (hiff.2 hc), if_pos hc, hgv]; rfl
      · rw [if_neg (fun h => hc (hiff.1 h)), if_neg hc, add_zero]
  obtain ⟨u, u1, u2, u3, u4⟩ := nest_cols hdx
    (f := fun s m x y (t : Tensor β) =>
      (forRange (advStart y rh sh) (advEnd y sh d.height) (fun oy =>
          forRange (advStart x rw sw) (advEnd x sw d.width) (fun ox sum =>
            (mask'.get ox oy m s).bind fun k =>
            if k = toF32 (x + dx.width * y) then (d.get ox oy m s).map fun v => sum + v
            else some sum)) 0).bind fun sum => t.put x y m s sum)
    (v := fun x y m s => ∑ oy ∈ Finset.range out.height, ∑ ox ∈ Finset.range out.width,
            if (P ox oy m s).1 = x ∧ (P ox oy m s).2 = y then d.val ox oy m s else 0)
    (by
      intro s m y x u hin _
      rw [hsum x y m s hin]; rfl)
  refine ⟨mask', out', u, g1, ?_, u2, u3, fun ox oy m s => (P ox oy m s).1,
    fun ox oy m s => (P ox oy m s).2, ?_, ?_⟩
  · unfold advBackward
    rw [if_neg (by omega)]
    exact u1
  · intro ox oy m s hin
    obtain ⟨p1, p2, _⟩ := hP ox oy m s hin
    exact ⟨p1, p2⟩
  · intro x y m s hin
    obtain ⟨i1, i2, i3, i4⟩ := hin
    exact u4 x y m s ⟨by omega, by omega, by omega, by omega⟩

/-- Non-vacuity: overlapping windows 2x1 with stride 1; both windows share the maximum. -/
example : (advForward (-10 : Int) 2 1 1 1 ⟨1, 3, 1, 1, [1, 7, 5]⟩ (⟨1, 2, 1, 1, [0, 0]⟩,
      ⟨1, 2, 1, 1, [0, 0]⟩)).bind
      (fun r => (advBackward 2 1 1 1 r.1 (⟨1, 2, 1, 1, [3, 4]⟩ : Tensor Int)
        ⟨1, 3, 1, 1, [1, 1, 1]⟩).map fun dx => (r.2.data, dx.data)) =
    some ([7, 7], [0, 7, 0]) := by decide +kernel

/-- The restriction on the size is needed for the recorded positions: from 2^24 on different
positions have the same `float` value. -/
theorem C40_positions_collide : toF32 (2 ^ 24) = toF32 (2 ^ 24 + 1) := by decide +kernel

end

/-! ## C36, pooling -/

/-- C36, max-pooling: an output is created exactly if the regions tile the image, its size being
the number of regions. -/
theorem C36_max_pooling (rw rh w h : Nat) (hrw : 0 < rw) (hrh : 0 < rh) :
    (∀ ow oh, createOutputs rw rh w h = .done (some (ow, oh)) ↔ w = ow * rw ∧ h = oh * rh) ∧
    (createOutputs rw rh w h = .done none ↔ ¬ ∃ ow oh, w = ow * rw ∧ h = oh * rh) := by
  unfold createOutputs
  rw [if_neg (by omega : ¬ rw = 0), if_neg (by omega : ¬ rh = 0)]
  have key : ∀ {a b : Nat}, 0 < b → a % b = 0 → ∀ q, a / b = q ↔ a = q * b := by
    intro a b hb h q
    constructor
    · rintro rfl; rw [Nat.mul_comm]; have := Nat.div_add_mod a b; omega
    · rintro rfl; exact Nat.mul_div_cancel _ hb
  have key2 : ∀ {a b : Nat}, 0 < b → a % b ≠ 0 → ∀ q, a ≠ q * b := by
    rintro a b hb h q rfl; exact h (Nat.mul_mod_left _ _)
  by_cases h1 : w % rw ≠ 0
  · rw [if_pos h1]
    refine ⟨fun ow oh => ⟨by simp, fun h => absurd h.1 (key2 hrw h1 ow)⟩, ⟨fun _ => ?_, fun _ => rfl⟩⟩
    rintro ⟨ow, oh, e, _⟩
    exact key2 hrw h1 ow e
  · rw [if_neg h1]
    by_cases h2 : h % rh ≠ 0
    · rw [if_pos h2]
      refine ⟨fun ow oh => ⟨by simp, fun h => absurd h.2 (key2 hrh h2 oh)⟩, ⟨fun _ => ?_, fun _ => rfl⟩⟩
      rintro ⟨ow, oh, _, e⟩
      exact key2 hrh h2 oh e
    · rw [if_neg h2]
      refine ⟨fun ow oh => ?_, ⟨by simp, fun hno => absurd ⟨w / rw, h / rh,
        (key hrw (by omega) _).1 rfl, (key hrh (by omega) _).1 rfl⟩ hno⟩⟩
      simp only [Outcome.done.injEq, Option.some.injEq, Prod.mk.injEq]
      rw [key hrw (by omega), key hrh (by omega)]

/-- C36, overlapping max-pooling, for regions that fit into the image: the output size is the
number of positions. -/
theorem C36_strided_pooling_partial (rw rh sw sh w h : Nat) (hs : 0 < sw ∧ 0 < sh)
    (hfit : rw ≤ w ∧ rh ≤ h) :
    ∃ ow oh : Nat, advCreateOutputs rw rh sw sh w h = .done (some ((ow : Int), (oh : Int))) ∧
      (∀ q, q < ow ↔ q * sw + rw ≤ w) ∧ (∀ q, q < oh ↔ q * sh + rh ≤ h) := by
  have hcount : ∀ {n k s : Nat}, 0 < s → k ≤ n → ∀ q, q < (n - k) / s + 1 ↔ q * s + k ≤ n := by
    intro n k s hs hk q
    rw [Nat.lt_succ_iff, Nat.le_div_iff_mul_le hs]
    omega
  have hdim : ∀ {n k s : Nat}, k ≤ n → advDim n k s = (((n - k) / s + 1 : Nat) : Int) := by
    intro n k s hk
    unfold advDim
    have e : ((n : Int) - k) = ((n - k : Nat) : Int) := by omega
    rw [e, Int.tdiv_eq_ediv_of_nonneg (by omega), ← Int.natCast_ediv]
    push_cast
    rfl
  refine ⟨(w - rw) / sw + 1, (h - rh) / sh + 1, ?_, hcount hs.1 hfit.1, hcount hs.2 hfit.2⟩
  unfold advCreateOutputs
  rw [if_neg (by omega), hdim hfit.1, hdim hfit.2]

/-- The full property fails: an image that is smaller than the region by less than the stride (with
the default stride: any image smaller than the region) gets an output of size one although no
position fits. -/
theorem C36_strided_pooling_accepts_misfit (region stride n : Nat) (h1 : n < region)
    (h2 : region < n + stride) :
    advCreateOutputs region region stride stride n n = .done (some (1, 1)) := by
  unfold advCreateOutputs
  rw [if_neg (by omega)]
  have : advDim n region stride = 1 := by
    unfold advDim
    have e : ((n : Int) - region) = -((region - n : Nat) : Int) := by omega
    rw [e, Int.neg_tdiv, Int.tdiv_eq_ediv_of_nonneg (by omega), ← Int.natCast_ediv,
      Nat.div_eq_of_lt (by omega)]
    rfl
  rw [this]

/-- And the forward pass then reads outside the image. -/
theorem C36_strided_pooling_misfit_undefined :
    advCreateOutputs 2 2 2 2 1 1 = .done (some (1, 1)) ∧
    ∀ v lowest : Int, advForward lowest 2 2 2 2 ⟨1, 1, 1, 1, [v]⟩
      (⟨1, 1, 1, 1, [0]⟩, ⟨1, 1, 1, 1, [0]⟩) = none := by
  refine ⟨by decide +kernel, ?_⟩
  intro v lowest
  simp [advForward, forLoop, Tensor.get, rd, Tensor.offset]

/-- Non-vacuity. -/
example : advCreateOutputs 3 3 2 2 8 7 = .done (some (3, 3)) := by decide +kernel
example : createOutputs 2 3 8 9 = .done (some (4, 3)) := by decide +kernel

end CN24.Props
