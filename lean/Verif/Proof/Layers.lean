import Verif.Model.Layers
import Verif.Proof.TensorMath
import Verif.Proof.TensorOps
import Verif.Proof.Pooling

/-
Lemmas about the layers of Model/Layers.lean.
-/

namespace CN24.Layers
open CN24 CN24.Tensor
variable {R : Type _}

/-- A run of map copies within one sample. -/
theorem copyMaps_spec [Zero R] {source target : Tensor R} (hs : source.WF) (ht : target.WF)
    (hw : source.width = target.width) (hh : source.height = target.height) {s a b n : Nat}
    (hss : s < source.samples) (hst : s < target.samples) (ha : a + n ≤ source.maps)
    (hb : b + n ≤ target.maps) :
    ∃ u, forLoop n (fun m o => (copyMap source s (a + m) o s (b + m)).map (·.2)) target = some u ∧
      Sh target u ∧ u.WF ∧
      ∀ x y m s', target.InRange x y m s' → u.get x y m s' =
        if s' = s ∧ b ≤ m ∧ m < b + n then source.get x y (a + (m - b)) s
        else target.get x y m s' := by
  obtain ⟨u, h1, h2, h3, h4⟩ := forLoop_inv (n := n)
    (f := fun m o => (copyMap source s (a + m) o s (b + m)).map (·.2)) (s := target)
    (fun k (u : Tensor R) => Sh target u ∧ u.WF ∧ ∀ x y m s', target.InRange x y m s' → u.get x y m s' =
        if s' = s ∧ b ≤ m ∧ m < b + k then source.get x y (a + (m - b)) s
        else target.get x y m s')
    ⟨Sh.rfl' _, ht, by intro x y m s' _; rw [if_neg (by omega)]⟩ (by
      rintro k u hk ⟨hu, huw, hget⟩
      obtain ⟨q1, q2, q3, q4⟩ := hu
      obtain ⟨v, g1, g2, g3, g4, _, g6⟩ := copyMap_ok (i := s) (j := s) (a := a + k) (b := b + k)
        hs huw hss (by omega) (by omega) (by omega) (by omega) (by omega)
      refine ⟨v, by rw [g1]; rfl, Sh.trans ⟨q1, q2, q3, q4⟩ g2, g3, ?_⟩
      rintro x y m s' ⟨i1, i2, i3, i4⟩
      by_cases hc : s' = s ∧ m = b + k
      · obtain ⟨rfl, rfl⟩ := hc
        rw [if_pos (by omega), g4 x y (by omega) (by omega)]
        congr 1; omega
      · rw [g6 x y m s' ⟨by omega, by omega, by omega, by omega⟩ hc,
          hget x y m s' ⟨i1, i2, i3, i4⟩]
        by_cases hd : s' = s ∧ b ≤ m ∧ m < b + k
        · rw [if_pos hd, if_pos (by omega)]
        · rw [if_neg hd, if_neg (by omega)])
  exact ⟨u, h1, h2, h3, h4⟩

/-- `ConcatenationLayer::FeedForward` on inputs of the same size. -/
theorem concatForward_spec [Zero R] {a b output : Tensor R} (ha : a.WF) (hb : b.WF)
    (ho : output.WF) (hs : a.samples = b.samples) (hw : a.width = b.width) (hh : a.height = b.height)
    (hos : output.samples = a.samples) (how : output.width = a.width)
    (hoh : output.height = a.height) (hom : output.maps = a.maps + b.maps) :
    ∃ u, concatForward a b output = some u ∧ Sh output u ∧ u.WF ∧
      ∀ x y m s, output.InRange x y m s → u.get x y m s =
        if m < a.maps then a.get x y m s else b.get x y (m - a.maps) s := by
  obtain ⟨u, h1, h2, h3, h4⟩ := forLoop_inv (n := a.samples)
    (f := fun s output =>
    (forLoop a.maps (fun m output => (copyMap a s m output s m).map (·.2)) output).bind
    (forLoop b.maps (fun m output => (copyMap b s m output s (a.maps + m)).map (·.2)))) (s := output)
    (fun k (u : Tensor R) => Sh output u ∧ u.WF ∧ ∀ x y m s, output.InRange x y m s →
      u.get x y m s = if s < k then (if m < a.maps then a.get x y m s else b.get x y (m - a.maps) s)
        else output.get x y m s)
    ⟨Sh.rfl' _, ho, by intro x y m s' _; rw [if_neg (by omega)]⟩ (by
      rintro k u hk ⟨hu, huw, hget⟩
      obtain ⟨q1, q2, q3, q4⟩ := hu
      obtain ⟨v, v1, v2, v3, v4⟩ := copyMaps_spec (s := k) (a := 0) (b := 0) (n := a.maps) ha huw
        (by omega) (by omega) hk (by omega) (by omega) (by omega)
      obtain ⟨p1, p2, p3, p4⟩ := v2
      obtain ⟨w, w1, w2, w3, w4⟩ := copyMaps_spec (s := k) (a := 0) (b := a.maps) (n := b.maps) hb v3
        (by omega) (by omega) (by omega) (by omega) (by omega) (by omega)
      simp only [Nat.zero_add] at v1 w1
      refine ⟨w, by rw [v1, Option.bind_some, w1], Sh.trans ⟨q1, q2, q3, q4⟩
        (Sh.trans ⟨p1, p2, p3, p4⟩ w2), w3, ?_⟩
      rintro x y m s ⟨i1, i2, i3, i4⟩
      rw [w4 x y m s ⟨by omega, by omega, by omega, by omega⟩,
        v4 x y m s ⟨by omega, by omega, by omega, by omega⟩,
        hget x y m s ⟨i1, i2, i3, i4⟩]
      simp only [Nat.zero_add, Nat.sub_zero]
      by_cases hs : s = k
      · subst hs
        rw [if_pos (by omega : s < s + 1)]
        by_cases hm : m < a.maps
        · rw [if_neg (by omega), if_pos (by omega), if_pos hm]
        · rw [if_pos (by omega), if_neg hm]
      · rw [if_neg (by omega), if_neg (by omega)]
        by_cases hs' : s < k
        · rw [if_pos hs', if_pos (by omega : s < k + 1)]
        · rw [if_neg hs', if_neg (by omega)])
  refine ⟨u, h1, h2, h3, ?_⟩
  rintro x y m s ⟨i1, i2, i3, i4⟩
  rw [h4 x y m s ⟨i1, i2, i3, i4⟩, if_pos (by omega)]

/-- `ConcatenationLayer::BackPropagate` on deltas of the same size. -/
theorem concatBackward_spec [Zero R] {d da db : Tensor R} (hd : d.WF) (ha : da.WF) (hb : db.WF)
    (hs : da.samples = db.samples) (hw : da.width = db.width) (hh : da.height = db.height)
    (hos : d.samples = da.samples) (how : d.width = da.width)
    (hoh : d.height = da.height) (hom : d.maps = da.maps + db.maps) :
    ∃ ua ub, concatBackward d (da, db) = some (ua, ub) ∧ Sh da ua ∧ Sh db ub ∧ ua.WF ∧ ub.WF ∧
      (∀ x y m s, da.InRange x y m s → ua.get x y m s = d.get x y m s) ∧
      ∀ x y m s, db.InRange x y m s → ub.get x y m s = d.get x y (da.maps + m) s := by
  obtain ⟨⟨ua, ub⟩, h1, h2, h3, h4, h5, h6, h7⟩ := forLoop_inv (n := da.samples)
    (f := fun s (st' : Tensor R × Tensor R) =>
    (forLoop da.maps (fun m x => (copyMap d s m x s m).map (·.2)) st'.1).bind fun x =>
    (forLoop db.maps (fun m y => (copyMap d s (da.maps + m) y s m).map (·.2))
      st'.2).map fun y => (x, y)) (s := (da, db))
    (fun k (u : Tensor R × Tensor R) => Sh da u.1 ∧ Sh db u.2 ∧ u.1.WF ∧ u.2.WF ∧
      (∀ x y m s, da.InRange x y m s → u.1.get x y m s = if s < k then d.get x y m s
        else da.get x y m s) ∧
      ∀ x y m s, db.InRange x y m s → u.2.get x y m s = if s < k then d.get x y (da.maps + m) s
        else db.get x y m s)
    ⟨Sh.rfl' _, Sh.rfl' _, ha, hb, by intro x y m s' _; rw [if_neg (by omega)],
      by intro x y m s' _; rw [if_neg (by omega)]⟩ (by
      rintro k ⟨u, v⟩ hk ⟨hu, hv, huw, hvw, hget, hget'⟩
      obtain ⟨q1, q2, q3, q4⟩ := hu
      obtain ⟨p1, p2, p3, p4⟩ := hv
      simp only at q1 q2 q3 q4 p1 p2 p3 p4 huw hvw hget hget'
      obtain ⟨w, w1, w2, w3, w4⟩ := copyMaps_spec (s := k) (a := 0) (b := 0) (n := da.maps) hd huw
        (by omega) (by omega) (by omega) (by omega) (by omega) (by omega)
      obtain ⟨z, z1, z2, z3, z4⟩ := copyMaps_spec (s := k) (a := da.maps) (b := 0) (n := db.maps) hd hvw
        (by omega) (by omega) (by omega) (by omega) (by omega) (by omega)
      simp only [Nat.zero_add] at w1 z1
      refine ⟨(w, z), by simp only [w1, Option.bind_some, z1, Option.map_some],
        Sh.trans ⟨q1, q2, q3, q4⟩ w2, Sh.trans ⟨p1, p2, p3, p4⟩ z2, w3, z3, ?_, ?_⟩
      · rintro x y m s ⟨i1, i2, i3, i4⟩
        simp only
        rw [w4 x y m s ⟨by omega, by omega, by omega, by omega⟩, hget x y m s ⟨i1, i2, i3, i4⟩]
        simp only [Nat.zero_add, Nat.sub_zero]
        by_cases hs : s = k
        · subst hs
          rw [if_pos (by omega), if_pos (by omega)]
        · rw [if_neg (by omega)]
          by_cases hs' : s < k
          · rw [if_pos hs', if_pos (by omega)]
          · rw [if_neg hs', if_neg (by omega)]
      · rintro x y m s ⟨i1, i2, i3, i4⟩
        simp only
        rw [z4 x y m s ⟨by omega, by omega, by omega, by omega⟩, hget' x y m s ⟨i1, i2, i3, i4⟩]
        simp only [Nat.zero_add, Nat.sub_zero]
        by_cases hs : s = k
        · subst hs
          rw [if_pos (by omega), if_pos (by omega)]
        · rw [if_neg (by omega)]
          by_cases hs' : s < k
          · rw [if_pos hs', if_pos (by omega)]
          · rw [if_neg hs', if_neg (by omega)])
  refine ⟨ua, ub, h1, h2, h3, h4, h5, ?_, ?_⟩
  · rintro x y m s ⟨i1, i2, i3, i4⟩
    have := h6 x y m s ⟨i1, i2, i3, i4⟩
    rw [if_pos (by omega)] at this
    exact this
  · rintro x y m s ⟨i1, i2, i3, i4⟩
    have := h7 x y m s ⟨i1, i2, i3, i4⟩
    rw [if_pos (by omega)] at this
    exact this

/-- `SumLayer::BackPropagate`. -/
theorem sumBackward_spec [Zero R] {d da db : Tensor R} (hd : d.WF) (ha : da.WF) (hb : db.WF)
    (h1 : Sh d da) (h2 : Sh d db) :
    ∃ ua ub, sumBackward d (da, db) = some (ua, ub) ∧ Sh da ua ∧ Sh db ub ∧ ua.WF ∧ ub.WF ∧
      (∀ x y m s, d.InRange x y m s → ua.get x y m s = d.get x y m s) ∧
      ∀ x y m s, d.InRange x y m s → ub.get x y m s = d.get x y m s := by
  obtain ⟨a1, a2, a3, a4⟩ := h1
  obtain ⟨b1, b2, b3, b4⟩ := h2
  obtain ⟨⟨ua, ub⟩, h1, h2, h3, h4, h5, h6, h7⟩ := forLoop_inv (n := da.samples)
    (f := fun sample (st : Tensor R × Tensor R) =>
    (copySample d sample st.1 sample).bind fun r =>
    (copySample d sample st.2 sample).map fun q => (r.2, q.2)) (s := (da, db))
    (fun k (u : Tensor R × Tensor R) => Sh da u.1 ∧ Sh db u.2 ∧ u.1.WF ∧ u.2.WF ∧
      (∀ x y m s, d.InRange x y m s → u.1.get x y m s = if s < k then d.get x y m s
        else da.get x y m s) ∧
      ∀ x y m s, d.InRange x y m s → u.2.get x y m s = if s < k then d.get x y m s
        else db.get x y m s)
    ⟨Sh.rfl' _, Sh.rfl' _, ha, hb, by intro x y m s' _; rw [if_neg (by omega)],
      by intro x y m s' _; rw [if_neg (by omega)]⟩ (by
      rintro k ⟨u, v⟩ hk ⟨hu, hv, huw, hvw, hget, hget'⟩
      obtain ⟨q1, q2, q3, q4⟩ := hu
      obtain ⟨p1, p2, p3, p4⟩ := hv
      simp only at q1 q2 q3 q4 p1 p2 p3 p4 huw hvw hget hget'
      obtain ⟨w, w1, w2, w3, w4⟩ := copySample_ok (i := k) (j := k) hd huw
        (by omega) (by omega) (by omega) (by omega) (by omega)
      obtain ⟨z, z1, z2, z3, z4⟩ := copySample_ok (i := k) (j := k) hd hvw
        (by omega) (by omega) (by omega) (by omega) (by omega)
      refine ⟨(w, z), by simp only [w1, Option.bind_some, z1, Option.map_some],
        Sh.trans ⟨q1, q2, q3, q4⟩ w2, Sh.trans ⟨p1, p2, p3, p4⟩ z2, w3, z3, ?_, ?_⟩
      · rintro x y m s ⟨i1, i2, i3, i4⟩
        simp only
        rw [w4 x y m s ⟨by omega, by omega, by omega, by omega⟩, hget x y m s ⟨i1, i2, i3, i4⟩]
        by_cases hs : s = k
        · subst hs
          rw [if_pos rfl, if_pos (by omega), if_pos (by omega)]
        · rw [if_neg hs]
          by_cases hs' : s < k
          · rw [if_pos hs', if_pos (by omega)]
          · rw [if_neg hs', if_neg (by omega)]
      · rintro x y m s ⟨i1, i2, i3, i4⟩
        simp only
        rw [z4 x y m s ⟨by omega, by omega, by omega, by omega⟩, hget' x y m s ⟨i1, i2, i3, i4⟩]
        by_cases hs : s = k
        · subst hs
          rw [if_pos rfl, if_pos (by omega), if_pos (by omega)]
        · rw [if_neg hs]
          by_cases hs' : s < k
          · rw [if_pos hs', if_pos (by omega)]
          · rw [if_neg hs', if_neg (by omega)])
  refine ⟨ua, ub, h1, h2, h3, h4, h5, ?_, ?_⟩
  · rintro x y m s ⟨i1, i2, i3, i4⟩
    have := h6 x y m s ⟨i1, i2, i3, i4⟩
    rw [if_pos (by omega)] at this
    exact this
  · rintro x y m s ⟨i1, i2, i3, i4⟩
    have := h7 x y m s ⟨i1, i2, i3, i4⟩
    rw [if_pos (by omega)] at this
    exact this

theorem offset_add {α : Type _} (t : Tensor α) (x i y m s : Nat) :
    t.offset x y m s + i = t.offset (x + i) y m s := by
  rw [offset_eq, offset_eq]; omega

/-- One row copied with `memcpy`. -/
theorem memcpy_eq {source target t0 : Tensor R} (hs : source.WF) (ht : Sh t0 target)
    {sx sy sm ss x y m s n : Nat} (hx : sx + n ≤ source.width) (hy : sy < source.height)
    (hm : sm < source.maps) (hss : ss < source.samples) :
    memcpy source (source.offset sx sy sm ss) target (target.offset x y m s) n =
      target.puts ((List.range n).flatMap fun i => ent (t0.offset (x + i) y m s)
        (source.get (sx + i) sy sm ss)) := by
  unfold memcpy
  refine forLoop_puts (t0 := t0) _ ht ?_
  intro i u hi hu
  have hin : source.InRange (sx + i) sy sm ss := ⟨by omega, hy, hm, hss⟩
  rw [offset_add, offset_add]
  have hg := get_isSome hs hin
  rw [show rd source.data (source.offset (sx + i) sy sm ss) = source.get (sx + i) sy sm ss from rfl,
    bind_putElem_eq hg, ht.offset]

/-- `ResizeLayer::FeedForward`. -/
theorem resizeForward_spec [Zero R] {bx by' : Nat} {input output : Tensor R} (hi : input.WF)
    (ho : output.WF) (hs : output.samples = input.samples) (hm : output.maps = input.maps)
    (hw : output.width = input.width + bx) (hh : output.height = input.height + by') :
    ∃ u, resizeForward bx by' input output = some u ∧ Sh output u ∧ u.WF ∧
      ∀ x y m s, output.InRange x y m s → u.get x y m s =
        if bx / 2 ≤ x ∧ x < bx / 2 + input.width ∧ by' / 2 ≤ y ∧ y < by' / 2 + input.height then
          input.get (x - bx / 2) (y - by' / 2) m s else some 0 := by
  obtain ⟨c, c1, c2, c3, c4⟩ := clear_spec ho (0 : R)
  obtain ⟨q1, q2, q3, q4⟩ := c2
  unfold resizeForward
  rw [c1, Option.bind_some,
    forLoop_puts (t0 := c) (fun s => (List.range input.maps).flatMap fun m =>
      (List.range input.height).flatMap fun y => (List.range input.width).flatMap fun i =>
        ent (c.offset (bx / 2 + i) (y + by' / 2) m s) (input.get (0 + i) y m s)) (Sh.rfl' c)]
  · obtain ⟨u, u1, u2, u3, u4, u5⟩ := puts_coord c3
      (es := (List.range input.samples).flatMap fun s => (List.range input.maps).flatMap fun m =>
        (List.range input.height).flatMap fun y => (List.range input.width).flatMap fun i =>
          ent (c.offset (bx / 2 + i) (y + by' / 2) m s) (input.get (0 + i) y m s))
      (fun x y m s => (bx / 2 ≤ x ∧ x < bx / 2 + input.width ∧ by' / 2 ≤ y ∧
        y < by' / 2 + input.height) ∧ m < input.maps ∧ s < input.samples)
      (fun x y m s => input.get (x - bx / 2) (y - by' / 2) m s)
      (by
        rintro x y m s ⟨⟨h1, h2, h3, h4⟩, h5, h6⟩
        exact ⟨⟨by omega, by omega, by omega, by omega⟩,
          get_isSome hi ⟨by omega, by omega, by omega, by omega⟩⟩)
      (by
        intro i v
        simp only [List.mem_flatMap, List.mem_range, mem_ent]
        constructor
        · rintro ⟨s, h1, m, h2, y, h3, j, h4, rfl, h5⟩
          refine ⟨bx / 2 + j, y + by' / 2, m, s, ⟨⟨by omega, by omega, by omega, by omega⟩, h2, h1⟩, rfl, ?_⟩
          rw [← h5]
          congr 1 <;> omega
        · rintro ⟨x, y, m, s, ⟨⟨h1, h2, h3, h4⟩, h5, h6⟩, rfl, h7⟩
          refine ⟨s, h6, m, h5, y - by' / 2, by omega, x - bx / 2, by omega, ?_, ?_⟩
          · congr 1 <;> omega
          · rw [← h7]; congr 1; omega)
    refine ⟨u, u1, Sh.trans ⟨q1, q2, q3, q4⟩ u2, u3, ?_⟩
    rintro x y m s ⟨i1, i2, i3, i4⟩
    split
    · rename_i hc
      exact u4 x y m s ⟨hc, by omega, by omega⟩
    · rename_i hc
      rw [u5 x y m s ⟨by omega, by omega, by omega, by omega⟩ (fun h => hc h.1),
        c4 x y m s ⟨i1, i2, i3, i4⟩]
  · intro s u hs' hu
    refine forLoop_puts _ hu ?_
    intro m u hm' hu
    refine forLoop_puts _ hu ?_
    intro y u hy hu
    exact memcpy_eq hi hu (by omega) hy hm' hs'

/-- `ResizeLayer::BackPropagate`. -/
theorem resizeBackward_spec [Zero R] {bx by' : Nat} {d dx : Tensor R} (hd : d.WF)
    (hx : dx.WF) (hs : d.samples = dx.samples) (hm : d.maps = dx.maps)
    (hw : d.width = dx.width + bx) (hh : d.height = dx.height + by') :
    ∃ u, resizeBackward bx by' true d dx = some u ∧ Sh dx u ∧ u.WF ∧
      ∀ x y m s, dx.InRange x y m s → u.get x y m s = d.get (x + bx / 2) (y + by' / 2) m s := by
  obtain ⟨c, c1, c2, c3, c4⟩ := clear_spec hx (0 : R)
  obtain ⟨q1, q2, q3, q4⟩ := c2
  unfold resizeBackward
  rw [if_pos rfl, c1, Option.bind_some,
    forLoop_puts (t0 := c) (fun s => (List.range dx.maps).flatMap fun m =>
      (List.range dx.height).flatMap fun y => (List.range dx.width).flatMap fun i =>
        ent (c.offset (0 + i) y m s) (d.get (bx / 2 + i) (y + by' / 2) m s)) (Sh.rfl' c)]
  · obtain ⟨u, u1, u2, u3, u4, u5⟩ := puts_coord c3
      (es := (List.range dx.samples).flatMap fun s => (List.range dx.maps).flatMap fun m =>
        (List.range dx.height).flatMap fun y => (List.range dx.width).flatMap fun i =>
          ent (c.offset (0 + i) y m s) (d.get (bx / 2 + i) (y + by' / 2) m s))
      (fun x y m s => dx.InRange x y m s)
      (fun x y m s => d.get (x + bx / 2) (y + by' / 2) m s)
      (by
        rintro x y m s ⟨h1, h2, h3, h4⟩
        exact ⟨⟨by omega, by omega, by omega, by omega⟩,
          get_isSome hd ⟨by omega, by omega, by omega, by omega⟩⟩)
      (by
        intro i v
        simp only [List.mem_flatMap, List.mem_range, mem_ent, InRange]
        constructor
        · rintro ⟨s, h1, m, h2, y, h3, j, h4, rfl, h5⟩
          refine ⟨j, y, m, s, ⟨by omega, by omega, by omega, by omega⟩, by rw [Nat.zero_add], ?_⟩
          rw [← h5]
          congr 1; omega
        · rintro ⟨x, y, m, s, ⟨h1, h2, h3, h4⟩, rfl, h7⟩
          refine ⟨s, h4, m, h3, y, h2, x, h1, by rw [Nat.zero_add], ?_⟩
          rw [← h7]; congr 1; omega)
    exact ⟨u, u1, Sh.trans ⟨q1, q2, q3, q4⟩ u2, u3, u4⟩
  · intro s u hs' hu
    refine forLoop_puts _ hu ?_
    intro m u hm' hu
    refine forLoop_puts _ hu ?_
    intro y u hy hu
    exact memcpy_eq hd hu (by omega) (by omega) (by omega) (by omega)

theorem sum_getD {α : Type _} [AddCommMonoid R] (l : List α) (c : α) (f : α → R) :
    ∑ i ∈ Finset.range l.length, f (l.getD i c) = (l.map f).sum := by
  induction l with
  | nil => rfl
  | cons a l ih =>
    rw [List.length_cons, Finset.sum_range_succ', List.map_cons, List.sum_cons, ← ih, add_comm]
    rfl

/-- `GradientAccumulationLayer::BackPropagate`. -/
theorem accumulate_spec [AddCommMonoid R] {ds : List (Tensor R)} {dx : Tensor R} (hx : dx.WF)
    (hd : ∀ d ∈ ds, Sh dx d ∧ d.WF) :
    ∃ u, accumulate ds dx = some u ∧ Sh dx u ∧ u.WF ∧
      ∀ x y m s, dx.InRange x y m s → u.get x y m s = some ((ds.map fun d => d.val x y m s).sum) := by
  obtain ⟨c, c1, c2, c3, c4⟩ := clear_spec hx (0 : R)
  unfold accumulate
  rw [c1, Option.bind_some]
  generalize hE : dx.width * dx.height * dx.maps = E
  have hel : dx.elements = dx.samples * E := by
    rw [elements_eq, ← hE, Nat.mul_assoc, Nat.mul_assoc]
    congr 1
    rw [Nat.mul_comm dx.height, Nat.mul_comm dx.maps]
  have hcl : c.data.length = dx.samples * E := by rw [c3, c2.elements, hel]
  rw [forLoop_mods (t0 := c) (fun s => (List.range E).flatMap fun e =>
    (List.range ds.length).flatMap fun i => adds [(s * E + e, (ds.getD i c).data.getD (s * E + e) 0)])
      (Sh.rfl' c)]
  · rw [show ((List.range dx.samples).flatMap fun s => (List.range E).flatMap fun e =>
        (List.range ds.length).flatMap fun i =>
          adds [(s * E + e, (ds.getD i c).data.getD (s * E + e) 0)]) =
        adds ((List.range dx.samples).flatMap fun s => (List.range E).flatMap fun e =>
        (List.range ds.length).flatMap fun i =>
          [(s * E + e, (ds.getD i c).data.getD (s * E + e) 0)]) by simp only [adds_flatMap]]
    obtain ⟨u, u1, u2, u3, u4⟩ := adds_spec (t := c) (es := (List.range dx.samples).flatMap fun s =>
        (List.range E).flatMap fun e => (List.range ds.length).flatMap fun i =>
          [(s * E + e, (ds.getD i c).data.getD (s * E + e) 0)]) (by
      intro e he
      simp only [List.mem_flatMap, List.mem_range, List.mem_singleton] at he
      obtain ⟨s, hs, k, hk, i, hi, rfl⟩ := he
      rw [hcl]; exact radix_lt hs hk)
    refine ⟨u, u1, c2.trans u2, by rw [WF, u3, c3, u2.elements], ?_⟩
    intro x y m s hin
    have h0 := c4 x y m s hin
    have hj : dx.offset x y m s < dx.samples * E := by rw [← hel]; exact offset_lt _ hin
    unfold Tensor.get rd at h0 ⊢
    rw [u2.offset, u4, h0, Option.map_some, zero_add]
    congr 1
    rw [c2.offset]
    have hmap : (ds.map fun d => d.val x y m s) = ds.map fun d => d.data.getD (dx.offset x y m s) 0 := by
      refine List.map_congr_left fun d hd' => ?_
      unfold val
      rw [(hd d hd').1.offset]
    rw [hmap]
    generalize dx.offset x y m s = j at hj
    have hE0 : 0 < E := by
      rcases Nat.eq_zero_or_pos E with h | h
      · rw [h] at hj; omega
      · exact h
    have hjd : j / E < dx.samples := by rw [Nat.div_lt_iff_lt_mul hE0]; exact hj
    have hjm : j % E < E := Nat.mod_lt _ hE0
    have hje : j / E * E + j % E = j := by rw [Nat.mul_comm]; exact Nat.div_add_mod j E
    rw [sumAt_flatMap_range, Finset.sum_eq_single (j / E)]
    · rw [sumAt_flatMap_range, Finset.sum_eq_single (j % E)]
      · rw [sumAt_flatMap_range, hje]
        simp only [sumAt_singleton, if_true]
        exact sum_getD ds c fun d => d.data.getD j 0
      · intro k hk hne
        rw [Finset.mem_range] at hk
        rw [sumAt_flatMap_range]
        refine Finset.sum_eq_zero fun i _ => ?_
        rw [sumAt_singleton, if_neg]
        intro he
        exact hne (radix_inj hk hjm (he.trans hje.symm)).2
      · intro h; exact absurd (Finset.mem_range.2 hjm) h
    · intro k hk hne
      rw [sumAt_flatMap_range]
      refine Finset.sum_eq_zero fun e he => ?_
      rw [Finset.mem_range] at he
      rw [sumAt_flatMap_range]
      refine Finset.sum_eq_zero fun i _ => ?_
      rw [sumAt_singleton, if_neg]
      intro heq
      exact hne (radix_inj he hjm (heq.trans hje.symm)).1
    · intro h; exact absurd (Finset.mem_range.2 hjd) h
  · intro s u hs hu
    refine forLoop_mods _ hu ?_
    intro e u he hu
    refine forLoop_mods _ hu ?_
    intro i u hi hu
    have hmem : ds[i] ∈ ds := List.getElem_mem hi
    obtain ⟨d1, d2⟩ := hd _ hmem
    have hlt : s * E + e < ds[i].data.length := by
      rw [d2, d1.elements, hel]; exact radix_lt hs he
    rw [rd_eq_some hi, Option.bind_some, rd_eq_some hlt]
    rw [show ds.getD i c = ds[i] by simp [List.getD_eq_getElem?_getD, hi],
      show ds[i].data.getD (s * E + e) 0 = ds[i].data[s * E + e] by
        simp [List.getD_eq_getElem?_getD, hlt]]
    simp only [Option.bind_some]
    rw [rd_bind_putElem u _ (· + ds[i].data[s * E + e]), updElem_eq_mods]
    rfl

/-- Copying one map several times. -/
theorem copyRep_spec [Zero R] {source target : Tensor R} (hs : source.WF) (ht : target.WF)
    (hw : source.width = target.width) (hh : source.height = target.height) {s a b n : Nat}
    (hss : s < source.samples) (hst : s < target.samples) (ha : a < source.maps)
    (hb : b < target.maps) :
    ∃ u, forLoop n (fun _ o => (copyMap source s a o s b).map (·.2)) target = some u ∧
      Sh target u ∧ u.WF ∧
      ∀ x y m s', target.InRange x y m s' → u.get x y m s' =
        if s' = s ∧ m = b ∧ 0 < n then source.get x y a s else target.get x y m s' := by
  obtain ⟨u, h1, h2, h3, h4⟩ := forLoop_inv (n := n)
    (f := fun _ o => (copyMap source s a o s b).map (·.2)) (s := target)
    (fun k (u : Tensor R) => Sh target u ∧ u.WF ∧ ∀ x y m s', target.InRange x y m s' → u.get x y m s' =
        if s' = s ∧ m = b ∧ 0 < k then source.get x y a s else target.get x y m s')
    ⟨Sh.rfl' _, ht, by intro x y m s' _; rw [if_neg (by omega)]⟩ (by
      rintro k u hk ⟨hu, huw, hget⟩
      obtain ⟨q1, q2, q3, q4⟩ := hu
      obtain ⟨v, g1, g2, g3, g4, _, g6⟩ := copyMap_ok (i := s) (j := s) (a := a) (b := b)
        hs huw hss (by omega) (by omega) (by omega) (by omega) (by omega)
      refine ⟨v, by rw [g1]; rfl, Sh.trans ⟨q1, q2, q3, q4⟩ g2, g3, ?_⟩
      rintro x y m s' ⟨i1, i2, i3, i4⟩
      by_cases hc : s' = s ∧ m = b
      · obtain ⟨rfl, rfl⟩ := hc
        rw [if_pos (by omega), g4 x y (by omega) (by omega)]
      · rw [g6 x y m s' ⟨by omega, by omega, by omega, by omega⟩ hc,
          hget x y m s' ⟨i1, i2, i3, i4⟩, if_neg (by omega), if_neg (by omega)])
  exact ⟨u, h1, h2, h3, h4⟩

/-- A run of map copies, each repeated once per row. -/
theorem copyMapsRep_spec [Zero R] {source target : Tensor R} (hs : source.WF) (ht : target.WF)
    (hw : source.width = target.width) (hh : source.height = target.height) {s a b n h : Nat}
    (hss : s < source.samples) (hst : s < target.samples) (ha : a + n ≤ source.maps)
    (hb : b + n ≤ target.maps) (hh' : h = target.height) :
    ∃ u, forLoop n (fun m => forLoop h (fun _ o => (copyMap source s (a + m) o s (b + m)).map (·.2)))
        target = some u ∧
      Sh target u ∧ u.WF ∧
      ∀ x y m s', target.InRange x y m s' → u.get x y m s' =
        if s' = s ∧ b ≤ m ∧ m < b + n then source.get x y (a + (m - b)) s
        else target.get x y m s' := by
  obtain ⟨u, h1, h2, h3, h4⟩ := forLoop_inv (n := n)
    (f := fun m => forLoop h (fun _ o => (copyMap source s (a + m) o s (b + m)).map (·.2)))
    (s := target)
    (fun k (u : Tensor R) => Sh target u ∧ u.WF ∧ ∀ x y m s', target.InRange x y m s' → u.get x y m s' =
        if s' = s ∧ b ≤ m ∧ m < b + k then source.get x y (a + (m - b)) s
        else target.get x y m s')
    ⟨Sh.rfl' _, ht, by intro x y m s' _; rw [if_neg (by omega)]⟩ (by
      rintro k u hk ⟨hu, huw, hget⟩
      obtain ⟨q1, q2, q3, q4⟩ := hu
      obtain ⟨v, g1, g2, g3, g4⟩ := copyRep_spec (n := h) (s := s) (a := a + k) (b := b + k)
        hs huw (by omega) (by omega) hss (by omega) (by omega) (by omega)
      refine ⟨v, g1, Sh.trans ⟨q1, q2, q3, q4⟩ g2, g3, ?_⟩
      rintro x y m s' ⟨i1, i2, i3, i4⟩
      rw [g4 x y m s' ⟨by omega, by omega, by omega, by omega⟩, hget x y m s' ⟨i1, i2, i3, i4⟩]
      by_cases hc : s' = s ∧ m = b + k
      · obtain ⟨rfl, rfl⟩ := hc
        rw [if_pos (by omega), if_pos (by omega)]
        congr 1; omega
      · rw [if_neg (by omega)]
        by_cases hd : s' = s ∧ b ≤ m ∧ m < b + k
        · rw [if_pos hd, if_pos (by omega)]
        · rw [if_neg hd, if_neg (by omega)])
  exact ⟨u, h1, h2, h3, h4⟩

/-- `SpatialPriorLayer::FeedForward`. -/
theorem spatialForward_spec [Field R] {input output : Tensor R} (hi : input.WF) (ho : output.WF)
    (hs : output.samples = input.samples) (hw : output.width = input.width)
    (hh : output.height = input.height) (hm : output.maps = input.maps + 2) :
    ∃ u, spatialForward input output = some u ∧ Sh output u ∧ u.WF ∧
      ∀ x y m s, output.InRange x y m s → u.get x y m s =
        if m = 0 then some ((x : R) / (input.width : R))
        else if m = 1 then some ((y : R) / (input.height : R))
        else input.get x y (m - 2) s := by
  obtain ⟨c, c1, c2, c3, _⟩ := clear_spec ho (1 : R)
  obtain ⟨a1, a2, a3, a4⟩ := c2
  unfold spatialForward
  rw [c1, Option.bind_some]
  obtain ⟨u, h1, h2, h3, h4⟩ := forLoop_inv (n := input.samples) (s := c)
    (f := fun sample output =>
    (forRange 2 (input.maps + 2) (fun map => forLoop input.height fun _ output =>
      (copyMap input sample (map - 2) output sample map).map (·.2)) output).bind
    (forLoop input.height fun y => forLoop input.width fun x output =>
      (output.put x y 0 sample ((x : R) / (input.width : R))).bind fun output =>
      output.put x y 1 sample ((y : R) / (input.height : R))))
    (fun k (u : Tensor R) => Sh c u ∧ u.WF ∧ ∀ x y m s, c.InRange x y m s → s < k → u.get x y m s =
        if m = 0 then some ((x : R) / (input.width : R))
        else if m = 1 then some ((y : R) / (input.height : R))
        else input.get x y (m - 2) s)
    ⟨Sh.rfl' _, c3, by intros; omega⟩ (by
      rintro k u hk ⟨hu, huw, hget⟩
      obtain ⟨q1, q2, q3, q4⟩ := hu
      obtain ⟨v, v1, v2, v3, v4⟩ := copyMapsRep_spec (n := input.maps) (s := k) (a := 0) (b := 2)
        (h := input.height) hi huw (by omega) (by omega) hk (by omega) (by omega) (by omega) (by omega)
      have e1 : forRange 2 (input.maps + 2) (fun map => forLoop input.height fun _ output =>
          (copyMap input k (map - 2) output k map).map (·.2)) u = some v := by
        unfold forRange
        simp only [Nat.add_sub_cancel_left, Nat.add_sub_cancel]
        simp only [Nat.zero_add] at v1
        exact v1
      rw [e1, Option.bind_some,
        forLoop_puts (t0 := v) (fun y => (List.range input.width).flatMap fun x =>
          [(v.offset x y 0 k, (x : R) / (input.width : R)),
           (v.offset x y 1 k, (y : R) / (input.height : R))]) (Sh.rfl' v)]
      · obtain ⟨p1, p2, p3, p4⟩ := v2
        obtain ⟨w, w1, w2, w3, w4, w5⟩ := puts_coord v3
          (es := (List.range input.height).flatMap fun y => (List.range input.width).flatMap fun x =>
            [(v.offset x y 0 k, (x : R) / (input.width : R)),
             (v.offset x y 1 k, (y : R) / (input.height : R))])
          (fun x y m s => x < input.width ∧ y < input.height ∧ m < 2 ∧ s = k)
          (fun x y m s => if m = 0 then some ((x : R) / (input.width : R))
            else some ((y : R) / (input.height : R)))
          (by
            rintro x y m s ⟨i1, i2, i3, i4⟩
            refine ⟨⟨by omega, by omega, by omega, by omega⟩, ?_⟩
            split <;> rfl)
          (by
            intro i z
            simp only [List.mem_flatMap, List.mem_range, List.mem_cons, Prod.mk.injEq,
              List.not_mem_nil, or_false]
            constructor
            · rintro ⟨y, hy, x, hx, ⟨rfl, rfl⟩ | ⟨rfl, rfl⟩⟩
              · exact ⟨x, y, 0, k, ⟨hx, hy, by omega, rfl⟩, rfl, rfl⟩
              · exact ⟨x, y, 1, k, ⟨hx, hy, by omega, rfl⟩, rfl, rfl⟩
            · rintro ⟨x, y, m, s, ⟨hx, hy, hm, rfl⟩, rfl, hz⟩
              refine ⟨y, hy, x, hx, ?_⟩
              split at hz
              · rename_i h; subst h; left; exact ⟨rfl, (Option.some.inj hz).symm⟩
              · have : m = 1 := by omega
                subst this; right; exact ⟨rfl, (Option.some.inj hz).symm⟩)
        refine ⟨w, w1, Sh.trans ⟨q1, q2, q3, q4⟩ (Sh.trans ⟨p1, p2, p3, p4⟩ w2), w3, ?_⟩
        rintro x y m s ⟨i1, i2, i3, i4⟩ hsk
        by_cases hpix : m < 2 ∧ s = k
        · rw [w4 x y m s ⟨by omega, by omega, hpix.1, hpix.2⟩]
          by_cases h0 : m = 0
          · rw [if_pos h0, if_pos h0]
          · rw [if_neg h0, if_neg h0, if_pos (by omega)]
        · rw [w5 x y m s ⟨by omega, by omega, by omega, by omega⟩ (by omega),
            v4 x y m s ⟨by omega, by omega, by omega, by omega⟩]
          by_cases hs' : s = k
          · rw [if_pos (by omega), if_neg (by omega), if_neg (by omega), Nat.zero_add, hs']
          · rw [if_neg (by omega), hget x y m s ⟨i1, i2, i3, i4⟩ (by omega)]
      · intro y t hy ht
        refine forLoop_puts _ ht ?_
        intro x t hx ht
        rw [put_eq_puts ht]
        exact puts_bind fun t' ht' => put_eq_puts (ht.trans ht') _ _ _ _ _)
  refine ⟨u, h1, Sh.trans ⟨a1, a2, a3, a4⟩ h2, h3, ?_⟩
  rintro x y m s ⟨i1, i2, i3, i4⟩
  exact h4 x y m s ⟨by omega, by omega, by omega, by omega⟩ (by omega)

/-- `SpatialPriorLayer::BackPropagate`. -/
theorem spatialBackward_spec [Zero R] {d dx : Tensor R} (hd : d.WF) (hx : dx.WF)
    (hs : d.samples = dx.samples) (hw : d.width = dx.width) (hh : d.height = dx.height)
    (hm : d.maps = dx.maps + 2) :
    ∃ u, spatialBackward d dx = some u ∧ Sh dx u ∧ u.WF ∧
      ∀ x y m s, dx.InRange x y m s → u.get x y m s = d.get x y (m + 2) s := by
  obtain ⟨u, h1, h2, h3, h4⟩ := forLoop_inv (n := dx.samples) (s := dx)
    (f := fun sample =>
      forRange 2 (dx.maps + 2) fun map => forLoop dx.height fun _ delta =>
        (copyMap d sample map delta sample (map - 2)).map (·.2))
    (fun k (u : Tensor R) => Sh dx u ∧ u.WF ∧ ∀ x y m s, dx.InRange x y m s → s < k →
      u.get x y m s = d.get x y (m + 2) s)
    ⟨Sh.rfl' _, hx, by intros; omega⟩ (by
      rintro k u hk ⟨hu, huw, hget⟩
      obtain ⟨q1, q2, q3, q4⟩ := hu
      obtain ⟨v, v1, v2, v3, v4⟩ := copyMapsRep_spec (n := dx.maps) (s := k) (a := 2) (b := 0)
        (h := dx.height) hd huw (by omega) (by omega) (by omega) (by omega) (by omega) (by omega)
        (by omega)
      refine ⟨v, ?_, Sh.trans ⟨q1, q2, q3, q4⟩ v2, v3, ?_⟩
      · unfold forRange
        simp only [Nat.add_sub_cancel_left, Nat.add_sub_cancel]
        simp only [Nat.zero_add] at v1
        exact v1
      · rintro x y m s ⟨i1, i2, i3, i4⟩ hsk
        rw [v4 x y m s ⟨by omega, by omega, by omega, by omega⟩]
        by_cases hs' : s = k
        · rw [if_pos (by omega), hs']
          congr 1; omega
        · rw [if_neg (by omega), hget x y m s ⟨i1, i2, i3, i4⟩ (by omega)])
  refine ⟨u, h1, h2, h3, ?_⟩
  rintro x y m s ⟨i1, i2, i3, i4⟩
  exact h4 x y m s ⟨by omega, by omega, by omega, by omega⟩ (by omega)

end CN24.Layers
