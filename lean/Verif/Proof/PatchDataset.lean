import Verif.Model.PatchDataset
import Verif.Base.Writes
import Verif.Proof.Dataset
import Verif.Props.Tensor

namespace CN24.PatchDataset
open CN24 CN24.Tensor

variable {R : Type _}

/-- Number of patch positions in an image, without overflow. -/
def positions (px py : Nat) (t : Tensor R) : Nat := (t.width + 1 - px) * (t.height + 1 - py)

/-- Number of patch positions in a list of images. -/
def total (px py : Nat) (ts : List (Tensor R)) : Nat := (ts.map (positions px py)).sum

theorem inner_eq {size patch : Nat} (h1 : 0 < patch) (h2 : patch ≤ size) (h3 : patch < 2 ^ 32)
    (h4 : size + 1 - patch < 2 ^ 32) :
    sub64 size (sub32 patch 1) = size + 1 - patch ∧ inner size patch = size + 1 - patch := by
  have e1 : sub32 patch 1 = patch - 1 := by unfold sub32; omega
  have e2 : sub64 size (sub32 patch 1) = size + 1 - patch := by rw [e1]; unfold sub64; omega
  exact ⟨e2, by rw [inner, e2, u32]; omega⟩

theorem factors_lt {a b n : Nat} (ha : 0 < a) (hb : 0 < b) (h : a * b < n) : a < n ∧ b < n := by
  constructor
  · exact Nat.lt_of_le_of_lt (Nat.le_mul_of_pos_right a hb) h
  · exact Nat.lt_of_le_of_lt (Nat.le_mul_of_pos_left b ha) h

/-- The patch fits the image. -/
structure Contains (px py : Nat) (t : Tensor R) : Prop where
  x : px ≤ t.width
  y : py ≤ t.height

theorem area_eq {px py : Nat} (hpx : 0 < px) (hpy : 0 < py) (hpx' : px < 2 ^ 32)
    (hpy' : py < 2 ^ 32) {t : Tensor R} (hc : Contains px py t) (h : positions px py t < 2 ^ 32) :
    area px py t = positions px py t ∧ inner t.width px = t.width + 1 - px ∧
    inner t.height py = t.height + 1 - py ∧ sub64 t.width (sub32 px 1) = t.width + 1 - px := by
  obtain ⟨h1, h2⟩ := hc
  obtain ⟨a, b⟩ := factors_lt (by omega) (by omega) h
  have e1 := inner_eq hpx h1 hpx' a
  have e2 := inner_eq hpy h2 hpy' b
  refine ⟨?_, e1.2, e2.2, e1.1⟩
  unfold area u32
  rw [e1.2, e2.2]
  exact Nat.mod_eq_of_lt h

theorem sampleCount_eq {px py : Nat} (hpx : 0 < px) (hpy : 0 < py) (hpx' : px < 2 ^ 32)
    (hpy' : py < 2 ^ 32) (ts : List (Tensor R)) (hc : ∀ t ∈ ts, Contains px py t)
    (h : total px py ts < 2 ^ 32) : sampleCount px py ts = total px py ts := by
  suffices H : ∀ (ts : List (Tensor R)) (c : Nat), (∀ t ∈ ts, Contains px py t) →
      c + total px py ts < 2 ^ 32 →
      ts.foldl (fun c t => u32 (c + area px py t)) c = c + total px py ts by
    have := H ts 0 hc (by omega)
    rw [Nat.zero_add] at this
    exact this
  intro ts
  induction ts with
  | nil => intro c _ _; rfl
  | cons t ts ih =>
    intro c hc h
    have e : total px py (t :: ts) = positions px py t + total px py ts := by simp [total]
    rw [e] at h ⊢
    have ha := (area_eq hpx hpy hpx' hpy' (hc t (by simp)) (by omega)).1
    rw [List.foldl_cons, ha, u32, Nat.mod_eq_of_lt (by omega),
      ih _ (fun t ht => hc t (by simp [ht])) (by omega)]
    omega

/-- The search finds the image a patch belongs to. -/
theorem find_spec {px py : Nat} (hpx : 0 < px) (hpy : 0 < py) (hpx' : px < 2 ^ 32)
    (hpy' : py < 2 ^ 32) (ts : List (Tensor R)) : ∀ (sum t off : Nat) (image : Tensor R),
    (∀ u ∈ ts.take (t + 1), Contains px py u) → ts[t]? = some image → off < positions px py image →
    sum + total px py (ts.take t) + positions px py image < 2 ^ 32 →
    findPatch (sum + total px py (ts.take t) + off) (lastSamples px py sum ts) = t ∧
    (lastSamples px py sum ts)[t]? = some (sum + total px py (ts.take t) + positions px py image) := by
  induction ts with
  | nil => intro _ _ _ _ _ h; simp at h
  | cons u ts ih =>
    intro sum t off image hc hi ho hb
    cases t with
    | zero =>
      obtain rfl : u = image := by simpa using hi
      have e0 : total px py (List.take 0 (u :: ts)) = 0 := rfl
      rw [e0] at hb ⊢
      have ha := (area_eq hpx hpy hpx' hpy' (hc u (by simp)) (by omega)).1
      have e : u32 (sum + area px py u) = sum + positions px py u := by
        rw [ha, u32, Nat.mod_eq_of_lt (by omega)]
      constructor
      · rw [lastSamples, findPatch, e, if_neg (by omega)]
      · rw [lastSamples, e]; simp
    | succ t =>
      have e0 : total px py (List.take (t + 1) (u :: ts)) =
          positions px py u + total px py (ts.take t) := by simp [total]
      rw [e0] at hb ⊢
      have ha := (area_eq hpx hpy hpx' hpy' (hc u (by simp)) (by omega)).1
      have e : u32 (sum + area px py u) = sum + positions px py u := by
        rw [ha, u32, Nat.mod_eq_of_lt (by omega)]
      obtain ⟨i1, i2⟩ := ih (sum + positions px py u) t off image
        (fun v hv => hc v (by rw [List.take_succ_cons]; exact List.mem_cons_of_mem _ hv))
        (by simpa using hi) ho (by omega)
      constructor
      · rw [lastSamples, findPatch, e, if_pos (by omega), show sum + (positions px py u +
          total px py (ts.take t)) + off = sum + positions px py u + total px py (ts.take t) + off
          by omega, i1]
      · rw [lastSamples, e, List.getElem?_cons_succ, i2, Nat.add_assoc sum]

section
variable [Field R] [LinearOrder R]

theorem offset_add (t : Tensor R) (x y m s i : Nat) :
    t.offset x y m s + i = t.offset (x + i) y m s := by rw [offset_eq, offset_eq]; omega

theorem copyPatch_spec {image data : Tensor R} {maps px py col row sample : Nat} (hi : image.WF)
    (hd : data.WF) (h1 : col + px ≤ image.width) (h2 : row + py ≤ image.height)
    (h3 : maps ≤ image.maps) (h4 : 0 < image.samples) (h5 : px ≤ data.width)
    (h6 : py ≤ data.height) (h7 : maps ≤ data.maps) (h8 : sample < data.samples) :
    ∃ u, copyPatch image maps px py col row sample data = some u ∧
      Upd data u (fun x y m s => if x < px ∧ y < py ∧ m < maps ∧ s = sample then
        image.get (col + x) (row + y) m 0 else none) := by
  unfold copyPatch
  refine upd_loop hd (fun m0 x y m s => if x < px ∧ y < py ∧ m = m0 ∧ s = sample then
        image.get (col + x) (row + y) m 0 else none) _ ?_ ?_ ?_
  · intro m0 u hm0 hsu hwu
    refine upd_loop hwu (fun y0 x y m s => if x < px ∧ y = y0 ∧ m = m0 ∧ s = sample then
        image.get (col + x) (row + y) m 0 else none) _ ?_ ?_ ?_
    · intro y0 u2 hy0 hsu2 hwu2
      refine upd_loop hwu2 (fun x0 x y m s => if x = x0 ∧ y = y0 ∧ m = m0 ∧ s = sample then
        image.get (col + x) (row + y) m 0 else none) _ ?_ ?_ ?_
      · intro x0 u3 hx0 hsu3 hwu3
        obtain ⟨k1, k2, k3, k4⟩ := (hsu.trans hsu2).trans hsu3
        obtain ⟨v, hv⟩ := get_of_inRange hi (x := col + x0) (y := row + y0) (m := m0) (s := 0)
          ⟨by omega, by omega, by omega, h4⟩
        have hv' : rd image.data (image.offset (col + x0) (row + y0) m0 0) = some v := hv
        rw [offset_add, hv', Option.bind_some, offset_add, Nat.zero_add]
        obtain ⟨u4, w1, w2⟩ := upd_put hwu3 (x := x0) (y := y0) (m := m0) (s := sample)
          ⟨by omega, by omega, by omega, by omega⟩ v
        refine ⟨u4, w1, w2.congr ?_⟩
        intro x y m s _
        by_cases hc : x = x0 ∧ y = y0 ∧ m = m0 ∧ s = sample
        · rw [if_pos hc, if_pos hc]
          obtain ⟨rfl, rfl, rfl, rfl⟩ := hc
          exact hv.symm
        · rw [if_neg hc, if_neg hc]
      · intro x0 x y m s v hx0 _ e
        split at e
        · rename_i hc
          obtain ⟨rfl, rfl, rfl, rfl⟩ := hc
          simpa [hx0] using e
        · cases e
      · intro x y m s v _ e
        split at e
        · rename_i hc
          obtain ⟨q, rfl, rfl, rfl⟩ := hc
          exact ⟨x, q, by simpa using e⟩
        · cases e
    · intro y0 x y m s v hy0 _ e
      split at e
      · rename_i hc
        obtain ⟨q, rfl, rfl, rfl⟩ := hc
        simpa [hy0, q] using e
      · cases e
    · intro x y m s v _ e
      split at e
      · rename_i hc
        obtain ⟨q, q', rfl, rfl⟩ := hc
        exact ⟨y, q', by simpa [q] using e⟩
      · cases e
  · intro m0 x y m s v hm0 _ e
    split at e
    · rename_i hc
      obtain ⟨q, q', rfl, rfl⟩ := hc
      simpa [hm0, q, q'] using e
    · cases e
  · intro x y m s v _ e
    split at e
    · rename_i hc
      obtain ⟨q, q', q'', rfl⟩ := hc
      exact ⟨m, q'', by simpa [q, q'] using e⟩
    · cases e

theorem copyLabel_spec {label out : Tensor R} {maps px py col row sample : Nat} (hl : label.WF)
    (hd : out.WF) (h1 : col + px / 2 < label.width) (h2 : row + py / 2 < label.height)
    (h3 : maps ≤ label.maps) (h4 : 0 < label.samples) (h5 : 0 < out.width)
    (h6 : 0 < out.height) (h7 : maps ≤ out.maps) (h8 : sample < out.samples) :
    ∃ u, copyLabel label maps px py col row sample out = some u ∧
      Upd out u (fun x y m s => if x = 0 ∧ y = 0 ∧ m < maps ∧ s = sample then
        label.get (col + px / 2) (row + py / 2) m 0 else none) := by
  unfold copyLabel
  refine upd_loop hd (fun m0 x y m s => if x = 0 ∧ y = 0 ∧ m = m0 ∧ s = sample then
        label.get (col + px / 2) (row + py / 2) m 0 else none) _ ?_ ?_ ?_
  · intro m0 u hm0 hsu hwu
    obtain ⟨k1, k2, k3, k4⟩ := hsu
    obtain ⟨v, hv⟩ := get_of_inRange hl (x := col + px / 2) (y := row + py / 2) (m := m0) (s := 0)
      ⟨by omega, by omega, by omega, h4⟩
    rw [hv, Option.bind_some]
    obtain ⟨u4, w1, w2⟩ := upd_put hwu (x := 0) (y := 0) (m := m0) (s := sample)
      ⟨by omega, by omega, by omega, by omega⟩ v
    refine ⟨u4, w1, w2.congr ?_⟩
    intro x y m s _
    by_cases hc : x = 0 ∧ y = 0 ∧ m = m0 ∧ s = sample
    · rw [if_pos hc, if_pos hc]
      obtain ⟨rfl, rfl, rfl, rfl⟩ := hc
      exact hv.symm
    · rw [if_neg hc, if_neg hc]
  · intro m0 x y m s v hm0 _ e
    split at e
    · rename_i hc
      obtain ⟨rfl, rfl, rfl, rfl⟩ := hc
      simpa [hm0] using e
    · cases e
  · intro x y m s v _ e
    split at e
    · rename_i hc
      obtain ⟨rfl, rfl, q'', rfl⟩ := hc
      exact ⟨m, q'', by simpa using e⟩
    · cases e

end
/-- The index arithmetic of `getPatch` for a position of image `t`. -/
theorem locate {w h px py T row col : Nat} (hw : inner w px = w + 1 - px)
    (ha : u32 (inner w px * inner h py) = (w + 1 - px) * (h + 1 - py))
    (hrow : sub64 w (sub32 px 1) = w + 1 - px) (hcol : col < w + 1 - px)
    (hoff : row * (w + 1 - px) + col < (w + 1 - px) * (h + 1 - py))
    (hb : T + (w + 1 - px) * (h + 1 - py) < 2 ^ 32) :
    patchRow px py w h (T + (w + 1 - px) * (h + 1 - py)) (T + (row * (w + 1 - px) + col)) =
      some row ∧
    patchCol px py w h (T + (w + 1 - px) * (h + 1 - py)) (T + (row * (w + 1 - px) + col)) row =
      col := by
  have e1 : sub32 (T + (w + 1 - px) * (h + 1 - py)) (u32 (inner w px * inner h py)) = T := by
    rw [ha]
    generalize (w + 1 - px) * (h + 1 - py) = P at *
    unfold sub32; omega
  have e2 : sub32 (T + (row * (w + 1 - px) + col)) T = row * (w + 1 - px) + col := by
    generalize (w + 1 - px) * (h + 1 - py) = P at *
    generalize row * (w + 1 - px) + col = O at *
    unfold sub32; omega
  have hr : row ≤ row * (w + 1 - px) := Nat.le_mul_of_pos_right _ (by omega)
  unfold patchRow patchCol
  rw [e1, e2, hrow]
  constructor
  · have e : (row * (w + 1 - px) + col) / (w + 1 - px) = row := by
      rw [Nat.mul_comm, Nat.mul_add_div (by omega), Nat.div_eq_of_lt (by omega), Nat.add_zero]
    rw [if_neg (by omega), e, u32, Nat.mod_eq_of_lt (by omega)]
  · clear e1 e2
    generalize (w + 1 - px) * (h + 1 - py) = P at *
    generalize row * (w + 1 - px) = O at *
    unfold u32 sub64; omega

section
variable [Field R] [LinearOrder R]

/-- `getPatch` on the number of a position. -/
theorem getPatch_eq (lowest : R) (ef : Nat → Nat → Nat → Nat → R) (ds : Dataset R)
    (hpx : 0 < ds.px) (hpy : 0 < ds.py) (hpx' : ds.px < 2 ^ 32)
    (hpy' : ds.py < 2 ^ 32) (hlast : ds.lastSample = lastSamples ds.px ds.py 0 ds.data)
    (outs : Outputs R) (sample t col row : Nat) (image label : Tensor R)
    (hi : ds.data[t]? = some image) (hl : ds.labels[t]? = some label)
    (hcol : col + ds.px ≤ image.width) (hrow : row + ds.py ≤ image.height)
    (hc : ∀ u ∈ ds.data.take (t + 1), Contains ds.px ds.py u)
    (hb : total ds.px ds.py (ds.data.take t) + positions ds.px ds.py image < 2 ^ 32) :
    getPatch lowest ef ds outs sample (total ds.px ds.py (ds.data.take t) +
        (row * (image.width + 1 - ds.px) + col)) =
      fetchPatch lowest ef ds outs sample image label col row := by
  have hpos : positions ds.px ds.py image =
      (image.width + 1 - ds.px) * (image.height + 1 - ds.py) := by rw [positions]
  have hoff : row * (image.width + 1 - ds.px) + col <
      (image.width + 1 - ds.px) * (image.height + 1 - ds.py) := by
    have := radix_lt (show row < image.height + 1 - ds.py by omega)
      (show col < image.width + 1 - ds.px by omega)
    rw [Nat.mul_comm (image.width + 1 - ds.px)]
    exact this
  obtain ⟨f1, f2⟩ := find_spec hpx hpy hpx' hpy' ds.data 0 t (row * (image.width + 1 - ds.px) + col)
    image hc hi (by rw [hpos]; exact hoff) (by rw [Nat.zero_add]; exact hb)
  rw [Nat.zero_add] at f1 f2
  have hcont : Contains ds.px ds.py image := by
    refine hc image ?_
    rw [List.take_add_one, hi]; simp
  obtain ⟨a1, a2, a3, a4⟩ := area_eq hpx hpy hpx' hpy' hcont
    (Nat.lt_of_le_of_lt (Nat.le_add_left _ _) hb)
  rw [area, hpos] at a1
  rw [hpos] at hb f2
  obtain ⟨l1, l2⟩ := locate (T := total ds.px ds.py (ds.data.take t)) (row := row)
    (col := col) a2 a1 a4 (by omega) hoff hb
  have hge : ¬ total ds.px ds.py (ds.data.take t) + (image.width + 1 - ds.px) *
      (image.height + 1 - ds.py) ≤ total ds.px ds.py (ds.data.take t) +
        (row * (image.width + 1 - ds.px) + col) := by omega
  clear hb hpx' hpy' hpos hc a1 a2 a3 a4
  have r2 : rd ds.data t = some image := hi
  have r3 : rd ds.labels t = some label := hl
  rw [getPatch, hlast, f1, rd, f2, Option.bind_some, if_neg hge, r2, Option.bind_some, r3,
    Option.bind_some, l1, Option.bind_some, l2]

end
end CN24.PatchDataset
