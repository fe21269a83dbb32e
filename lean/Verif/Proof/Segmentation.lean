import Verif.Model.Segmentation
import Verif.Base.Writes
import Verif.Base.Nest
import Mathlib.Tactic.Ring

namespace CN24.Segmentation
open CN24.Tensor
variable {R : Type _}

/-- The pixel shown at image coordinate `i`: outside of the image, coordinates are mirrored, without
the border pixel at the low end and with it at the high end. -/
def mirrored (size : Nat) (i : Int) : Nat :=
  if i < 0 then (-i).toNat else if i < size then i.toNat else (2 * size - 1 - i).toNat

theorem source_eq {size p ip patch : Nat} (hp : p < size) (hi : ip < patch) (hs : patch < 2 * size) :
    source size p ip (patch / 2 : Nat) = (mirrored size ((p : Int) + ip - (patch / 2 : Nat)) : Nat) ∧
    mirrored size ((p : Int) + ip - (patch / 2 : Nat)) < size := by
  unfold source mirrored
  dsimp only
  split <;> split <;> (try split) <;> omega

theorem source_label {size p patch : Nat} (hp : p < size) :
    source size p ((patch / 2 : Nat) + 1) (patch / 2 : Nat) = (min (p + 1) (size - 1) : Nat) := by
  unfold source
  dsimp only
  split <;> split <;> omega

theorem getInt_nat (t : Tensor R) (x y m s : Nat) : getInt t x y m s = t.get x y m s := by
  unfold getInt Tensor.get Tensor.offset
  dsimp only
  have e : (((s * t.maps * t.width * t.height + m * t.width * t.height : Nat) : Int) +
      (y : Int) * (t.width : Int) + (x : Int)) =
      ((s * t.maps * t.width * t.height + m * t.width * t.height + y * t.width + x : Nat) : Int) := by
    push_cast; ring
  rw [e, if_neg (by omega)]
  rfl

/-- The loops over one patch. -/
theorem copyPatch_spec {image target : Tensor R} (hw : target.WF) (hi : image.WF)
    {px py psx psy sample element : Nat} (hpx : px < image.width) (hpy : py < image.height)
    (hx : psx < 2 * image.width) (hy : psy < 2 * image.height) (hs : sample < image.samples)
    (t1 : target.width = psx) (t2 : target.height = psy) (t3 : target.maps = image.maps)
    (he : element < target.samples) :
    ∃ u, copyPatch px py psx psy image sample element target = some u ∧
      Upd target u (fun x y m s => if s = element then
        image.get (mirrored image.width ((px : Int) + x - (psx / 2 : Nat)))
          (mirrored image.height ((py : Int) + y - (psy / 2 : Nat))) m sample else none) := by
  unfold copyPatch
  refine upd_loop hw (fun ipy x y m s => if s = element ∧ y = ipy then
        image.get (mirrored image.width ((px : Int) + x - (psx / 2 : Nat)))
          (mirrored image.height ((py : Int) + y - (psy / 2 : Nat))) m sample else none) _ ?_ ?_ ?_
  · intro ipy u hipy hu1 hu2
    refine upd_loop hu2 (fun ipx x y m s => if s = element ∧ y = ipy ∧ x = ipx then
        image.get (mirrored image.width ((px : Int) + x - (psx / 2 : Nat)))
          (mirrored image.height ((py : Int) + y - (psy / 2 : Nat))) m sample else none) _ ?_ ?_ ?_
    · intro ipx u' hipx hu1' hu2'
      refine upd_loop hu2' (fun map x y m s => if s = element ∧ y = ipy ∧ x = ipx ∧ m = map then
        image.get (mirrored image.width ((px : Int) + x - (psx / 2 : Nat)))
          (mirrored image.height ((py : Int) + y - (psy / 2 : Nat))) m sample else none) _ ?_ ?_ ?_
      · intro map u'' hmap hu1'' hu2''
        obtain ⟨e1, l1⟩ := source_eq hpx hipx hx
        obtain ⟨e2, l2⟩ := source_eq hpy hipy hy
        rw [e1, e2, getInt_nat]
        obtain ⟨v, hv⟩ := get_of_inRange hi (x := mirrored image.width ((px : Int) + ipx - (psx / 2 : Nat)))
          (y := mirrored image.height ((py : Int) + ipy - (psy / 2 : Nat))) (m := map) (s := sample)
          ⟨l1, l2, hmap, hs⟩
        rw [hv, Option.bind_some]
        obtain ⟨q1, q2, q3, q4⟩ := (hu1.trans hu1').trans hu1''
        obtain ⟨w, ew, hw'⟩ := upd_put hu2'' (x := ipx) (y := ipy) (m := map) (s := element)
          ⟨by omega, by omega, by omega, by omega⟩ v
        refine ⟨w, ew, hw'.congr ?_⟩
        intro x y m s _
        by_cases h : x = ipx ∧ y = ipy ∧ m = map ∧ s = element
        · obtain ⟨rfl, rfl, rfl, rfl⟩ := h
          rw [if_pos ⟨rfl, rfl, rfl, rfl⟩, if_pos ⟨rfl, rfl, rfl, rfl⟩, hv]
        · rw [if_neg h, if_neg (by tauto)]
      · intro map x y m s v _ _ h
        split at h
        · rename_i hc; rw [if_pos ⟨hc.1, hc.2.1, hc.2.2.1⟩]; exact h
        · simp at h
      · intro x y m s v hin h
        split at h
        · rename_i hc
          obtain ⟨q1, q2, q3, q4⟩ := hu1.trans hu1'
          refine ⟨m, ?_, by rw [if_pos ⟨hc.1, hc.2.1, hc.2.2, rfl⟩]; exact h⟩
          have := hin.2.2.1
          omega
        · simp at h
    · intro ipx x y m s v _ _ h
      split at h
      · rename_i hc; rw [if_pos ⟨hc.1, hc.2.1⟩]; exact h
      · simp at h
    · intro x y m s v hin h
      split at h
      · rename_i hc
        obtain ⟨q1, q2, q3, q4⟩ := hu1
        refine ⟨x, ?_, by rw [if_pos ⟨hc.1, hc.2, rfl⟩]; exact h⟩
        have := hin.1
        omega
      · simp at h
  · intro ipy x y m s v _ _ h
    split at h
    · rename_i hc; rw [if_pos hc.1]; exact h
    · simp at h
  · intro x y m s v hin h
    split at h
    · rename_i hc
      refine ⟨y, ?_, by rw [if_pos ⟨hc, rfl⟩]; exact h⟩
      have := hin.2.1
      omega
    · simp at h

theorem element_lt {w h px py : Nat} (hx : px < w) (hy : py < h) : w * py + px < w * h := by
  have := radix_lt hy hx
  rw [Nat.mul_comm w py, Nat.mul_comm w h]; exact this

theorem element_divmod {w px py : Nat} (hx : px < w) :
    (w * py + px) % w = px ∧ (w * py + px) / w = py := by
  refine ⟨by rw [Nat.mul_add_mod, Nat.mod_eq_of_lt hx], ?_⟩
  rw [Nat.mul_add_div (by omega), Nat.div_eq_of_lt hx]; simp

/-- A loop over all pixels that writes, for each pixel, the sample of that pixel. -/
theorem pixel_loops {t : Tensor R} (hw : t.WF) {w h : Nat} (hs : t.samples = w * h)
    {f : Nat → Nat → Tensor R → Option (Tensor R)} (V : Nat → Nat → Nat → Nat → Option R)
    (hf : ∀ px py u, px < w → py < h → Sh t u → u.WF → ∃ u', f px py u = some u' ∧
      Upd u u' (fun x y m s => if s = w * py + px then V x y m s else none)) :
    ∃ u, forLoop w (fun px => forLoop h (f px)) t = some u ∧ Upd t u V := by
  refine upd_loop hw (fun px x y m s => if s % w = px then V x y m s else none) V ?_ ?_ ?_
  · intro px u hpx hu1 hu2
    refine upd_loop hu2 (fun py x y m s => if s = w * py + px then V x y m s else none) _ ?_ ?_ ?_
    · intro py u' hpy hu1' hu2'
      exact hf px py u' hpx hpy (hu1.trans hu1') hu2'
    · intro py x y m s v hpy _ hv
      split at hv
      · rename_i hc; rw [if_pos (by rw [hc]; exact (element_divmod hpx).1)]; exact hv
      · simp at hv
    · intro x y m s v hin hv
      split at hv
      · rename_i hc
        have h1 : s < w * h := by
          have := hin.2.2.2; rw [← hs, hu1.1]; exact this
        refine ⟨s / w, Nat.div_lt_of_lt_mul h1, ?_⟩
        rw [if_pos, hv]
        rw [← hc]; exact (Nat.div_add_mod s w).symm
      · simp at hv
  · intro px x y m s v _ _ hv
    split at hv
    · exact hv
    · simp at hv
  · intro x y m s v hin hv
    have h1 : s < w * h := by have := hin.2.2.2; rw [← hs]; exact this
    have hw0 : 0 < w := by
      rcases Nat.eq_zero_or_pos w with h0 | h0
      · rw [h0] at h1; omega
      · exact h0
    exact ⟨s % w, Nat.mod_lt _ hw0, by rw [if_pos rfl]; exact hv⟩

theorem putElem_eq_put (t : Tensor R) {i x y m s : Nat} (h : t.offset x y m s = i) (v : R) :
    t.putElem i v = t.put x y m s v := by
  unfold Tensor.putElem Tensor.put
  rw [h]

section
variable [Field R] [LinearOrder R]

/-- The loops of `ExtractPatches`. -/
theorem patches_spec {image target helper : Tensor R} (hw : target.WF) (hh : helper.WF)
    (hi : image.WF) {psx psy sample : Nat} (hx : psx < 2 * image.width)
    (hy : psy < 2 * image.height) (hs : sample < image.samples)
    (t0 : target.samples = image.width * image.height)
    (t1 : target.width = psx) (t2 : target.height = psy) (t3 : target.maps = image.maps)
    (k0 : helper.samples = image.width * image.height) (k1 : helper.width = 2)
    (k2 : helper.height = 1) (k3 : helper.maps = 1) :
    ∃ u k, patches psx psy image sample target helper = some (u, k) ∧
      Upd target u (fun x y m s =>
        image.get (mirrored image.width (((s % image.width : Nat) : Int) + x - (psx / 2 : Nat)))
          (mirrored image.height (((s / image.width : Nat) : Int) + y - (psy / 2 : Nat))) m sample) ∧
      Upd helper k (fun x _ _ s => some (if x = 0 then position image.height (s / image.width) psy
        else position image.width (s % image.width) psx)) := by
  unfold patches
  rw [forLoop_both (g := fun px => forLoop image.height (fun py t =>
        copyPatch px py psx psy image sample (image.width * py + px) t))
      (h := fun px => forLoop image.height (fun py k =>
        (k.putElem (2 * (image.width * py + px)) (position image.height py psy)).bind fun k =>
        k.putElem (2 * (image.width * py + px) + 1) (position image.width px psx)))]
  · obtain ⟨u, e1, h1⟩ := pixel_loops hw t0 (f := fun px py t =>
        copyPatch px py psx psy image sample (image.width * py + px) t)
      (fun x y m s =>
        image.get (mirrored image.width (((s % image.width : Nat) : Int) + x - (psx / 2 : Nat)))
          (mirrored image.height (((s / image.width : Nat) : Int) + y - (psy / 2 : Nat))) m sample) (by
      intro px py u hpx hpy hu1 hu2
      obtain ⟨q1, q2, q3, q4⟩ := hu1
      obtain ⟨u', e, h⟩ := copyPatch_spec hu2 hi hpx hpy hx hy hs (by omega) (by omega) (by omega)
        (element := image.width * py + px) (by rw [← q1, t0]; exact element_lt hpx hpy)
      refine ⟨u', e, h.congr ?_⟩
      intro x y m s _
      by_cases hc : s = image.width * py + px
      · rw [if_pos hc, if_pos hc, hc, (element_divmod hpx).1, (element_divmod hpx).2]
      · rw [if_neg hc, if_neg hc])
    obtain ⟨k, e2, h2⟩ := pixel_loops hh k0 (f := fun px py k =>
        (k.putElem (2 * (image.width * py + px)) (position image.height py psy)).bind fun k =>
        k.putElem (2 * (image.width * py + px) + 1) (position image.width px psx))
      (fun x _ _ s => some (if x = 0 then position image.height (s / image.width) psy
        else position image.width (s % image.width) psx)) (by
      intro px py u hpx hpy hu1 hu2
      obtain ⟨q1, q2, q3, q4⟩ := hu1
      have hlt : image.width * py + px < u.samples := by rw [← q1, k0]; exact element_lt hpx hpy
      have off : ∀ (v : Tensor R), Sh u v → ∀ x, v.offset x 0 0 (image.width * py + px) =
          2 * (image.width * py + px) + x := by
        intro v hv x
        rw [hv.offset]
        unfold Tensor.offset
        rw [← q2, ← q3, ← q4, k1, k2, k3]
        ring
      have e1 : u.putElem (2 * (image.width * py + px)) (position image.height py psy : R) =
          u.put 0 0 0 (image.width * py + px) (position image.height py psy) :=
        putElem_eq_put u (off u (Sh.rfl' u) 0) _
      rw [e1]
      obtain ⟨v, ev, hv⟩ := upd_put hu2 (x := 0) (y := 0) (m := 0) (s := image.width * py + px)
        ⟨by omega, by omega, by omega, hlt⟩ (position image.height py psy : R)
      obtain ⟨w, ew, hw⟩ := upd_bind (f := fun k => k.putElem (2 * (image.width * py + px) + 1)
          (position image.width px psx)) ⟨v, ev, hv⟩ (by
        intro v' hv1 hv2
        rw [putElem_eq_put v' (off v' hv1 1) _]
        obtain ⟨r1, r2, r3, r4⟩ := hv1
        exact upd_put hv2 (x := 1) (y := 0) (m := 0) (s := image.width * py + px)
          ⟨by omega, by omega, by omega, by omega⟩ _)
      refine ⟨w, ew, hw.congr ?_⟩
      rintro x y m s ⟨i1, i2, i3, _⟩
      by_cases hc : s = image.width * py + px
      · have hy0 : y = 0 := by omega
        have hm0 : m = 0 := by omega
        rw [if_pos hc, hc, (element_divmod hpx).1, (element_divmod hpx).2, hy0, hm0]
        have : x = 0 ∨ x = 1 := by omega
        rcases this with rfl | rfl <;> simp
      · simp [hc])
    exact ⟨u, k, by rw [e1, e2]; rfl, h1, h2⟩
  · intro px a b _
    rw [forLoop_both]
    intro py a b _
    unfold both
    dsimp only
    congr 1
    funext a'
    cases b.putElem (2 * (image.width * py + px)) (position image.height py psy : R) <;> rfl

theorem extractLabels_spec {image labels weight : Tensor R} (hw : labels.WF) (hh : weight.WF)
    (hi : image.WF) {psx psy sample : Nat} (ignored : R → Bool) (hs : sample < image.samples)
    (hm : 0 < image.maps)
    (t0 : labels.samples = image.width * image.height)
    (t1 : labels.width = 1) (t2 : labels.height = 1) (t3 : labels.maps = 1)
    (k0 : weight.samples = image.width * image.height) (k1 : weight.width = 1)
    (k2 : weight.height = 1) (k3 : weight.maps = 1) :
    ∃ u k, extractLabels psx psy image sample ignored labels weight = some (u, k) ∧
      Upd labels u (fun _ _ _ s =>
        image.get (min (s % image.width + 1) (image.width - 1))
          (min (s / image.width + 1) (image.height - 1)) 0 sample) ∧
      Upd weight k (fun _ _ _ s =>
        (image.get (min (s % image.width + 1) (image.width - 1))
          (min (s / image.width + 1) (image.height - 1)) 0 sample).map fun l =>
            if ignored l then 0 else 1) := by
  have hget : ∀ px py, px < image.width → py < image.height →
      (image.get (min (px + 1) (image.width - 1)) (min (py + 1) (image.height - 1)) 0 sample).isSome := by
    intro px py hpx hpy
    exact get_isSome hi ⟨by omega, by omega, hm, hs⟩
  unfold extractLabels
  have hbody : ∀ px, px < image.width → ∀ py, py < image.height → ∀ (a b : Tensor R),
      ((getInt image (source image.width px ((psx / 2 : Nat) + 1) (psx / 2 : Nat))
        (source image.height py ((psy / 2 : Nat) + 1) (psy / 2 : Nat)) 0 sample).bind fun label =>
      (a.put 0 0 0 (image.width * py + px) label).bind fun labels =>
      (b.put 0 0 0 (image.width * py + px) (if ignored label then 0 else 1)).map fun weight =>
        (labels, weight)) =
      both ((image.get (min (px + 1) (image.width - 1)) (min (py + 1) (image.height - 1)) 0 sample).bind
          fun label => a.put 0 0 0 (image.width * py + px) label)
        ((image.get (min (px + 1) (image.width - 1)) (min (py + 1) (image.height - 1)) 0 sample).bind
          fun label => b.put 0 0 0 (image.width * py + px) (if ignored label then 0 else 1)) := by
    intro px hpx py hpy a b
    rw [source_label hpx, source_label hpy, getInt_nat]
    obtain ⟨v, hv⟩ := Option.isSome_iff_exists.1 (hget px py hpx hpy)
    rw [hv]
    rfl
  rw [forLoop_both (g := fun px => forLoop image.height (fun py a =>
        (image.get (min (px + 1) (image.width - 1)) (min (py + 1) (image.height - 1)) 0 sample).bind
          fun label => a.put 0 0 0 (image.width * py + px) label))
      (h := fun px => forLoop image.height (fun py b =>
        (image.get (min (px + 1) (image.width - 1)) (min (py + 1) (image.height - 1)) 0 sample).bind
          fun label => b.put 0 0 0 (image.width * py + px) (if ignored label then 0 else 1)))]
  · obtain ⟨u, e1, h1⟩ := pixel_loops hw t0 (f := fun px py a =>
        (image.get (min (px + 1) (image.width - 1)) (min (py + 1) (image.height - 1)) 0 sample).bind
          fun label => a.put 0 0 0 (image.width * py + px) label)
      (fun _ _ _ s => image.get (min (s % image.width + 1) (image.width - 1))
          (min (s / image.width + 1) (image.height - 1)) 0 sample) (by
      intro px py u hpx hpy hu1 hu2
      obtain ⟨q1, q2, q3, q4⟩ := hu1
      obtain ⟨v, hv⟩ := Option.isSome_iff_exists.1 (hget px py hpx hpy)
      rw [hv, Option.bind_some]
      obtain ⟨w, ew, hw'⟩ := upd_put hu2 (x := 0) (y := 0) (m := 0) (s := image.width * py + px)
        ⟨by omega, by omega, by omega, by rw [← q1, t0]; exact element_lt hpx hpy⟩ v
      refine ⟨w, ew, hw'.congr ?_⟩
      rintro x y m s ⟨i1, i2, i3, _⟩
      by_cases hc : s = image.width * py + px
      · rw [if_pos ⟨by omega, by omega, by omega, hc⟩, if_pos hc, hc, (element_divmod hpx).1,
          (element_divmod hpx).2, hv]
      · rw [if_neg (by tauto), if_neg hc])
    obtain ⟨k, e2, h2⟩ := pixel_loops hh k0 (f := fun px py b =>
        (image.get (min (px + 1) (image.width - 1)) (min (py + 1) (image.height - 1)) 0 sample).bind
          fun label => b.put 0 0 0 (image.width * py + px) (if ignored label then 0 else 1))
      (fun _ _ _ s => (image.get (min (s % image.width + 1) (image.width - 1))
          (min (s / image.width + 1) (image.height - 1)) 0 sample).map fun l =>
            if ignored l then 0 else 1) (by
      intro px py u hpx hpy hu1 hu2
      obtain ⟨q1, q2, q3, q4⟩ := hu1
      obtain ⟨v, hv⟩ := Option.isSome_iff_exists.1 (hget px py hpx hpy)
      rw [hv, Option.bind_some]
      obtain ⟨w, ew, hw'⟩ := upd_put hu2 (x := 0) (y := 0) (m := 0) (s := image.width * py + px)
        ⟨by omega, by omega, by omega, by rw [← q1, k0]; exact element_lt hpx hpy⟩
        (if ignored v then 0 else 1)
      refine ⟨w, ew, hw'.congr ?_⟩
      rintro x y m s ⟨i1, i2, i3, _⟩
      by_cases hc : s = image.width * py + px
      · rw [if_pos ⟨by omega, by omega, by omega, hc⟩, if_pos hc, hc, (element_divmod hpx).1,
          (element_divmod hpx).2, hv]
        rfl
      · rw [if_neg (by tauto), if_neg hc])
    exact ⟨u, k, by rw [e1, e2]; rfl, h1, h2⟩
  · intro px a b hpx
    rw [forLoop_both]
    intro py a b hpy
    exact hbody px hpx py hpy a b

/-! ### The mean -/

theorem patchSum_spec {per s : Nat} {t : Tensor R} (h : (s + 1) * per ≤ t.data.length) :
    patchSum per s t = some (∑ e ∈ Finset.range per, (t.data[s * per + e]?).getD 0) := by
  unfold patchSum
  rw [forLoop_sum (g := fun e => (t.data[s * per + e]?).getD 0)]
  · simp
  · intro e a he
    have : s * per + e < t.data.length := by
      have : (s + 1) * per = s * per + per := by ring
      omega
    rw [rd_eq_some this, Option.map_some, List.getElem?_eq_getElem this]
    simp

/-- Subtracting a constant from a range of elements. -/
theorem subtract_range {per base : Nat} (c : R) {t : Tensor R} (h : base + per ≤ t.data.length) :
    ∃ u, forLoop per (fun e target =>
      (rd target.data (base + e)).bind fun v => target.putElem (base + e) (v - c)) t = some u ∧
      Sh t u ∧ u.data.length = t.data.length ∧
      ∀ j, u.data[j]? = if base ≤ j ∧ j < base + per then t.data[j]?.map (· - c) else t.data[j]? := by
  obtain ⟨u, e, h1, h2, h3⟩ := forLoop_inv (n := per) (s := t) (f := fun e target =>
      (rd target.data (base + e)).bind fun v => target.putElem (base + e) (v - c))
    (fun k u => Sh t u ∧ u.data.length = t.data.length ∧
      ∀ j, u.data[j]? = if base ≤ j ∧ j < base + k then t.data[j]?.map (· - c) else t.data[j]?)
    ⟨Sh.rfl' t, rfl, fun j => by rw [if_neg (by omega)]⟩ (by
    rintro i u hi ⟨h1, h2, h3⟩
    have hlt : base + i < u.data.length := by omega
    have hv : u.data[base + i]? = t.data[base + i]? := by rw [h3, if_neg (by omega)]
    refine ⟨{ u with data := u.data.set (base + i) (u.data[base + i] - c) }, ?_, ?_, ?_, ?_⟩
    · rw [rd_eq_some hlt, Option.bind_some]
      unfold Tensor.putElem
      rw [wr_of_lt hlt]
      rfl
    · exact h1.trans ⟨rfl, rfl, rfl, rfl⟩
    · simpa using h2
    · intro j
      dsimp only
      by_cases hj : j = base + i
      · subst hj
        rw [List.getElem?_set_self hlt, if_pos (by omega), ← hv, List.getElem?_eq_getElem hlt]
        rfl
      · rw [List.getElem?_set_ne (by omega), h3]
        by_cases hc : base ≤ j ∧ j < base + i
        · rw [if_pos hc, if_pos (by omega)]
        · rw [if_neg hc, if_neg (by omega)])
  exact ⟨u, e, h1, h2, h3⟩

theorem subtractMean_spec {per : Nat} {t : Tensor R} (h : t.data.length = t.samples * per) :
    ∃ u, subtractMean per t = some u ∧ Sh t u ∧ u.data.length = t.data.length ∧
      ∀ s e, s < t.samples → e < per → u.data[s * per + e]? =
        t.data[s * per + e]?.map fun v =>
          v - (∑ e' ∈ Finset.range per, (t.data[s * per + e']?).getD 0) / (per : R) := by
  unfold subtractMean
  obtain ⟨u, e, h1, h2, h3, _⟩ := forLoop_inv (n := t.samples) (s := t) (f := fun sample target =>
    (patchSum per sample target).bind fun sum =>
    forLoop per (fun e target =>
      (rd target.data (sample * per + e)).bind fun v =>
      target.putElem (sample * per + e) (v - sum / (per : R))) target)
    (fun k u => Sh t u ∧ u.data.length = t.data.length ∧
      (∀ s e, s < k → e < per → u.data[s * per + e]? =
        t.data[s * per + e]?.map fun v =>
          v - (∑ e' ∈ Finset.range per, (t.data[s * per + e']?).getD 0) / (per : R)) ∧
      ∀ j, k * per ≤ j → u.data[j]? = t.data[j]?)
    ⟨Sh.rfl' t, rfl, fun s e hs => by omega, fun j _ => rfl⟩ (by
    rintro i u hi ⟨h1, h2, h3, h4⟩
    have hle : (i + 1) * per ≤ u.data.length := by
      rw [h2, h]; exact Nat.mul_le_mul_right per hi
    have e1 : (i + 1) * per = i * per + per := by ring
    rw [patchSum_spec hle, Option.bind_some]
    have hsum : (∑ e' ∈ Finset.range per, (u.data[i * per + e']?).getD 0) =
        ∑ e' ∈ Finset.range per, (t.data[i * per + e']?).getD 0 := by
      refine Finset.sum_congr rfl fun e' _ => ?_
      rw [h4 _ (by omega)]
    rw [hsum]
    obtain ⟨u', e', g1, g2, g3⟩ := subtract_range (per := per) (base := i * per)
      ((∑ e' ∈ Finset.range per, (t.data[i * per + e']?).getD 0) / (per : R)) (t := u) (by omega)
    refine ⟨u', e', h1.trans g1, by omega, ?_, ?_⟩
    · intro s e hs he
      rw [g3]
      rcases Nat.lt_succ_iff_lt_or_eq.1 hs with hs | rfl
      · have := radix_lt hs he
        rw [if_neg (by omega), h3 s e hs he]
      · rw [if_pos (by omega), h4 _ (by omega)]
    · intro j hj
      rw [g3, if_neg (by omega), h4 j (by omega)])
  exact ⟨u, e, h1, h2, h3⟩

end
end CN24.Segmentation
