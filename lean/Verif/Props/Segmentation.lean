import Verif.Proof.Segmentation
import Mathlib.Algebra.Order.Ring.Rat

/-
Property theorems about patch extraction: C45.
-/

namespace CN24.Props
open CN24 CN24.Tensor CN24.Segmentation

variable {R : Type _} [Field R] [LinearOrder R]

/-! ## C45 -/

/-- A target as `Resize(samples, width, height, maps)` leaves it: the contents are arbitrary. -/
structure Sized (t : Tensor R) (samples width height maps : Nat) : Prop where
  wf : t.WF
  samples : t.samples = samples
  width : t.width = width
  height : t.height = height
  maps : t.maps = maps

/-- C45: cell `(ipx, ipy)` of the patch of pixel `(px, py)` shows the pixel at that distance from the
patch centre, mirrored at the borders, for patches smaller than twice the image.  The full property
has no bound on the patch size. -/
theorem C45_patches_partial (image target helper : Tensor R) (hi : image.WF) (psx psy sample : Nat)
    (hx : psx < 2 * image.width) (hy : psy < 2 * image.height) (hs : sample < image.samples)
    (ht : Sized target (image.width * image.height) psx psy image.maps)
    (hh : Sized helper (image.width * image.height) 2 1 1) :
    ∃ u k, extractPatches psx psy image sample false target helper = some (u, k) ∧
      Sized u (image.width * image.height) psx psy image.maps ∧
      Sized k (image.width * image.height) 2 1 1 ∧
      ∀ px py, px < image.width → py < image.height →
        (∀ ipx ipy m, ipx < psx → ipy < psy → m < image.maps →
          ∃ v, u.get ipx ipy m (image.width * py + px) = some v ∧
            image.get (mirrored image.width ((px : Int) + ipx - (psx / 2 : Nat)))
              (mirrored image.height ((py : Int) + ipy - (psy / 2 : Nat))) m sample = some v) ∧
        k.get 0 0 0 (image.width * py + px) = some (max 0 (min ((image.height : R) - ((psy : R) - 1))
          ((py : R) - ((psy / 2 : Nat) : R))) / (image.height : R)) ∧
        k.get 1 0 0 (image.width * py + px) = some (max 0 (min ((image.width : R) - ((psx : R) - 1))
          ((px : R) - ((psx / 2 : Nat) : R))) / (image.width : R)) := by
  obtain ⟨u, k, e, h1, h2⟩ := patches_spec ht.wf hh.wf hi hx hy hs ht.samples ht.width ht.height ht.maps
    hh.samples hh.width hh.height hh.maps
  obtain ⟨s1, s2, s3, s4⟩ := h1.sh
  obtain ⟨r1, r2, r3, r4⟩ := h2.sh
  refine ⟨u, k, ?_, ⟨h1.wf, by rw [← s1, ht.samples], by rw [← s2, ht.width], by rw [← s3, ht.height],
    by rw [← s4, ht.maps]⟩, ⟨h2.wf, by rw [← r1, hh.samples], by rw [← r2, hh.width],
    by rw [← r3, hh.height], by rw [← r4, hh.maps]⟩, ?_⟩
  · unfold extractPatches
    rw [e]; rfl
  · intro px py hpx hpy
    have hel := element_lt hpx hpy
    obtain ⟨d1, d2⟩ := element_divmod (py := py) hpx
    refine ⟨?_, ?_, ?_⟩
    · intro ipx ipy m h3 h4 h5
      have hin : target.InRange ipx ipy m (image.width * py + px) :=
        ⟨by rw [ht.width]; exact h3, by rw [ht.height]; exact h4, by rw [ht.maps]; exact h5,
          by rw [ht.samples]; exact hel⟩
      obtain ⟨v, hv⟩ := get_of_inRange hi (m := m) (s := sample)
        ⟨(source_eq hpx h3 hx).2, (source_eq hpy h4 hy).2, h5, hs⟩
      refine ⟨v, h1.hit hin ?_, hv⟩
      rw [d1, d2]
      exact hv
    · refine h2.hit ⟨by rw [hh.width]; omega, by rw [hh.height]; omega, by rw [hh.maps]; omega,
          by rw [hh.samples]; exact hel⟩ ?_
      rw [d2, if_pos rfl]
      rfl
    · refine h2.hit ⟨by rw [hh.width]; omega, by rw [hh.height]; omega, by rw [hh.maps]; omega,
          by rw [hh.samples]; exact hel⟩ ?_
      rw [d1, if_neg (by omega)]
      rfl

/-- What mirroring means: coordinates inside of the image are kept; `d` beyond the low border is
pixel `d`, `d` beyond the high border is the `d`-th pixel from there.  The border pixel is repeated
at the high end only. -/
theorem C45_mirrored (size : Nat) :
    (∀ i, i < size → mirrored size (i : Int) = i) ∧
    (∀ d, 0 < d → d < size → mirrored size (-(d : Int)) = d) ∧
    (∀ d, 0 < d → d ≤ size → mirrored size ((size : Int) - 1 + d) = size - d) := by
  unfold mirrored
  refine ⟨?_, ?_, ?_⟩ <;> intros <;> (repeat' split) <;> omega

/-- C45: the centre of the patch of pixel `(px, py)` is that pixel. -/
theorem C45_centre (image target helper : Tensor R) (hi : image.WF) (psx psy sample : Nat)
    (h0x : 0 < psx) (h0y : 0 < psy)
    (hx : psx < 2 * image.width) (hy : psy < 2 * image.height) (hs : sample < image.samples)
    (ht : Sized target (image.width * image.height) psx psy image.maps)
    (hh : Sized helper (image.width * image.height) 2 1 1) :
    ∃ u k, extractPatches psx psy image sample false target helper = some (u, k) ∧
      ∀ px py m, px < image.width → py < image.height → m < image.maps →
        u.get (psx / 2) (psy / 2) m (image.width * py + px) = image.get px py m sample := by
  obtain ⟨u, k, e, _, _, h⟩ := C45_patches_partial image target helper hi psx psy sample hx hy hs ht hh
  refine ⟨u, k, e, ?_⟩
  intro px py m hpx hpy hm
  obtain ⟨v, h1, h2⟩ := (h px py hpx hpy).1 (psx / 2) (psy / 2) m (by omega) (by omega) hm
  have e1 : ((px : Int) + (psx / 2 : Nat) - (psx / 2 : Nat)) = px := by omega
  have e2 : ((py : Int) + (psy / 2 : Nat) - (psy / 2 : Nat)) = py := by omega
  rw [e1, e2, (C45_mirrored image.width).1 px hpx, (C45_mirrored image.height).1 py hpy] at h2
  rw [h1, h2]

/-- C45: with mean subtraction, every element of a patch is what it would have been minus the mean
of that patch. -/
theorem C45_mean (image target helper : Tensor R) (hi : image.WF) (psx psy sample : Nat)
    (hx : psx < 2 * image.width) (hy : psy < 2 * image.height) (hs : sample < image.samples)
    (ht : Sized target (image.width * image.height) psx psy image.maps)
    (hh : Sized helper (image.width * image.height) 2 1 1) :
    ∃ u k u', extractPatches psx psy image sample false target helper = some (u, k) ∧
      extractPatches psx psy image sample true target helper = some (u', k) ∧
      ∀ s e, s < image.width * image.height → e < psx * psy * image.maps →
        u'.data[s * (psx * psy * image.maps) + e]? =
          u.data[s * (psx * psy * image.maps) + e]?.map fun v =>
            v - (∑ e' ∈ Finset.range (psx * psy * image.maps),
              (u.data[s * (psx * psy * image.maps) + e']?).getD 0) / ((psx * psy * image.maps : Nat) : R) := by
  obtain ⟨u, k, e, h1, _⟩ := C45_patches_partial image target helper hi psx psy sample hx hy hs ht hh
  have hlen : u.data.length = u.samples * (psx * psy * image.maps) := by
    rw [h1.wf, elements_eq, h1.width, h1.height, h1.maps]; ring
  obtain ⟨u', e', _, _, h2⟩ := subtractMean_spec hlen
  refine ⟨u, k, u', e, ?_, ?_⟩
  · unfold extractPatches at e ⊢
    rw [Option.bind_eq_some_iff] at e
    obtain ⟨r, e1, e2⟩ := e
    rw [if_neg (by simp)] at e2
    obtain rfl := Option.some.inj e2
    rw [e1, Option.bind_some, if_pos rfl, e']
    rfl
  · intro s e hs he
    exact h2 s e (by rw [h1.samples]; exact hs) he

/-- C45 for the labels: entry `width * py + px` is the label of the pixel one to the right of and one
below `(px, py)`, or of the last column or row.  The full property asks for the label of the pixel
`(px, py)` itself. -/
theorem C45_labels_partial (image labels weight : Tensor R) (hi : image.WF) (psx psy sample : Nat)
    (ignored : R → Bool) (hs : sample < image.samples) (hm : 0 < image.maps)
    (ht : Sized labels (image.width * image.height) 1 1 1)
    (hh : Sized weight (image.width * image.height) 1 1 1) :
    ∃ u k, extractLabels psx psy image sample ignored labels weight = some (u, k) ∧
      ∀ px py, px < image.width → py < image.height →
        ∃ l, image.get (min (px + 1) (image.width - 1)) (min (py + 1) (image.height - 1)) 0 sample =
            some l ∧
          u.get 0 0 0 (image.width * py + px) = some l ∧
          k.get 0 0 0 (image.width * py + px) = some (if ignored l then 0 else 1) := by
  obtain ⟨u, k, e, h1, h2⟩ := extractLabels_spec (psx := psx) (psy := psy) ht.wf hh.wf hi ignored hs hm
    ht.samples ht.width ht.height ht.maps hh.samples hh.width hh.height hh.maps
  refine ⟨u, k, e, ?_⟩
  intro px py hpx hpy
  have hel := element_lt hpx hpy
  obtain ⟨d1, d2⟩ := element_divmod (py := py) hpx
  obtain ⟨l, hl⟩ := get_of_inRange hi (x := min (px + 1) (image.width - 1))
    (y := min (py + 1) (image.height - 1)) (m := 0) (s := sample)
    ⟨by omega, by omega, hm, hs⟩
  refine ⟨l, hl, h1.hit ⟨by rw [ht.width]; omega, by rw [ht.height]; omega, by rw [ht.maps]; omega,
      by rw [ht.samples]; exact hel⟩ ?_,
    h2.hit ⟨by rw [hh.width]; omega, by rw [hh.height]; omega, by rw [hh.maps]; omega,
      by rw [hh.samples]; exact hel⟩ ?_⟩
  · rw [d1, d2]; exact hl
  · rw [d1, d2, hl]; rfl

end CN24.Props

namespace CN24.Props
open CN24 CN24.Tensor CN24.Segmentation

/-- The full property fails for the labels: in an image of 3 x 1 pixels with 3 x 1 patches, the
centre of the patch of the first pixel is that pixel, its label is the label of the second one. -/
theorem C45_label_not_of_centre :
    (extractPatches 3 1 (⟨1, 3, 1, 1, [10, 20, 30]⟩ : Tensor Rat) 0 false
      ⟨3, 3, 1, 1, [0, 0, 0, 0, 0, 0, 0, 0, 0]⟩ ⟨3, 2, 1, 1, [0, 0, 0, 0, 0, 0]⟩).map
        (fun r => (r.1.data, r.2.data)) =
      some ([20, 10, 20, 10, 20, 30, 20, 30, 30], [0, 0, 0, 0, 0, 1/3]) ∧
    (extractLabels 3 1 (⟨1, 3, 1, 1, [10, 20, 30]⟩ : Tensor Rat) 0 (fun l => l == 20)
      ⟨3, 1, 1, 1, [0, 0, 0]⟩ ⟨3, 1, 1, 1, [0, 0, 0]⟩).map (fun r => (r.1.data, r.2.data)) =
      some ([20, 30, 30], [0, 1, 1]) := by
  constructor <;> decide +kernel

/-- The full property fails for large patches: a patch five times as wide as the image reads before
the start of the image. -/
theorem C45_large_patch_overrun :
    extractPatches 5 1 (⟨1, 1, 1, 1, [7]⟩ : Tensor Rat) 0 false
      ⟨1, 5, 1, 1, [0, 0, 0, 0, 0]⟩ ⟨1, 2, 1, 1, [0, 0]⟩ = none := by
  have h : (extractPatches 5 1 (⟨1, 1, 1, 1, [7]⟩ : Tensor Rat) 0 false
      ⟨1, 5, 1, 1, [0, 0, 0, 0, 0]⟩ ⟨1, 2, 1, 1, [0, 0]⟩).isNone = true := by decide +kernel
  simpa using h

/-- Non-vacuity: patches with their mean subtracted. -/
example : (extractPatches 2 1 (⟨1, 2, 1, 1, [10, 20]⟩ : Tensor Rat) 0 true
      ⟨2, 2, 1, 1, [0, 0, 0, 0]⟩ ⟨2, 2, 1, 1, [0, 0, 0, 0]⟩).map (fun r => r.1.data) =
    some [5, -5, -5, 5] := by decide +kernel

end CN24.Props
