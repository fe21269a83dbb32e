import Verif.Proof.Classify
import Verif.Props.Image
import Verif.Props.Colorize

/-
C75: classifying an image.
-/

namespace CN24.Props
open CN24 CN24.Tensor CN24.Image CN24.Classify CN24.Colorize

variable {H : Type _} [Zero H]

/-- The image in the upper left corner, zero elsewhere. -/
structure ShowsPadded (p : Pixels) (t : Tensor ℚ) : Prop where
  samples : t.samples = 1
  width : t.width % 8 = 0 ∧ p.width ≤ t.width ∧ t.width < p.width + 8
  height : t.height % 8 = 0 ∧ p.height ≤ t.height ∧ t.height < p.height + 8
  maps : t.maps = p.channels
  wf : t.WF
  inside : ∀ x y c, x < p.width → y < p.height → c < p.channels →
    ∃ v, sampleAt p x y c = some v ∧ t.get x y c 0 = some (fromUchar v)
  outside : ∀ x y c, t.InRange x y c 0 → ¬ (x < p.width ∧ y < p.height) → t.get x y c 0 = some 0

/-- The relative coordinates of the pixels of the image, zero elsewhere. -/
structure ShowsCoordinates (rel : Nat → Nat → H) (w h : Nat) (t : Tensor H) : Prop where
  samples : t.samples = 1
  maps : t.maps = 2
  wf : t.WF
  inside : ∀ x y, x < w → y < h → t.get x y 0 0 = some (rel x w) ∧ t.get x y 1 0 = some (rel y h)
  outside : ∀ x y c, t.InRange x y c 0 → ¬ (x < w ∧ y < h) → t.get x y c 0 = some 0

/-- The pixel has the three bytes of the colour. -/
def HasColor (p : Pixels) (x y color : Nat) : Prop :=
  sampleAt p x y 0 = some (color / 2 ^ 16 % 256) ∧ sampleAt p x y 1 = some (color / 2 ^ 8 % 256) ∧
    sampleAt p x y 2 = some (color % 256)

/-- C75: width and height are padded to the next multiple of eight. -/
theorem C75_padding (n : Nat) : pad n % 8 = 0 ∧ n ≤ pad n ∧ pad n < n + 8 := pad_spec n

/-- C75: the helper tensor holds the relative coordinates, unless there is padding below the image and the padded image
is higher than wide. -/
theorem C75_coordinates_partial (rel : Nat → Nat → H) {w h : Nat} (hw : 0 < w) (hh : 0 < h)
    (hgood : h % 8 = 0 ∨ pad h ≤ pad w) :
    ∃ t, coordinates rel w h (pad w) (pad h) (blank (pad w) (pad h) 2) = some t ∧ t.width = pad w ∧ t.height = pad h ∧
      ShowsCoordinates rel w h t := by
  have pw := pad_spec w
  have ph := pad_spec h
  rw [blank_spec (by omega) (by omega) (by omega)]
  obtain ⟨u, e, q⟩ := coordinates_spec rel (replicate_wf (w := pad w) (h := pad h) (m := 2) (0 : H)) rfl rfl rfl rfl
    (ow := w) (oh := h) (w := pad w) (h := pad h) (by omega) (by omega) (by omega)
  obtain ⟨q1, q2, q3, q4⟩ := q.sh
  refine ⟨u, e, q2.symm, q3.symm, q1.symm, q4.symm, q.wf, ?_, ?_⟩
  · intro x y hx hy
    constructor
    · refine q.hit ⟨by dsimp only; omega, by dsimp only; omega, by dsimp only; omega, Nat.one_pos⟩ ?_
      rw [if_pos hy, if_pos hx, if_pos rfl]
    · refine q.hit ⟨by dsimp only; omega, by dsimp only; omega, by dsimp only; omega, Nat.one_pos⟩ ?_
      rw [if_pos hy, if_pos hx, if_neg (by omega)]
  · intro x y c hin hout
    have hin' := q.sh.inRange.1 hin
    rw [q.get _ _ _ _ hin', replicate_get _ hin']
    split
    · rw [if_neg (by omega)]; rfl
    · split <;> rfl

/-- C75 (negative): for every other image, that is with a height that is not a multiple of eight and a padded height
above the padded width, the loop that clears the padding below the image writes outside the helper tensor. -/
theorem C75_coordinates_undefined (rel : Nat → Nat → H) {w h : Nat} (hw : 0 < w) (hpad : h % 8 ≠ 0)
    (hportrait : pad w < pad h) :
    coordinates rel w h (pad w) (pad h) (blank (pad w) (pad h) 2) = none := by
  have pw := pad_spec w
  have ph := pad_spec h
  rw [blank_spec (by omega) (by omega) (by omega)]
  refine coordinates_undefined rel ⟨rfl, rfl, rfl, rfl, ?_⟩ (by omega) hportrait
  rw [List.length_replicate]

/-- A tensor of bytes is stored as these bytes. -/
theorem writePng_bytes {t : Tensor ℚ} (hw : t.WF) (hs : t.samples = 1) (hm : t.maps = 3) (h0 : 0 < t.width)
    (h1 : 0 < t.height) (B : Nat → Nat → Nat → Nat) (hB : ∀ x y c, B x y c < 256)
    (hv : ∀ x y c, x < t.width → y < t.height → c < 3 → t.get x y c 0 = some (fromUchar (B x y c))) :
    ∃ q : Pixels, writePng t = .done (.png 8 false q) ∧ q.width = t.width ∧ q.height = t.height ∧ q.channels = 3 ∧
      q.data.length = q.width * q.height * q.channels ∧
      ∀ x y c, x < t.width → y < t.height → c < 3 → sampleAt q x y c = some (B x y c) := by
  have hval : ∀ x y c, x < t.width → y < t.height → c < 3 → toUchar (t.val x y c 0) = some (B x y c) := by
    intro x y c hx hy hc
    have := hv x y c hx hy hc
    rw [get_eq_val hw ⟨hx, hy, by omega, by omega⟩] at this
    injection this with this
    rw [this]
    exact byte_round_trip _ (hB x y c)
  obtain ⟨l, el, ll, hl⟩ := fromTensor_spec hw hm hs (by
    intro x y c hx hy hc
    rw [hval x y c hx hy hc]; rfl)
  refine ⟨⟨t.width, t.height, 3, l⟩, ?_, rfl, rfl, rfl, ?_, ?_⟩
  · unfold writePng
    rw [if_neg (by omega), if_neg (by omega), if_neg (by omega), el]
    rfl
  · show l.length = t.width * t.height * 3
    rw [ll]; ring
  · intro x y c hx hy hc
    have hlen : t.width * 3 * y + 3 * x + c < l.length := by
      have : l.length = t.width * t.height * 3 := by rw [ll]; ring
      rw [this]
      exact index_lt hx hy hc
    have h2 := hl x y c hx hy hc
    unfold byteOf at h2
    rw [hval x y c hx hy hc] at h2
    unfold sampleAt
    have e : (y * t.width + x) * 3 + c = t.width * 3 * y + 3 * x + c := by ring
    dsimp only
    rw [e, List.getElem?_eq_getElem hlen]
    rw [List.getD_eq_getElem?_getD, List.getElem?_eq_getElem hlen] at h2
    simpa using h2

/-- C75: for every image except those of `C75_coordinates_undefined` and every network whose output has the size of its
input and a map for each class: the network sees the image in the upper left corner of a tensor that is zero elsewhere,
with its relative coordinates; the file that is written has the size of the image, and every pixel has exactly the colour
of the class with the highest output there, if some output is above the smallest positive float, and of class 0
otherwise.  No other file changes. -/
theorem C75_classify_partial (rel : Nat → Nat → H) (net : Tensor ℚ → Tensor H → Outcome (Tensor ℚ)) (tiny : ℚ)
    (classes : Nat) (hcl : 2 ≤ classes) (colors : List Nat) (hcol : colors.length = classes) (jpeg : Pixels → Pixels)
    (fs : Files) (input output : List Char) (hin : PngName input) (hout : PngName output) (p : Pixels) (hp : p.Ok 8)
    (hw : 0 < p.width) (hh : 0 < p.height) (hc : 0 < p.channels) (hf : fs input = some (.png 8 false p))
    (hgood : p.height % 8 = 0 ∨ pad p.height ≤ pad p.width)
    (hnet : ∀ data helper, ShowsPadded p data → ShowsCoordinates rel p.width p.height helper →
      ∃ out, net data helper = .done out ∧ out.WF ∧ out.samples = 1 ∧ out.width = data.width ∧
        out.height = data.height ∧ classes ≤ out.maps) :
    ∃ data helper out fs' q, ShowsPadded p data ∧ ShowsCoordinates rel p.width p.height helper ∧
      net data helper = .done out ∧ classify rel net tiny classes colors jpeg fs input output = .done fs' ∧
      fs' output = some (.png 8 false q) ∧ (∀ n, n ≠ output → fs' n = fs n) ∧ q.width = p.width ∧ q.height = p.height ∧
      q.channels = 3 ∧ q.data.length = q.width * q.height * q.channels ∧
      ∀ x y, x < p.width → y < p.height →
        ((∃ c v, c < classes ∧ out.get x y c 0 = some v ∧ tiny < v) →
          ∃ k color, HighestClass classes out x y 0 k ∧ colors[k]? = some color ∧ HasColor q x y color) ∧
        ((∀ c v, c < classes → out.get x y c 0 = some v → v ≤ tiny) →
          ∃ color, colors[0]? = some color ∧ HasColor q x y color) := by
  have pw := pad_spec p.width
  have ph := pad_spec p.height
  obtain ⟨image, e1, i1, i2, i3, i4, iwf, ival⟩ := C67_load_png fs input hin p hp hf ⟨0, 0, 0, 0, []⟩
  -- the data
  have hwf := replicate_wf (w := pad p.width) (h := pad p.height) (m := p.channels) (0 : ℚ)
  have hbl : (blank (pad image.width) (pad image.height) image.maps : Tensor ℚ) =
      ⟨1, pad p.width, pad p.height, p.channels, List.replicate (p.channels * pad p.width * pad p.height) 0⟩ := by
    rw [i2, i3, i4]; exact blank_spec (by omega) (by omega) hc
  obtain ⟨data, e2, s2, w2, g2⟩ := copySample_ok iwf hwf (i := 0) (j := 0) i4 (by omega) Nat.one_pos
    (show image.width ≤ pad p.width by omega) (show image.height ≤ pad p.height by omega)
  obtain ⟨d1, d2, d3, d4⟩ := s2
  dsimp only at d1 d2 d3 d4
  have hdata : ShowsPadded p data := by
    refine ⟨d1.symm, by omega, by omega, d4.symm, w2, ?_, ?_⟩
    · intro x y c hx hy hcc
      obtain ⟨v, v1, v2⟩ := ival x y c hx hy hcc
      refine ⟨v, v1, ?_⟩
      rw [g2 x y c 0 ⟨by dsimp only; omega, by dsimp only; omega, hcc, Nat.one_pos⟩, if_pos rfl, if_pos (by omega), v2]
    · intro x y c hi hno
      rw [g2 x y c 0 ((Sh.inRange ⟨d1, d2, d3, d4⟩).1 hi), if_pos rfl, if_neg (by omega)]
  -- the helper
  obtain ⟨helper, e3, -, -, hhelper⟩ := C75_coordinates_partial rel hw hh hgood
  -- the network
  obtain ⟨out, e4, o1, o2, o3, o4, o5⟩ := hnet data helper hdata hhelper
  have ow : out.width = pad p.width := by omega
  have oh : out.height = pad p.height := by omega
  -- the colours
  have hwf3 := replicate_wf (w := pad p.width) (h := pad p.height) (m := 3) (0 : ℚ)
  obtain ⟨img, e5, s5, w5, -, g5⟩ := C47_partial fromUchar tiny classes hcl colors hcol out _ o1 hwf3 o5 (Nat.le_refl 3)
    ow oh (by dsimp only; exact o2)
  obtain ⟨m1, m2, m3, m4⟩ := s5
  dsimp only at m1 m2 m3 m4
  obtain ⟨small, e6, t1, t2, t3, t4, t5, t6⟩ := crop_spec hw hh w5 m4.symm m1.symm
    (show p.width ≤ img.width by omega) (show p.height ≤ img.height by omega)
  -- the colour of each pixel
  have hcolor : ∀ x y, x < p.width → y < p.height → ∃ color, ShowsColor fromUchar img x y 0 color ∧
      ((∃ c v, c < classes ∧ out.get x y c 0 = some v ∧ tiny < v) →
          ∃ k, HighestClass classes out x y 0 k ∧ colors[k]? = some color) ∧
      ((∀ c v, c < classes → out.get x y c 0 = some v → v ≤ tiny) → colors[0]? = some color) := by
    intro x y hx hy
    obtain ⟨k1, k2⟩ := g5 x y 0 (by omega) (by omega) (by omega)
    by_cases hex : ∃ c v, c < classes ∧ out.get x y c 0 = some v ∧ tiny < v
    · obtain ⟨k, color, a, b, c⟩ := k1 hex
      refine ⟨color, c, fun _ => ⟨k, a, b⟩, fun hno => ?_⟩
      obtain ⟨c, v, q1, q2, q3⟩ := hex
      exact absurd (hno c v q1 q2) (not_le.2 q3)
    · obtain ⟨color, b, c⟩ := k2 (by
        intro c v q1 q2
        by_contra q3
        exact hex ⟨c, v, q1, q2, not_le.1 q3⟩)
      exact ⟨color, c, fun h => absurd h hex, fun _ => b⟩
  choose! color hc1 hc2 hc3 using hcolor
  obtain ⟨q, e7, q1, q2, q3, q4, q5⟩ := writePng_bytes t5 t1 t4 (by omega) (by omega)
    (fun x y c => if c = 0 then color x y / 2 ^ 16 % 256 else if c = 1 then color x y / 2 ^ 8 % 256 else color x y % 256)
    (by intro x y c; split <;> [skip; split] <;> exact Nat.mod_lt _ (by decide)) (by
      intro x y c hx hy hcc
      rw [t6 x y c (by omega) (by omega) hcc]
      obtain ⟨r, g, b⟩ := hc1 x y (by omega) (by omega)
      rcases (show c = 0 ∨ c = 1 ∨ c = 2 by omega) with rfl | rfl | rfl
      · exact r
      · exact g
      · exact b)
  have hhas : ∀ x y, x < p.width → y < p.height → HasColor q x y (color x y) := fun x y hx hy =>
    ⟨q5 x y 0 (by omega) (by omega) (by omega), q5 x y 1 (by omega) (by omega) (by omega),
      q5 x y 2 (by omega) (by omega) (by omega)⟩
  refine ⟨data, helper, out, fs.set output (.png 8 false q), q, hdata, hhelper, e4, ?_, if_pos rfl,
    fun n hn => if_neg hn, by omega, by omega, q3, q4, ?_⟩
  · unfold classify
    rw [e1, Outcome.bind_done, hbl, e2]
    rw [i2, i3]
    simp only [Outcome.ofOption, Outcome.bind_done]
    rw [e3]
    simp only [Outcome.bind_done]
    rw [e4, Outcome.bind_done, ow, oh, blank_spec (by omega) (by omega) (by omega), e5]
    simp only [Outcome.bind_done]
    rw [e6]
    simp only [Outcome.bind_done]
    rw [write_png_name hout, e7]
    rfl
  · intro x y hx hy
    refine ⟨fun h => ?_, fun h => ⟨color x y, hc3 x y hx hy h, hhas x y hx hy⟩⟩
    obtain ⟨k, a, b⟩ := hc2 x y hx hy h
    exact ⟨k, color x y, a, b, hhas x y hx hy⟩

/-- C75 (negative): for the other images the behaviour is undefined, whatever the network. -/
theorem C75_classify_undefined (rel : Nat → Nat → H) (net : Tensor ℚ → Tensor H → Outcome (Tensor ℚ)) (tiny : ℚ)
    (classes : Nat) (colors : List Nat) (jpeg : Pixels → Pixels) (fs : Files) (input output : List Char)
    (hin : PngName input) (p : Pixels) (hp : p.Ok 8) (hw : 0 < p.width) (hf : fs input = some (.png 8 false p))
    (hpad : p.height % 8 ≠ 0) (hportrait : pad p.width < pad p.height) :
    classify rel net tiny classes colors jpeg fs input output = .undefined := by
  obtain ⟨image, e1, i1, i2, i3, i4, iwf, ival⟩ := C67_load_png fs input hin p hp hf ⟨0, 0, 0, 0, []⟩
  unfold classify
  rw [e1, Outcome.bind_done]
  cases copySample image 0 (blank (pad image.width) (pad image.height) image.maps) 0 with
  | none => rfl
  | some r =>
    simp only [Outcome.ofOption, Outcome.bind_done]
    rw [i2, i3, C75_coordinates_undefined rel hw hpad hportrait]
    rfl

/-- Non-vacuity: 100 x 60 pixels can be classified; 60 x 100 pixels cannot. -/
example : (60 % 8 = 0 ∨ pad 60 ≤ pad 100) ∧ (100 % 8 ≠ 0 ∧ pad 60 < pad 100) := by decide

/-- Non-vacuity: an image of two pixels, and a network that prefers the second class everywhere. -/
example : ∃ fs' q, classify (H := ℚ) (fun i n => i / (n - 1)) (fun data _ => .done ⟨1, data.width, data.height, 2,
      List.replicate (data.width * data.height) 0 ++ List.replicate (data.width * data.height) 1⟩) (1 / 2 ^ 126) 2
      [0x112233, 0x445566] id (fun n => if n = "a.png".toList then some (.png 8 false ⟨2, 1, 1, [7, 9]⟩) else none)
      "a.png".toList "b.png".toList = .done fs' ∧
    fs' "b.png".toList = some (.png 8 false q) ∧ q.width = 2 ∧ q.height = 1 := by
  obtain ⟨_, _, _, fs', q, _, _, _, h1, h2, _, h3, h4, _⟩ := C75_classify_partial (H := ℚ) (fun i n => i / (n - 1))
    (fun data _ => .done ⟨1, data.width, data.height, 2,
      List.replicate (data.width * data.height) 0 ++ List.replicate (data.width * data.height) 1⟩) (1 / 2 ^ 126) 2
    (Nat.le_refl 2) [0x112233, 0x445566] rfl id
    (fun n => if n = "a.png".toList then some (.png 8 false ⟨2, 1, 1, [7, 9]⟩) else none) "a.png".toList "b.png".toList
    ⟨"a".toList, .inl rfl⟩ ⟨"b".toList, .inl rfl⟩ ⟨2, 1, 1, [7, 9]⟩ ⟨rfl, by decide⟩ (by decide) (by decide) (by decide)
    (if_pos rfl) (by decide) (by
      intro data helper _ _
      refine ⟨_, rfl, ?_, rfl, rfl, rfl, Nat.le_refl 2⟩
      unfold Tensor.WF Tensor.elements
      simp
      ring)
  exact ⟨fs', q, h1, h2, h3, h4⟩

end CN24.Props
