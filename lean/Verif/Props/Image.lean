import Verif.Proof.Image

/-! C67: image files. -/

namespace CN24.Props
open CN24 CN24.Tensor CN24.Image

/-- The sample of channel `c` of the pixel in column `x` and row `y`. -/
def sampleAt (p : Pixels) (x y c : Nat) : Option Nat := p.data[(y * p.width + x) * p.channels + c]?

/-- The tensor is the image, `conv` giving the numbers of the samples. -/
structure ShowsImage (conv : Nat → ℚ) (p : Pixels) (t : Tensor ℚ) : Prop where
  samples : t.samples = 1
  width : t.width = p.width
  height : t.height = p.height
  maps : t.maps = p.channels
  wf : t.WF
  value : ∀ x y c, x < p.width → y < p.height → c < p.channels →
    ∃ v, sampleAt p x y c = some v ∧ t.get x y c 0 = some (conv v)

theorem showsImage_of {conv : Nat → ℚ} {p : Pixels} {t : Tensor ℚ}
    (hp : p.data.length = p.width * p.height * p.channels) (hs : Sh (fresh p) t) (hw : t.WF)
    (h : ∀ x y c s, (fresh p).InRange x y c s → t.get x y c s =
        some (conv (p.data.getD (p.width * p.channels * y + p.channels * x + c) 0))) : ShowsImage conv p t := by
  obtain ⟨q1, q2, q3, q4⟩ := hs
  refine ⟨q1.symm, q2.symm, q3.symm, q4.symm, hw, fun x y c hx hy hc => ?_⟩
  have hi := index_lt hx hy hc
  rw [← hp] at hi
  refine ⟨_, ?_, h x y c 0 ⟨hx, hy, hc, Nat.one_pos⟩⟩
  have e : (y * p.width + x) * p.channels + c = p.width * p.channels * y + p.channels * x + c := by ring
  unfold sampleAt
  rw [e, List.getD_eq_getElem?_getD, List.getElem?_eq_getElem hi]
  rfl

/-- The name of a PNG file. -/
def PngName (name : List Char) : Prop := ∃ stem, name = stem ++ ".png".toList ∨ name = stem ++ ".PNG".toList

/-- The name of a JPEG file. -/
def JpgName (name : List Char) : Prop := ∃ stem, name = stem ++ ".jpg".toList ∨ name = stem ++ ".JPG".toList

theorem endsWith3_append (stem ext : List Char) (d : Char) (h : ext.length = 3) (e : List Char) :
    endsWith3 (stem ++ d :: ext) e = (ext == e) := by
  unfold endsWith3
  have : (stem ++ d :: ext).drop ((stem ++ d :: ext).length - 3) = ext := by
    rw [show stem ++ d :: ext = (stem ++ [d]) ++ ext by simp, List.length_append, h, Nat.add_sub_cancel,
      List.drop_left]
  rw [this]

theorem load_png_name {name : List Char} (h : PngName name) (fs : Files) (f : File) (t : Tensor ℚ)
    (hf : fs name = some f) : loadFromFile fs name t = .ofOption ((loadPng f t).map (·.2)) := by
  obtain ⟨stem, rfl | rfl⟩ := h
  · unfold loadFromFile
    rw [if_neg (by simp), if_pos (by
      rw [show ".png".toList = '.' :: "png".toList from rfl, endsWith3_append _ _ _ rfl]; rfl), hf]
  · unfold loadFromFile
    rw [if_neg (by simp), if_pos (by
      rw [show ".PNG".toList = '.' :: "PNG".toList from rfl, endsWith3_append _ _ _ rfl,
        endsWith3_append _ _ _ rfl]; rfl), hf]

theorem write_png_name {name : List Char} (h : PngName name) (jpeg : Pixels → Pixels) (fs : Files)
    (t : Tensor ℚ) : writeToFile jpeg fs name t = (writePng t).bind fun f => .done (fs.set name f) := by
  obtain ⟨stem, rfl | rfl⟩ := h
  · unfold writeToFile
    rw [if_neg (by simp), if_pos (by
      rw [show ".png".toList = '.' :: "png".toList from rfl, endsWith3_append _ _ _ rfl]; rfl)]
  · unfold writeToFile
    rw [if_neg (by simp), if_pos (by
      rw [show ".PNG".toList = '.' :: "PNG".toList from rfl, endsWith3_append _ _ _ rfl,
        endsWith3_append _ _ _ rfl]; rfl)]

/-- C67: loading a PNG file with 8 bits per channel, of any size and number of channels, gives the image. -/
theorem C67_load_png (fs : Files) (name : List Char) (hn : PngName name) (p : Pixels) (hp : p.Ok 8)
    (hf : fs name = some (.png 8 false p)) (t : Tensor ℚ) :
    ∃ u, loadFromFile fs name t = .done u ∧ ShowsImage fromUchar p u := by
  obtain ⟨u, e, h1, h2, h3⟩ := toTensor_spec fromUchar hp.length
  refine ⟨u, ?_, showsImage_of hp.length h1 h2 h3⟩
  rw [load_png_name hn fs _ t hf]
  unfold loadPng
  dsimp only
  rw [if_neg (by omega), if_neg (by simp), if_pos rfl, e]
  rfl

/-- C67: with 16 bits per channel, the first byte of a sample being the more significant one. -/
theorem C67_load_png_16 (fs : Files) (name : List Char) (hn : PngName name) (p : Pixels) (hp : p.Ok 16)
    (hf : fs name = some (.png 16 false p)) (t : Tensor ℚ) :
    ∃ u, loadFromFile fs name t = .done u ∧
      ShowsImage (fun v => fromUshort (256 * (v % 256) + v / 256)) p u := by
  obtain ⟨u, e, h1, h2, h3⟩ := toTensor_spec (fun v => fromUshort (256 * (v % 256) + v / 256)) hp.length
  refine ⟨u, ?_, showsImage_of hp.length h1 h2 h3⟩
  rw [load_png_name hn fs _ t hf]
  unfold loadPng
  dsimp only
  have hsw : (fun v => fromUshort (swapBytes v)) = fun v => fromUshort (256 * (v % 256) + v / 256) := by
    funext v
    congr 1
    unfold swapBytes
    omega
  rw [if_neg (by omega), if_neg (by simp), if_neg (by omega), hsw, e]
  rfl

/-- C67: loading a JPEG file gives the image that libjpeg decodes. -/
theorem C67_load_jpg (fs : Files) (name : List Char) (hn : JpgName name) (p : Pixels) (hp : p.Ok 8)
    (hf : fs name = some (.jpg p)) (t : Tensor ℚ) :
    ∃ u, loadFromFile fs name t = .done u ∧ ShowsImage fromUchar p u := by
  obtain ⟨u, e, h1, h2, h3⟩ := scanlines_spec hp.length
  refine ⟨u, ?_, showsImage_of hp.length h1 h2 h3⟩
  obtain ⟨stem, rfl | rfl⟩ := hn
  · unfold loadFromFile
    rw [show ".jpg".toList = '.' :: "jpg".toList from rfl] at *
    rw [if_neg (by simp)]
    simp only [endsWith3_append _ _ _ (rfl : "jpg".toList.length = 3)]
    rw [if_neg (by decide), if_pos (by decide), hf]
    exact e
  · unfold loadFromFile
    rw [show ".JPG".toList = '.' :: "JPG".toList from rfl] at *
    rw [if_neg (by simp)]
    simp only [endsWith3_append _ _ _ (rfl : "JPG".toList.length = 3)]
    rw [if_neg (by decide), if_pos (by decide), hf]
    exact e

/-- C67: the number of byte `k` is `k / 255` up to the accuracy of single precision, in the unit interval and
different for different bytes. -/
theorem C67_byte_values : (∀ k < 256, |fromUchar k - k / 255| ≤ 1 / 4194304 ∧ 0 ≤ fromUchar k ∧ fromUchar k ≤ 1) ∧
    ∀ j < 256, ∀ k < 256, fromUchar j = fromUchar k → j = k := by
  refine ⟨by decide +kernel, fun j hj k hk h => ?_⟩
  have h1 := byte_round_trip j hj
  rw [h, byte_round_trip k hk] at h1
  exact (Option.some.inj h1).symm

/-- C67: an RGB image that is loaded from a PNG file and written to a PNG file is stored with identical pixels;
loading the copy gives the same tensor, bit by bit. -/
theorem C67_round_trip (jpeg : Pixels → Pixels) (fs : Files) (name name' : List Char) (hn : PngName name)
    (hn' : PngName name') (p : Pixels) (hp : p.Ok 8) (hc : p.channels = 3) (hw : 0 < p.width) (hh : 0 < p.height)
    (hf : fs name = some (.png 8 false p)) (t t' : Tensor ℚ) :
    ∃ u fs', loadFromFile fs name t = .done u ∧ writeToFile jpeg fs name' u = .done fs' ∧
      fs' name' = some (.png 8 false p) ∧ loadFromFile fs' name' t' = .done u ∧
      ∀ n, n ≠ name' → fs' n = fs n := by
  obtain ⟨u, e, h1, h2, h3⟩ := toTensor_spec fromUchar hp.length
  have hload : ∀ (gs : Files) (nm : List Char) (s : Tensor ℚ), PngName nm → gs nm = some (.png 8 false p) →
      loadFromFile gs nm s = .done u := by
    intro gs nm s hnm hg
    rw [load_png_name hnm gs _ s hg]
    unfold loadPng
    dsimp only
    rw [if_neg (by omega), if_neg (by simp), if_pos rfl, e]
    rfl
  obtain ⟨q1, q2, q3, q4⟩ := h1
  have m1 : u.samples = 1 := q1.symm
  have m2 : u.width = p.width := q2.symm
  have m3 : u.height = p.height := q3.symm
  have m4 : u.maps = 3 := by rw [← q4]; exact hc
  have hlt : ∀ i, i < p.data.length → p.data.getD i 0 < 256 := by
    intro i hi
    rw [List.getD_eq_getElem?_getD, List.getElem?_eq_getElem hi]
    exact hp.range _ (List.getElem_mem hi)
  have hidx : ∀ x y c, x < p.width → y < p.height → c < 3 →
      p.width * 3 * y + 3 * x + c < p.data.length := by
    intro x y c hx hy hc'
    rw [hp.length, hc]
    exact index_lt hx hy hc'
  have hval : ∀ x y c, x < p.width → y < p.height → c < 3 →
      u.val x y c 0 = fromUchar (p.data.getD (p.width * 3 * y + 3 * x + c) 0) := by
    intro x y c hx hy hc'
    have := h3 x y c 0 ⟨hx, hy, by show c < p.channels; omega, Nat.one_pos⟩
    rw [hc] at this
    exact val_of_get this
  have hbyte : ∀ x y c, x < p.width → y < p.height → c < 3 →
      toUchar (u.val x y c 0) = some (p.data.getD (p.width * 3 * y + 3 * x + c) 0) := by
    intro x y c hx hy hc'
    rw [hval x y c hx hy hc']
    exact byte_round_trip _ (hlt _ (hidx x y c hx hy hc'))
  obtain ⟨l, el, ll, hl⟩ := fromTensor_spec h2 m4 m1 (by
    intro x y c hx hy hc'
    rw [hbyte x y c (by omega) (by omega) hc']
    rfl)
  have hlp : l = p.data := by
    refine List.ext_getElem? fun i => ?_
    have hlen : l.length = p.data.length := by
      rw [ll, hp.length, m2, m3, hc]; ring
    by_cases hi : i < l.length
    · have hi' := hi
      rw [ll] at hi'
      obtain ⟨x, y, c, hx, hy, hc', rfl⟩ := index_surj hi'
      have h5 := hl x y c hx hy hc'
      unfold byteOf at h5
      rw [hbyte x y c (by omega) (by omega) hc', Option.getD_some, m2] at h5
      rw [m2] at hi ⊢
      rw [List.getElem?_eq_getElem hi, List.getElem?_eq_getElem (by omega)]
      rw [List.getD_eq_getElem?_getD, List.getD_eq_getElem?_getD, List.getElem?_eq_getElem hi,
        List.getElem?_eq_getElem (by omega)] at h5
      exact congrArg some h5
    · rw [List.getElem?_eq_none (by omega), List.getElem?_eq_none (by omega)]
  have hwp : writePng u = .done (.png 8 false p) := by
    unfold writePng
    rw [if_neg (by omega), if_neg (by omega), if_neg (by omega), el, hlp, m2, m3]
    show Outcome.done (File.png 8 false ⟨p.width, p.height, 3, p.data⟩) = _
    rw [← hc]
  have hset : (fs.set name' (.png 8 false p)) name' = some (.png 8 false p) := if_pos rfl
  refine ⟨u, fs.set name' (.png 8 false p), hload fs name t hn hf, ?_, hset, hload _ _ t' hn' hset, ?_⟩
  · rw [write_png_name hn', hwp]
    rfl
  · intro n hne
    exact if_neg hne

/-- C67: a colour image with values between zero and one can be written to a PNG file, and loading the file gives
values that differ by less than 1/254. -/
theorem C67_write_load (jpeg : Pixels → Pixels) (fs : Files) (name : List Char) (hn : PngName name)
    (t t' : Tensor ℚ) (hw : t.WF) (hs : t.samples = 1) (hm : t.maps = 3) (h0 : 0 < t.width) (h1 : 0 < t.height)
    (hv : ∀ x y c v, t.get x y c 0 = some v → 0 ≤ v ∧ v ≤ 1) :
    ∃ fs' u, writeToFile jpeg fs name t = .done fs' ∧ loadFromFile fs' name t' = .done u ∧ Sh t u ∧ u.WF ∧
      ∀ x y c v, t.InRange x y c 0 → t.get x y c 0 = some v → ∃ w, u.get x y c 0 = some w ∧ |w - v| < 1 / 254 := by
  have hb : ∀ x y c, x < t.width → y < t.height → c < 3 → ∃ b < 256, toUchar (t.val x y c 0) = some b ∧
      |fromUchar b - t.val x y c 0| < 1 / 254 := by
    intro x y c hx hy hc
    obtain ⟨q1, q2⟩ := hv x y c _ (get_eq_val hw ⟨hx, hy, by omega, by omega⟩)
    exact toUchar_unit q1 q2
  obtain ⟨l, el, ll, hl⟩ := fromTensor_spec hw hm hs (by
    intro x y c hx hy hc
    obtain ⟨b, -, e, -⟩ := hb x y c hx hy hc
    rw [e]; rfl)
  let p : Pixels := ⟨t.width, t.height, 3, l⟩
  have hlen : p.data.length = p.width * p.height * p.channels := by
    show l.length = t.width * t.height * 3
    rw [ll]; ring
  obtain ⟨u, e, g1, g2, g3⟩ := toTensor_spec fromUchar hlen
  have hset : (fs.set name (.png 8 false p)) name = some (.png 8 false p) := if_pos rfl
  refine ⟨fs.set name (.png 8 false p), u, ?_, ?_, ?_, g2, ?_⟩
  · rw [write_png_name hn]
    unfold writePng
    rw [if_neg (by omega), if_neg (by omega), if_neg (by omega), el]
    rfl
  · rw [load_png_name hn _ _ t' hset]
    unfold loadPng
    dsimp only
    rw [if_neg (by omega), if_neg (by simp), if_pos rfl, e]
    rfl
  · obtain ⟨q1, q2, q3, q4⟩ := g1
    exact ⟨hs.trans q1, q2, q3, hm.trans q4⟩
  · intro x y c v hin hget
    obtain ⟨hx, hy, hc, -⟩ := hin
    have hc3 : c < 3 := by omega
    obtain ⟨b, hb1, hb2, hb3⟩ := hb x y c hx hy hc3
    have g := g3 x y c 0 ⟨hx, hy, hc3, Nat.one_pos⟩
    refine ⟨_, g, ?_⟩
    have : p.data.getD (p.width * p.channels * y + p.channels * x + c) 0 = b := by
      have := hl x y c hx hy hc3
      unfold byteOf at this
      rw [hb2] at this
      exact this
    rw [this, ← val_of_get hget]
    exact hb3

theorem write_jpg_name {name : List Char} (h : JpgName name) (jpeg : Pixels → Pixels) (fs : Files) (t : Tensor ℚ) :
    writeToFile jpeg fs name t =
      .ofOption ((writeJpg t).map fun lines => fs.set name (.jpg (jpeg ⟨t.width, t.height, 3, lines.flatten⟩))) := by
  obtain ⟨stem, rfl | rfl⟩ := h
  · unfold writeToFile
    rw [if_neg (by simp), if_neg (by
      rw [show ".jpg".toList = '.' :: "jpg".toList from rfl, endsWith3_append _ _ _ rfl, endsWith3_append _ _ _ rfl]
      decide), if_pos (by
      rw [show ".jpg".toList = '.' :: "jpg".toList from rfl, endsWith3_append _ _ _ rfl]; rfl)]
  · unfold writeToFile
    rw [if_neg (by simp), if_neg (by
      rw [show ".JPG".toList = '.' :: "JPG".toList from rfl, endsWith3_append _ _ _ rfl, endsWith3_append _ _ _ rfl]
      decide), if_pos (by
      rw [show ".JPG".toList = '.' :: "JPG".toList from rfl, endsWith3_append _ _ _ rfl, endsWith3_append _ _ _ rfl,
        endsWith3_append _ _ _ rfl]; rfl)]

/-- C67: a colour image with values between zero and one is given to the JPEG library with exactly the pixels that a
PNG file of it holds, and these differ from its values by less than 1/254. -/
theorem C67_write_jpg (jpeg : Pixels → Pixels) (fs : Files) (name name' : List Char) (hn : JpgName name)
    (hn' : PngName name') (t : Tensor ℚ) (hw : t.WF) (hs : t.samples = 1) (hm : t.maps = 3) (h0 : 0 < t.width)
    (h1 : 0 < t.height) (hv : ∀ x y c v, t.get x y c 0 = some v → 0 ≤ v ∧ v ≤ 1) :
    ∃ p : Pixels, p.width = t.width ∧ p.height = t.height ∧ p.channels = 3 ∧
      writeToFile jpeg fs name t = .done (fs.set name (.jpg (jpeg p))) ∧
      writeToFile jpeg fs name' t = .done (fs.set name' (.png 8 false p)) ∧
      p.data.length = 3 * t.width * t.height ∧
      ∀ x y c v, t.InRange x y c 0 → t.get x y c 0 = some v → ∃ b < 256,
        p.data[t.width * 3 * y + 3 * x + c]? = some b ∧ |fromUchar b - v| < 1 / 254 := by
  have hb : ∀ x y c, x < t.width → y < t.height → c < 3 → ∃ b < 256, toUchar (t.val x y c 0) = some b ∧
      |fromUchar b - t.val x y c 0| < 1 / 254 := by
    intro x y c hx hy hc
    obtain ⟨q1, q2⟩ := hv x y c _ (get_eq_val hw ⟨hx, hy, by omega, by omega⟩)
    exact toUchar_unit q1 q2
  have hsome : ∀ x y c, x < t.width → y < t.height → c < 3 → (toUchar (t.val x y c 0)).isSome := by
    intro x y c hx hy hc
    obtain ⟨b, _, e, _⟩ := hb x y c hx hy hc
    rw [e]; rfl
  obtain ⟨l, el, ll, hl⟩ := fromTensor_spec hw hm hs hsome
  obtain ⟨ls, es, ls1, ls2⟩ := writeJpg_spec hw hm hs hsome
  have hll : ls.flatten = l := by
    refine List.ext_getElem? fun i => ?_
    by_cases hi : i < l.length
    · have hi' := hi
      rw [ll] at hi'
      obtain ⟨x, y, c, hx, hy, hc', rfl⟩ := index_surj hi'
      have h5 := hl x y c hx hy hc'
      rw [← ls2 x y c hx hy hc', List.getD_eq_getElem?_getD, List.getD_eq_getElem?_getD,
        List.getElem?_eq_getElem hi, List.getElem?_eq_getElem (by omega)] at h5
      rw [List.getElem?_eq_getElem hi, List.getElem?_eq_getElem (by omega)]
      exact congrArg some h5.symm
    · rw [List.getElem?_eq_none (by omega), List.getElem?_eq_none (by omega)]
  refine ⟨⟨t.width, t.height, 3, l⟩, rfl, rfl, rfl, ?_, ?_, ll, ?_⟩
  · rw [write_jpg_name hn, es, Option.map_some, hll]
    rfl
  · rw [write_png_name hn']
    unfold writePng
    rw [if_neg (by omega), if_neg (by omega), if_neg (by omega), el]
    rfl
  · intro x y c v hin hg
    obtain ⟨hx, hy, hc, -⟩ := hin
    have hc' : c < 3 := by omega
    obtain ⟨b, hb1, hb2, hb3⟩ := hb x y c hx hy hc'
    have hval := val_of_get hg
    rw [hval] at hb2 hb3
    refine ⟨b, hb1, ?_, hb3⟩
    have h5 := hl x y c hx hy hc'
    have hlt : t.width * 3 * y + 3 * x + c < l.length := by
      rw [ll, show 3 * t.width * t.height = t.width * t.height * 3 by ring]; exact index_lt hx hy hc'
    unfold byteOf at h5
    rw [hval, hb2, Option.getD_some, List.getD_eq_getElem?_getD, List.getElem?_eq_getElem hlt, Option.getD_some] at h5
    show l[_]? = _
    rw [List.getElem?_eq_getElem hlt, h5]

theorem forLoop_each {σ : Type _} {n : Nat} {f : Nat → σ → Option σ} {s r : σ} (h : forLoop n f s = some r) :
    ∀ i < n, ∃ a b, f i a = some b := by
  induction n generalizing r with
  | zero => intro i hi; omega
  | succ n ih =>
    rw [forLoop_succ] at h
    cases hq : forLoop n f s with
    | none => rw [hq] at h; cases h
    | some q =>
      rw [hq, Option.bind_some] at h
      intro i hi
      by_cases hin : i = n
      · subst hin; exact ⟨q, r, h⟩
      · exact ih hq i (by omega)

/-- C67, refuted: writing a colour image with a value of 257/255 or more, in any pixel, is undefined behaviour. -/
theorem C67_write_undefined (jpeg : Pixels → Pixels) (fs : Files) (name : List Char) (hn : PngName name)
    (t : Tensor ℚ) (hs : t.samples = 1) (hm : t.maps = 3) (x y c : Nat) (hx : x < t.width)
    (hy : y < t.height) (hc : c < 3) (v : ℚ) (hv : t.get x y c 0 = some v) (hbig : 257 / 255 ≤ v) :
    writeToFile jpeg fs name t = .undefined := by
  have hnone : toUchar v = none := by
    have := (fl_bounds (v := 255 * v) (by linarith)).1
    unfold toUchar
    rw [if_neg]
    rintro ⟨-, h⟩
    linarith
  have hf : fromTensor t = none := by
    cases h : fromTensor t with
    | none => rfl
    | some l =>
      obtain ⟨a, b, h1⟩ := forLoop_each h y hy
      obtain ⟨a', b', h2⟩ := forLoop_each h1 x hx
      obtain ⟨a'', b'', h3⟩ := forLoop_each h2 c hc
      beta_reduce at h3
      rw [hv, Option.bind_some, hnone] at h3
      cases h3
  rw [write_png_name hn]
  unfold writePng
  rw [if_neg (by omega), if_neg (by omega), if_neg (by omega), hf]
  rfl

/-- C67, refuted: images that cannot be stored are not reported.  Writing a tensor with several samples or a number
of maps other than three to a PNG file succeeds and leaves a file without an image, and loading that file succeeds and
leaves the tensor unchanged. -/
theorem C67_silent_write (jpeg : Pixels → Pixels) (fs : Files) (name : List Char) (hn : PngName name)
    (t t' : Tensor ℚ) (h : t.samples ≠ 1 ∨ t.maps ≠ 3) :
    ∃ fs', writeToFile jpeg fs name t = .done fs' ∧ fs' name = some .other ∧ loadFromFile fs' name t' = .done t' := by
  have hset : (fs.set name .other) name = some .other := if_pos rfl
  refine ⟨fs.set name .other, ?_, hset, ?_⟩
  · rw [write_png_name hn]
    have : writePng t = .done .other := by
      unfold writePng
      by_cases h1 : t.samples = 1
      · rw [if_neg (by omega), if_pos (by tauto)]
      · rw [if_pos h1]
    rw [this]
    rfl
  · rw [load_png_name hn _ _ t' hset]
    rfl

/-- C67, refuted: a PNG file with a palette or an unsupported depth, and a missing JPEG file, are "loaded" without
an error: the tensor stays as it is. -/
theorem C67_silent_load (fs : Files) (name : List Char) (t : Tensor ℚ) :
    (∀ depth p, PngName name → fs name = some (.png depth true p) → loadFromFile fs name t = .done t) ∧
    (∀ depth palette p, PngName name → depth ≠ 8 → depth ≠ 16 → fs name = some (.png depth palette p) →
      loadFromFile fs name t = .done t) ∧
    (JpgName name → fs name = none → loadFromFile fs name t = .done t) := by
  refine ⟨?_, ?_, ?_⟩
  · intro depth p hn hf
    rw [load_png_name hn _ _ t hf]
    unfold loadPng
    dsimp only
    by_cases h : depth ≠ 8 ∧ depth ≠ 16
    · rw [if_pos h]; rfl
    · rw [if_neg h, if_pos rfl]; rfl
  · intro depth palette p hn h8 h16 hf
    rw [load_png_name hn _ _ t hf]
    unfold loadPng
    dsimp only
    rw [if_pos ⟨h8, h16⟩]; rfl
  · rintro ⟨stem, rfl | rfl⟩ hf
    · unfold loadFromFile
      rw [show ".jpg".toList = '.' :: "jpg".toList from rfl] at *
      rw [if_neg (by simp)]
      simp only [endsWith3_append _ _ _ (rfl : "jpg".toList.length = 3)]
      rw [if_neg (by decide), if_pos (by decide), hf]
    · unfold loadFromFile
      rw [show ".JPG".toList = '.' :: "JPG".toList from rfl] at *
      rw [if_neg (by simp)]
      simp only [endsWith3_append _ _ _ (rfl : "JPG".toList.length = 3)]
      rw [if_neg (by decide), if_pos (by decide), hf]

/-- C67, refuted: files named `….Tensor`, `….jpeg` or `….JPEG`, whatever they contain, can be neither loaded nor
written although there is code for them: three characters are compared with four or six. -/
theorem C67_unreachable_formats (jpeg : Pixels → Pixels) (fs : Files) (stem : List Char) (t : Tensor ℚ)
    (ext : List Char) (he : ext = ".Tensor".toList ∨ ext = ".jpeg".toList ∨ ext = ".JPEG".toList) :
    loadFromFile fs (stem ++ ext) t = .fatal ∧ writeToFile jpeg fs (stem ++ ext) t = .fatal := by
  have key : ∀ (pre : List Char) (d a b c : Char), ext = pre ++ d :: [a, b, c] →
      (∀ e ∈ ["png".toList, "PNG".toList, "jpg".toList, "jpeg".toList, "JPG".toList, "JPEG".toList,
        "Tensor".toList], ([a, b, c] == e) = false) →
      loadFromFile fs (stem ++ ext) t = .fatal ∧ writeToFile jpeg fs (stem ++ ext) t = .fatal := by
    intro pre d a b c hpre hne
    have hx : stem ++ ext = (stem ++ pre) ++ d :: [a, b, c] := by rw [hpre]; simp
    have hall : ∀ e ∈ ["png".toList, "PNG".toList, "jpg".toList, "jpeg".toList, "JPG".toList, "JPEG".toList,
        "Tensor".toList], endsWith3 (stem ++ ext) e = false := by
      intro e hmem
      rw [hx, endsWith3_append _ _ _ rfl]
      exact hne e hmem
    have hlen : ¬ (stem ++ ext).length < 3 := by rw [hx]; simp; omega
    simp only [List.mem_cons, List.not_mem_nil, or_false, forall_eq_or_imp, forall_eq] at hall
    obtain ⟨r1, r2, r3, r4, r5, r6, r7⟩ := hall
    constructor
    · unfold loadFromFile
      rw [if_neg hlen, r1, r2, r3, r4, r5, r6, r7]
      simp
    · unfold writeToFile
      rw [if_neg hlen, r1, r2, r3, r4, r5, r6, r7]
      simp
  rcases he with rfl | rfl | rfl
  · exact key ".Te".toList 'n' 's' 'o' 'r' rfl (by decide)
  · exact key ".".toList 'j' 'p' 'e' 'g' rfl (by decide)
  · exact key ".".toList 'J' 'P' 'E' 'G' rfl (by decide)

/-- A file the theorems apply to. -/
example : ∃ (fs : Files) (name : List Char) (p : Pixels), PngName name ∧ p.Ok 8 ∧ p.channels = 3 ∧ 0 < p.width ∧
    0 < p.height ∧ fs name = some (.png 8 false p) :=
  ⟨fun _ => some (.png 8 false ⟨2, 1, 3, [0, 128, 255, 7, 8, 9]⟩), "a.png".toList, ⟨2, 1, 3, [0, 128, 255, 7, 8, 9]⟩,
    ⟨"a".toList, Or.inl rfl⟩, ⟨rfl, by decide⟩, rfl, by decide, by decide, rfl⟩

/-- An image that can be written, and one that cannot. -/
example : (writePng ⟨1, 1, 1, 3, [0, 1 / 2, 1]⟩ = .done (.png 8 false ⟨1, 1, 3, [0, 127, 255]⟩)) ∧
    (writePng ⟨1, 1, 1, 3, [0, 1 / 2, 257 / 255]⟩ = .undefined) := by decide +kernel

/-- C67: samples of 16 bits become their fraction of 65535 up to the precision of the numbers; full intensity is exactly 1. -/
theorem C67_short_values : fromUshort 0 = 0 ∧ fromUshort 65535 = 1 ∧
    ∀ k < 65536, |fromUshort k - k / 65535| ≤ 1 / 8300000 * (k / 65535) := by
  refine ⟨by decide +kernel, by decide +kernel, fun k hk => ?_⟩
  unfold fromUshort
  rw [Nat.mod_eq_of_lt hk]
  have hk0 : (0 : ℚ) ≤ k := Nat.cast_nonneg k
  obtain ⟨l, u⟩ := fl_bounds (v := 65537 / 4294967296 * (k : ℚ)) (by positivity)
  rw [abs_le]
  constructor <;> linarith

end CN24.Props
