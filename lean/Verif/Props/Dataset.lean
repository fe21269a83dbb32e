import Verif.Proof.Dataset

/-
Property theorems about tensor stream datasets: C29 (announced dimensions), C30 (contents of a
sample), C62 (`Clear` of one sample).
-/

namespace CN24.Props
open CN24 CN24.Tensor CN24.TensorStreamDataset

variable {R : Type _}

/-! ## C62 -/

/-- C62: `Clear(value, sample)` sets every element of that sample and no element of another one. -/
theorem C62_clear_sample (t : Tensor R) (hw : t.WF) (v : R) (sample : Nat) (hs : sample < t.samples) :
    ∃ u, t.clear v (some sample) = some u ∧ u.WF ∧ u.samples = t.samples ∧ u.width = t.width ∧
      u.height = t.height ∧ u.maps = t.maps ∧
      ∀ x y m s, x < t.width → y < t.height → m < t.maps → s < t.samples →
        u.get x y m s = if s = sample then some v else t.get x y m s := by
  obtain ⟨u, h1, h2⟩ := upd_clear_sample hw v hs
  obtain ⟨s1, s2, s3, s4⟩ := h2.sh
  refine ⟨u, h1, h2.wf, s1.symm, s2.symm, s3.symm, s4.symm, ?_⟩
  intro x y m s i1 i2 i3 i4
  rw [h2.get x y m s ⟨i1, i2, i3, i4⟩]
  by_cases h : s = sample <;> simp [h]

/-- Non-vacuity: the second of three samples. -/
example : ((⟨3, 1, 2, 1, [1, 2, 3, 4, 5, 6]⟩ : Tensor Nat).clear 9 (some 1)).map (·.data) =
    some [1, 2, 9, 9, 5, 6] := by decide

/-! ## C29 -/

/-- C29: the announced dimensions are multiples of 64 and cover every training image, and every
testing image whose number is at least the number of training images.  The full property asks for
every testing image. -/
theorem C29_dimensions_partial (training testing : List (Tensor R)) (classes names colors : Nat)
    (cw : List R) (ds : Dataset R)
    (h : construct training testing classes names colors cw = .done ds) :
    64 ∣ ds.maxWidth ∧ 64 ∣ ds.maxHeight ∧
    (∀ i t, training[2 * i]? = some t → t.width ≤ ds.maxWidth ∧ t.height ≤ ds.maxHeight) ∧
    (∀ i t, training.length ≤ 2 * i → testing[2 * i]? = some t →
      t.width ≤ ds.maxWidth ∧ t.height ≤ ds.maxHeight) := by
  obtain ⟨h1, h2, h3, h4, h5, h6, h7, h8, h9, _⟩ := construct_done h
  exact ⟨h6, h7, h8, fun i t hi => h9 i t (by omega)⟩

/-- C29: the constructor succeeds on every pair of streams of alternating images and labels. -/
theorem C29_construct (training testing : List (Tensor R)) (classes : Nat) (cw : List R)
    (h1 : training.length % 2 = 0) (h2 : testing.length % 2 = 0) :
    ∃ ds, construct training testing classes classes classes cw = .done ds ∧
      ds.training = training ∧ ds.testing = testing := by
  have h : ∃ ds, construct training testing classes classes classes cw = .done ds := by
    unfold construct
    rw [if_neg (by simp), if_neg (by omega), if_neg (by omega)]
    exact ⟨_, rfl⟩
  obtain ⟨ds, h⟩ := h
  obtain ⟨_, _, h3, h4, _⟩ := construct_done h
  exact ⟨ds, h, h3, h4⟩

/-- The full property fails: with one training image of 1 x 1 and a testing image of 65 x 1 the
announced width is 64. -/
theorem C29_testing_images_ignored :
    ∃ ds : Dataset Nat, construct
      [⟨1, 1, 1, 1, [0]⟩, ⟨1, 1, 1, 1, [0]⟩]
      [⟨1, 65, 1, 1, List.replicate 65 0⟩, ⟨1, 65, 1, 1, List.replicate 65 0⟩] 1 1 1 [1] = .done ds ∧
      ds.maxWidth = 64 ∧ ds.maxHeight = 64 := by
  refine ⟨_, rfl, ?_, ?_⟩ <;> decide +kernel

/-! ## C30 -/

/-- The tensors the input layer passes have the announced dimensions. -/
structure OutputsFit (ds : Dataset R) (batch : Nat) (o : Outputs R) : Prop where
  data : Sh (⟨batch, ds.maxWidth, ds.maxHeight, ds.inputMaps, []⟩ : Tensor R) o.data ∧ o.data.WF
  label : Sh (⟨batch, ds.maxWidth, ds.maxHeight, ds.labelMaps, []⟩ : Tensor R) o.label ∧ o.label.WF
  helper : Sh (⟨batch, ds.maxWidth, ds.maxHeight, 2, []⟩ : Tensor R) o.helper ∧ o.helper.WF
  error : Sh (⟨batch, ds.maxWidth, ds.maxHeight, 1, []⟩ : Tensor R) o.error ∧ o.error.WF

/-- A pair of image and label as the dataset tool writes them: one sample each, equal size, the
announced numbers of maps, and a weight for each class. -/
structure PairFits (ds : Dataset R) (lowest : R) [LT R] (image label : Tensor R) : Prop where
  image_wf : image.WF
  label_wf : label.WF
  image_sample : 0 < image.samples
  label_sample : 0 < label.samples
  image_maps : image.maps = ds.inputMaps
  label_maps : label.maps = ds.labelMaps
  label_width : label.width = image.width
  label_height : label.height = image.height
  classes : ds.labelMaps ≤ ds.classWeights.length
  some_class : 0 < ds.labelMaps
  values : ∀ v ∈ label.data, lowest < v
  width : image.width ≤ ds.maxWidth
  height : image.height ≤ ds.maxHeight

variable [Field R] [LinearOrder R]

/-- What sample number `sample` of the outputs `o` holds after fetching a pair, and what happened to
the other samples, which were in `old`. -/
structure Holds (ef : Nat → Nat → Nat → Nat → R) (ds : Dataset R) (image lab : Tensor R)
    (sample : Nat) (old o : Outputs R) : Prop where
  data : ∀ x y m s, o.data.InRange x y m s → o.data.get x y m s = if s = sample then
    (if x < image.width ∧ y < image.height then image.get x y m 0 else some 0)
    else old.data.get x y m s
  label : ∀ x y m s, o.label.InRange x y m s → o.label.get x y m s = if s = sample then
    (if x < image.width ∧ y < image.height then lab.get x y m 0 else some 0)
    else old.label.get x y m s
  padding : ∀ x y, o.error.InRange x y 0 sample → ¬ (x < image.width ∧ y < image.height) →
    o.error.get x y 0 sample = some 0
  inside : ∀ x y, x < image.width → y < image.height → ∃ k cw best, k < lab.maps ∧ ds.classWeights[k]? = some cw ∧
    lab.get x y k 0 = some best ∧
    (∀ c v, c < lab.maps → lab.get x y c 0 = some v → v ≤ best ∧ (c < k → v < best)) ∧
    o.error.get x y 0 sample = some (ef x y image.width image.height * cw)
  others : ∀ x y s, o.error.InRange x y 0 s → s ≠ sample →
    o.error.get x y 0 s = old.error.get x y 0 s
  prior : ∀ x y m s, o.helper.InRange x y m s → o.helper.get x y m s = if s = sample then
    some (if x < image.width ∧ y < image.height then
      (if m = 0 then (x : R) / ((image.width : R) - 1) else (y : R) / ((image.height : R) - 1)) else 0)
    else old.helper.get x y m s

theorem getSample_holds (lowest : R) (ef : Nat → Nat → Nat → Nat → R) (ds : Dataset R)
    (stream : List (Tensor R)) (batch : Nat) (outs : Outputs R) (hfit : OutputsFit ds batch outs)
    (sample index : Nat) (hs : sample < batch) (image label : Tensor R)
    (hi : stream[2 * index]? = some image) (hl : stream[2 * index + 1]? = some label)
    (hp : PairFits ds lowest image label) :
    ∃ o, getSample lowest ef ds stream outs sample index = some (true, o) ∧
      OutputsFit ds batch o ∧ Holds ef ds image label sample outs o := by
  obtain ⟨⟨⟨d1, d2, d3, d4⟩, d5⟩, ⟨⟨l1, l2, l3, l4⟩, l5⟩, ⟨⟨h1, h2, h3, h4⟩, h5⟩,
    ⟨⟨e1, e2, e3, e4⟩, e5⟩⟩ := hfit
  dsimp only at d1 d2 d3 d4 l1 l2 l3 l4 h1 h2 h3 h4 e1 e2 e3 e4
  have p1 := hp.width
  have p2 := hp.height
  have p3 := hp.label_width
  have p4 := hp.label_height
  have p5 := hp.image_maps
  have p6 := hp.label_maps
  obtain ⟨ud, ud1, ud2, ud3, ud4⟩ := copySample_ok hp.image_wf d5 (i := 0) (j := sample)
    (by omega) hp.image_sample (by omega) (by omega) (by omega)
  obtain ⟨ul, ul1, ul2, ul3, ul4⟩ := copySample_ok hp.label_wf l5 (i := 0) (j := sample)
    (by omega) hp.label_sample (by omega) (by omega) (by omega)
  obtain ⟨uh, uh1, uh2⟩ := writeHelper_spec (dw := image.width) (dh := image.height)
    (w := ds.maxWidth) (h := ds.maxHeight) (sample := sample) h5 (by omega) (by omega) (by omega)
    (by omega) (by omega) (by omega)
  have hcls : ∀ x y, ∃ k cw, (x < image.width → y < image.height →
      ul.pixelMaximum lowest x y sample = some k ∧ ds.classWeights[k]? = some cw ∧ k < label.maps ∧
      ∃ best, label.get x y k 0 = some best ∧
      ∀ c v, c < label.maps → label.get x y c 0 = some v → v ≤ best ∧ (c < k → v < best)) := by
    intro x y
    by_cases hxy : x < image.width ∧ y < image.height
    · obtain ⟨hx, hy⟩ := hxy
      obtain ⟨q1, q2, q3, q4⟩ := ul2
      obtain ⟨k, k1, k2, _⟩ := C10_pixelMaximum lowest ul ul3 x y sample (by omega) (by omega)
        (by omega)
      have hget : ∀ c, c < label.maps → ul.get x y c sample = label.get x y c 0 := by
        intro c hc
        rw [ul4 x y c sample ⟨by omega, by omega, by omega, by omega⟩, if_pos rfl,
          if_pos ⟨by omega, by omega⟩]
      have hmaps : label.maps = ul.maps := by omega
      obtain ⟨v0, hv0⟩ := get_of_inRange hp.label_wf (x := x) (y := y) (m := 0) (s := 0)
        ⟨by omega, by omega, by have := hp.some_class; omega, hp.label_sample⟩
      have hlow : lowest < v0 := hp.values v0 (List.mem_of_getElem? hv0)
      obtain ⟨k3, best, k4, k5⟩ := k2 ⟨0, v0, by have := hp.some_class; omega, by
        rw [hget 0 (by have := hp.some_class; omega)]; exact hv0, hlow⟩
      have hk : k < ds.classWeights.length := by have := hp.classes; omega
      refine ⟨k, ds.classWeights[k], fun _ _ => ⟨k1, List.getElem?_eq_getElem hk, by omega, best, ?_, ?_⟩⟩
      · rw [← hget k (by omega)]; exact k4
      · intro c v hc hv
        exact k5 c v (by omega) (by rw [hget c hc]; exact hv)
    · exact ⟨0, 0, fun a b => absurd ⟨a, b⟩ hxy⟩
  choose k cw hk using hcls
  obtain ⟨ue, ue1, ue2⟩ := writeWeights_spec (ef := ef) (lowest := lowest) (cw := ds.classWeights)
    (label := ul) (weight := outs.error) (dw := image.width) (dh := image.height) (sample := sample)
    e5 (by omega) (by omega) (by omega) (by omega) k cw (fun x y hx hy =>
      ⟨(hk x y hx hy).1, (hk x y hx hy).2.1⟩)
  have hsw : streamWidth stream (2 * index) = image.width := by simp [streamWidth, hi]
  have hsh : streamHeight stream (2 * index) = image.height := by simp [streamHeight, hi]
  refine ⟨⟨ud, ul, uh, ue⟩, ?_, ?_, ?_⟩
  · unfold getSample streamCopySample
    rw [hi, hl]
    dsimp only
    rw [ud1, ul1]
    simp only [Option.bind_some, hsw, hsh, uh1, ue1, Bool.and_self]
  · exact ⟨⟨Sh.trans ⟨d1, d2, d3, d4⟩ ud2, ud3⟩, ⟨Sh.trans ⟨l1, l2, l3, l4⟩ ul2, ul3⟩,
      ⟨Sh.trans ⟨h1, h2, h3, h4⟩ uh2.sh, uh2.wf⟩, ⟨Sh.trans ⟨e1, e2, e3, e4⟩ ue2.sh, ue2.wf⟩⟩
  · constructor
    · intro x y m s hin
      exact ud4 x y m s (ud2.inRange.1 hin)
    · intro x y m s hin
      rw [← p3, ← p4]
      exact ul4 x y m s (ul2.inRange.1 hin)
    · intro x y hin hno
      refine ue2.hit (ue2.sh.inRange.1 hin) ?_
      rw [if_pos rfl, if_neg (by tauto)]
    · intro x y hx hy
      obtain ⟨_, b2, b0, best, b3, b4⟩ := hk x y hx hy
      refine ⟨k x y, cw x y, best, b0, b2, b3, b4, ?_⟩
      refine ue2.hit ⟨by omega, by omega, by omega, by omega⟩ ?_
      rw [if_pos rfl, if_pos ⟨hx, hy, rfl⟩]
    · intro x y s hin hne
      exact ue2.miss (ue2.sh.inRange.1 hin) (if_neg hne)
    · intro x y m s hin
      by_cases hss : s = sample
      · rw [if_pos hss]
        exact uh2.hit (uh2.sh.inRange.1 hin) (if_pos hss)
      · rw [if_neg hss]
        exact uh2.miss (uh2.sh.inRange.1 hin) (if_neg hss)

/-- C30 for training samples. -/
theorem C30_training_sample (lowest : R) (ef : Nat → Nat → Nat → Nat → R) (ds : Dataset R)
    (batch : Nat) (outs : Outputs R) (hfit : OutputsFit ds batch outs)
    (sample index : Nat) (hs : sample < batch) (image label : Tensor R)
    (hi : ds.training[2 * index]? = some image) (hl : ds.training[2 * index + 1]? = some label)
    (hp : PairFits ds lowest image label) :
    ∃ o, getTrainingSample lowest ef ds outs sample index = some (true, o) ∧
      OutputsFit ds batch o ∧ Holds ef ds image label sample outs o := by
  have hlt : 2 * index + 1 < ds.training.length := (List.getElem?_eq_some_iff.1 hl).1
  unfold getTrainingSample
  rw [if_pos (by omega)]
  exact getSample_holds lowest ef ds ds.training batch outs hfit sample index hs image label hi hl hp

/-- C30 for testing samples, which must fit the announced dimensions (see C29). -/
theorem C30_testing_sample (lowest : R) (ef : Nat → Nat → Nat → Nat → R) (ds : Dataset R)
    (batch : Nat) (outs : Outputs R) (hfit : OutputsFit ds batch outs)
    (sample index : Nat) (hs : sample < batch) (image label : Tensor R)
    (hi : ds.testing[2 * index]? = some image) (hl : ds.testing[2 * index + 1]? = some label)
    (hp : PairFits ds lowest image label) :
    ∃ o, getTestingSample lowest ef ds outs sample index = some (true, o) ∧
      OutputsFit ds batch o ∧ Holds ef ds image label sample outs o := by
  have hlt : 2 * index + 1 < ds.testing.length := (List.getElem?_eq_some_iff.1 hl).1
  unfold getTestingSample
  rw [if_pos (by omega)]
  exact getSample_holds lowest ef ds ds.testing batch outs hfit sample index hs image label hi hl hp

/-- C30: an index out of range is refused and nothing is written. -/
theorem C30_out_of_range (lowest : R) (ef : Nat → Nat → Nat → Nat → R) (ds : Dataset R)
    (outs : Outputs R) (sample index : Nat) :
    (ds.training.length ≤ 2 * index →
      getTrainingSample lowest ef ds outs sample index = some (false, outs)) ∧
    (ds.testing.length ≤ 2 * index →
      getTestingSample lowest ef ds outs sample index = some (false, outs)) := by
  constructor
  · intro h
    unfold getTrainingSample
    rw [if_neg (by omega)]
  · intro h
    unfold getTestingSample
    rw [if_neg (by omega)]

/-- C29: training samples of a dataset built by the constructor load, whatever the sizes of the
images. -/
theorem C29_training_samples_load_partial (lowest : R) (ef : Nat → Nat → Nat → Nat → R)
    (training testing : List (Tensor R)) (classes names colors : Nat) (cw : List R) (ds : Dataset R)
    (h : construct training testing classes names colors cw = .done ds)
    (batch : Nat) (outs : Outputs R) (hfit : OutputsFit ds batch outs)
    (sample index : Nat) (hs : sample < batch) (image label : Tensor R)
    (hi : training[2 * index]? = some image) (hl : training[2 * index + 1]? = some label)
    (hwf : image.WF ∧ label.WF ∧ 0 < image.samples ∧ 0 < label.samples)
    (hmaps : image.maps = ds.inputMaps ∧ label.maps = ds.labelMaps ∧ 0 < ds.labelMaps ∧
      ds.labelMaps ≤ cw.length)
    (hsize : label.width = image.width ∧ label.height = image.height)
    (hval : ∀ v ∈ label.data, lowest < v) :
    ∃ o, getTrainingSample lowest ef ds outs sample index = some (true, o) := by
  obtain ⟨h1, h2, h3, h4, h5, h6, h7, h8, h9, _⟩ := construct_done h
  obtain ⟨o, e, _⟩ := C30_training_sample lowest ef ds batch outs hfit sample index hs image label
    (by rw [h3]; exact hi) (by rw [h3]; exact hl)
    { image_wf := hwf.1, label_wf := hwf.2.1, image_sample := hwf.2.2.1, label_sample := hwf.2.2.2,
      image_maps := hmaps.1, label_maps := hmaps.2.1, label_width := hsize.1,
      label_height := hsize.2, classes := by rw [h5]; exact hmaps.2.2.2, some_class := hmaps.2.2.1,
      values := hval, width := (h8 index image hi).1, height := (h8 index image hi).2 }
  exact ⟨o, e⟩

/-- The consequence of `C29_testing_images_ignored`: fetching a testing image larger than the
announced dimensions never succeeds. -/
theorem C29_large_image_never_loads (lowest : R) (ef : Nat → Nat → Nat → Nat → R) (ds : Dataset R)
    (batch : Nat) (outs : Outputs R) (hfit : OutputsFit ds batch outs) (sample index : Nat)
    (image : Tensor R) (hi : ds.testing[2 * index]? = some image) (hm : 0 < image.maps)
    (hbig : ds.maxWidth < image.width ∨ ds.maxHeight < image.height) :
    ∀ o, getTestingSample lowest ef ds outs sample index ≠ some (true, o) := by
  intro o e
  unfold getTestingSample at e
  split at e
  · unfold getSample streamCopySample at e
    rw [hi] at e
    dsimp only at e
    obtain ⟨⟨⟨d1, d2, d3, d4⟩, d5⟩, _⟩ := hfit
    dsimp only at d1 d2 d3 d4
    rw [copySample_fail hm (by omega)] at e
    simp only [Option.bind_some, Bool.false_and, Option.bind_eq_some_iff] at e
    obtain ⟨_, _, _, _, _, _, e'⟩ := e
    cases e'
  · cases e

/-- Non-vacuity: an image of 2 x 1 pixels with two classes in an output of 3 x 2. -/
example : (getTrainingSample (R := Rat) (-100) (fun x _ _ _ => x + 1)
      { training := [⟨1, 2, 1, 1, [5, 6]⟩, ⟨1, 2, 1, 2, [1, 0, 0, 1]⟩], testing := [],
        classWeights := [10, 20], maxWidth := 3, maxHeight := 2, inputMaps := 1, labelMaps := 2 }
      { data := ⟨1, 3, 2, 1, [9, 9, 9, 9, 9, 9]⟩,
        label := ⟨1, 3, 2, 2, [9, 9, 9, 9, 9, 9, 9, 9, 9, 9, 9, 9]⟩,
        helper := ⟨1, 3, 2, 2, [9, 9, 9, 9, 9, 9, 9, 9, 9, 9, 9, 9]⟩,
        error := ⟨1, 3, 2, 1, [9, 9, 9, 9, 9, 9]⟩ } 0 0).map (fun r => (r.1, r.2.data.data,
          r.2.label.data, r.2.error.data)) =
    some (true, [5, 6, 0, 0, 0, 0], [1, 0, 0, 0, 0, 0, 0, 1, 0, 0, 0, 0], [10, 40, 0, 0, 0, 0]) := by
  decide +kernel

/-- C29: the announced numbers of maps are those of the first image and its label, of the training stream unless it is empty. -/
theorem C29_maps (training testing : List (Tensor R)) (classes names colors : Nat) (cw : List R) (ds : Dataset R)
    (h : construct training testing classes names colors cw = .done ds) (image label : Tensor R) (rest : List (Tensor R))
    (hf : training = image :: label :: rest ∨ training = [] ∧ testing = image :: label :: rest) :
    ds.inputMaps = image.maps ∧ ds.labelMaps = label.maps := by
  obtain ⟨-, -, -, -, -, -, -, -, -, h1, h2⟩ := construct_done h
  rw [h1, h2]
  rcases hf with rfl | ⟨rfl, rfl⟩ <;> exact ⟨rfl, rfl⟩

example (i l : Tensor ℚ) : ∃ ds, construct [] [i, l] 1 1 1 [1] = .done ds ∧ ds.inputMaps = i.maps := by
  obtain ⟨ds, h, -⟩ := C29_construct [] [i, l] 1 [1] (by simp) (by simp)
  exact ⟨ds, h, (C29_maps _ _ _ _ _ _ ds h i l [] (Or.inr ⟨rfl, rfl⟩)).1⟩

end CN24.Props
