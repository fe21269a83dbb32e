import Verif.Proof.PatchDataset

/-
C31: the samples of a patch dataset are exactly the patches of its images.
-/

namespace CN24.Props
open CN24 CN24.Tensor CN24.PatchDataset

variable {R : Type _}

/-- Position `(col, row)` of image `t` holds a patch. -/
def IsPosition (px py : Nat) (images : List (Tensor R)) (t col row : Nat) : Prop :=
  ∃ image, images[t]? = some image ∧ col + px ≤ image.width ∧ row + py ≤ image.height

/-- A numbering of the patches: every patch has a number below `count`, every such number belongs to
a patch, and two patches have different numbers. -/
structure Numbers (px py : Nat) (images : List (Tensor R)) (count : Nat)
    (number : Nat → Nat → Nat → Nat) : Prop where
  below : ∀ t col row, IsPosition px py images t col row → number t col row < count
  all : ∀ index, index < count → ∃ t col row, IsPosition px py images t col row ∧
    number t col row = index
  once : ∀ t col row t' col' row', IsPosition px py images t col row →
    IsPosition px py images t' col' row' → number t col row = number t' col' row' →
    t = t' ∧ col = col' ∧ row = row'

/-- The tensors the input layer passes. -/
structure PatchOutputsFit (ds : PatchDataset.Dataset R) (batch : Nat) (o : Outputs R) : Prop where
  data : Sh (⟨batch, ds.px, ds.py, ds.inputMaps, []⟩ : Tensor R) o.data ∧ o.data.WF
  label : Sh (⟨batch, 1, 1, ds.labelMaps, []⟩ : Tensor R) o.label ∧ o.label.WF
  helper : Sh (⟨batch, 1, 1, 2, []⟩ : Tensor R) o.helper ∧ o.helper.WF
  error : Sh (⟨batch, 1, 1, 1, []⟩ : Tensor R) o.error ∧ o.error.WF

/-- A pair of image and label as the dataset tool writes them. -/
structure PatchPairFits [LT R] (lowest : R) (inputMaps labelMaps : Nat)
    (pair : Tensor R × Tensor R) : Prop where
  image_wf : pair.1.WF
  label_wf : pair.2.WF
  image_sample : 0 < pair.1.samples
  label_sample : 0 < pair.2.samples
  image_maps : pair.1.maps = inputMaps
  label_maps : pair.2.maps = labelMaps
  label_width : pair.2.width = pair.1.width
  label_height : pair.2.height = pair.1.height
  values : ∀ v ∈ pair.2.data, lowest < v

variable [Field R] [LinearOrder R]

/-- What sample number `sample` of the outputs `o` holds after fetching the patch at `(col, row)`,
and what happened to the other samples, which were in `old`: the pixels of the patch, the label of
its centre, the position relative to the image, and the weight of the centre times the weight of its
(first best) class. -/
structure HoldsPatch (ef : Nat → Nat → Nat → Nat → R) (classWeights : List R) (px py : Nat)
    (image lab : Tensor R) (col row sample : Nat) (old o : Outputs R) : Prop where
  data : ∀ x y m s, o.data.InRange x y m s → o.data.get x y m s =
    if s = sample then image.get (col + x) (row + y) m 0 else old.data.get x y m s
  label : ∀ m s, o.label.InRange 0 0 m s → o.label.get 0 0 m s =
    if s = sample then lab.get (col + px / 2) (row + py / 2) m 0 else old.label.get 0 0 m s
  prior_x : o.helper.get 0 0 0 sample =
    some (if 1 < image.width then (col : R) / ((image.width : R) - 1) else 0)
  prior_y : o.helper.get 0 0 1 sample =
    some (if 1 < image.height then (row : R) / ((image.height : R) - 1) else 0)
  prior_others : ∀ m s, o.helper.InRange 0 0 m s → s ≠ sample →
    o.helper.get 0 0 m s = old.helper.get 0 0 m s
  weight : ∃ k cw best, classWeights[k]? = some cw ∧
    lab.get (col + px / 2) (row + py / 2) k 0 = some best ∧
    (∀ c v, c < lab.maps → lab.get (col + px / 2) (row + py / 2) c 0 = some v →
      v ≤ best ∧ (c < k → v < best)) ∧
    o.error.get 0 0 0 sample =
      some (ef (col + px / 2) (row + py / 2) image.width image.height * cw)
  weight_others : ∀ s, o.error.InRange 0 0 0 s → s ≠ sample →
    o.error.get 0 0 0 s = old.error.get 0 0 0 s

omit [Field R] [LinearOrder R] in
theorem number_spec (px py : Nat) (hpx : 0 < px) (hpy : 0 < py) (images : List (Tensor R)) :
    Numbers px py images (total px py images) (fun t col row =>
      total px py (images.take t) + (row * ((images[t]?.map (·.width)).getD 0 + 1 - px) + col)) := by
  have split : ∀ (t : Nat) (image : Tensor R), images[t]? = some image → total px py (images.take (t + 1)) =
      total px py (images.take t) + positions px py image := by
    intro t image h
    rw [List.take_add_one, h]
    simp [total]
  have mono : ∀ s t, s ≤ t → total px py (images.take s) ≤ total px py (images.take t) := by
    intro s t hst
    obtain ⟨d, rfl⟩ := Nat.exists_eq_add_of_le hst
    rw [List.take_add, total, total, List.map_append, List.sum_append]
    omega
  have lt : ∀ (t col row : Nat) (image : Tensor R), images[t]? = some image → col + px ≤ image.width →
      row + py ≤ image.height → row * (image.width + 1 - px) + col < positions px py image := by
    intro t col row image _ h2 h3
    have := radix_lt (show row < image.height + 1 - py by omega)
      (show col < image.width + 1 - px by omega)
    unfold positions
    rw [Nat.mul_comm (image.width + 1 - px)]
    exact this
  constructor
  · rintro t col row ⟨image, h1, h2, h3⟩
    rw [h1]
    have := lt t col row image h1 h2 h3
    have h4 := mono (t + 1) images.length (List.getElem?_eq_some_iff.1 h1).1
    rw [split t image h1, List.take_length] at h4
    simp only [Option.map_some, Option.getD_some]
    omega
  · intro index hindex
    have H : ∀ n, n ≤ images.length → index < total px py (images.take n) →
        ∃ t image, images[t]? = some image ∧ total px py (images.take t) ≤ index ∧
          index < total px py (images.take t) + positions px py image := by
      intro n
      induction n with
      | zero => intro _ h; simp [total] at h
      | succ n ih =>
        intro hn h
        rcases Nat.lt_or_ge index (total px py (images.take n)) with h' | h'
        · exact ih (by omega) h'
        · have hn' : images[n]? = some images[n] := List.getElem?_eq_getElem (by omega)
          exact ⟨n, images[n], hn', h', by rw [← split n _ hn']; exact h⟩
    obtain ⟨t, image, h1, h2, h3⟩ := H images.length (Nat.le_refl _)
      (by rw [List.take_length]; exact hindex)
    generalize hT : total px py (images.take t) = T at h2 h3
    have hpos : index - T < (image.width + 1 - px) * (image.height + 1 - py) := by
      unfold positions at h3; omega
    have hw : 0 < image.width + 1 - px := by
      rcases Nat.eq_zero_or_pos (image.width + 1 - px) with h | h
      · rw [h] at hpos; omega
      · exact h
    refine ⟨t, (index - T) % (image.width + 1 - px), (index - T) / (image.width + 1 - px),
      ⟨image, h1, ?_, ?_⟩, ?_⟩
    · have := Nat.mod_lt (index - T) hw
      omega
    · have := Nat.div_lt_of_lt_mul hpos
      generalize (index - T) / (image.width + 1 - px) = Q at *
      omega
    · rw [h1, hT]
      simp only [Option.map_some, Option.getD_some]
      have := Nat.div_add_mod (index - T) (image.width + 1 - px)
      rw [Nat.mul_comm] at this
      omega
  · rintro t col row t' col' row' ⟨image, h1, h2, h3⟩ ⟨image', h1', h2', h3'⟩ e
    rw [h1, h1'] at e
    simp only [Option.map_some, Option.getD_some] at e
    have l1 := lt t col row image h1 h2 h3
    have l2 := lt t' col' row' image' h1' h2' h3'
    have htt : t = t' := by
      rcases Nat.lt_trichotomy t t' with h | h | h
      · have := mono (t + 1) t' h
        rw [split t image h1] at this
        omega
      · exact h
      · have := mono (t' + 1) t h
        rw [split t' image' h1'] at this
        omega
    subst htt
    obtain rfl : image = image' := by rw [h1] at h1'; exact Option.some.inj h1'
    have := radix_inj (show col < image.width + 1 - px by omega)
      (show col' < image.width + 1 - px by omega) (Nat.add_left_cancel e)
    exact ⟨rfl, this.2, this.1⟩

theorem getPatch_holds (lowest : R) (ef : Nat → Nat → Nat → Nat → R)
    (ds : PatchDataset.Dataset R) (hpx : 0 < ds.px) (hpy : 0 < ds.py) (hpx' : ds.px < 2 ^ 32)
    (hpy' : ds.py < 2 ^ 32) (hlast : ds.lastSample = lastSamples ds.px ds.py 0 ds.data)
    (batch : Nat) (outs : Outputs R) (hfit : PatchOutputsFit ds batch outs) (sample : Nat)
    (hs : sample < batch) (t col row : Nat) (image label : Tensor R)
    (hi : ds.data[t]? = some image) (hl : ds.labels[t]? = some label)
    (hp : PatchPairFits lowest ds.inputMaps ds.labelMaps (image, label))
    (hlm : 0 < ds.labelMaps) (hcw : ds.labelMaps ≤ ds.classWeights.length)
    (hcol : col + ds.px ≤ image.width) (hrow : row + ds.py ≤ image.height)
    (hc : ∀ u ∈ ds.data.take (t + 1), Contains ds.px ds.py u)
    (hb : total ds.px ds.py (ds.data.take t) + positions ds.px ds.py image < 2 ^ 32) :
    ∃ o, getPatch lowest ef ds outs sample (total ds.px ds.py (ds.data.take t) +
        (row * (image.width + 1 - ds.px) + col)) = some (true, o) ∧
      PatchOutputsFit ds batch o ∧
      HoldsPatch ef ds.classWeights ds.px ds.py image label col row sample outs o := by
  obtain ⟨⟨⟨d1, d2, d3, d4⟩, d5⟩, ⟨⟨l1, l2, l3, l4⟩, l5⟩, ⟨⟨h1, h2, h3, h4⟩, h5⟩,
    ⟨⟨e1, e2, e3, e4⟩, e5⟩⟩ := hfit
  dsimp only at d1 d2 d3 d4 l1 l2 l3 l4 h1 h2 h3 h4 e1 e2 e3 e4
  have p3 := hp.label_width
  have p4 := hp.label_height
  have p5 := hp.image_maps
  have p6 := hp.label_maps
  dsimp only at p3 p4 p5 p6
  rw [getPatch_eq lowest ef ds hpx hpy hpx' hpy' hlast outs sample t col row image label hi hl hcol
    hrow hc hb, fetchPatch]
  clear hb hpx' hpy' hlast hc
  obtain ⟨ud, ud1, ud2⟩ := copyPatch_spec (maps := ds.inputMaps) (px := ds.px) (py := ds.py)
    (col := col) (row := row) (sample := sample) hp.image_wf d5 (by dsimp only; omega)
    (by dsimp only; omega) (by dsimp only; omega) hp.image_sample (by omega) (by omega) (by omega)
    (by omega)
  obtain ⟨ul, ul1, ul2⟩ := copyLabel_spec (maps := ds.labelMaps) (px := ds.px) (py := ds.py)
    (col := col) (row := row) (sample := sample) hp.label_wf l5 (by dsimp only; omega)
    (by dsimp only; omega) (by dsimp only; omega) hp.label_sample (by omega) (by omega) (by omega)
    (by omega)
  obtain ⟨uh, uh1, uh2⟩ := CN24.TensorStreamDataset.upd_pair h5 (by omega) (x := 0) (y := 0)
    (sample := sample) (by omega) (by omega) (by omega)
    (if 1 < image.width then (col : R) / ((image.width : R) - 1) else 0)
    (if 1 < image.height then (row : R) / ((image.height : R) - 1) else 0)
  obtain ⟨q1, q2, q3, q4⟩ := ul2.sh
  have hget : ∀ c, c < label.maps → ul.get 0 0 c sample =
      label.get (col + ds.px / 2) (row + ds.py / 2) c 0 := by
    intro c hcl
    obtain ⟨v, hv⟩ := get_of_inRange hp.label_wf (x := col + ds.px / 2) (y := row + ds.py / 2)
      (m := c) (s := 0) ⟨by dsimp only; omega, by dsimp only; omega, hcl, hp.label_sample⟩
    dsimp only at hv
    rw [hv]
    refine ul2.hit ⟨by omega, by omega, by omega, by omega⟩ ?_
    rw [if_pos ⟨rfl, rfl, by omega, rfl⟩]
    exact hv
  obtain ⟨k, k1, k2, _⟩ := C10_pixelMaximum lowest ul ul2.wf 0 0 sample (by omega) (by omega)
    (by omega)
  obtain ⟨v0, hv0⟩ := get_of_inRange hp.label_wf (x := col + ds.px / 2) (y := row + ds.py / 2)
    (m := 0) (s := 0) ⟨by dsimp only; omega, by dsimp only; omega, by dsimp only; omega,
      hp.label_sample⟩
  have hlow : lowest < v0 := hp.values v0 (List.mem_of_getElem? hv0)
  obtain ⟨k3, best, k4, k5⟩ := k2 ⟨0, v0, by omega, by rw [hget 0 (by omega)]; exact hv0, hlow⟩
  have hk : k < ds.classWeights.length := by omega
  obtain ⟨ue, ue1, ue2⟩ := upd_put e5 (x := 0) (y := 0) (m := 0) (s := sample)
    ⟨by omega, by omega, by omega, by omega⟩
    (ef (col + ds.px / 2) (row + ds.py / 2) image.width image.height * ds.classWeights[k])
  refine ⟨⟨ud, ul, uh, ue⟩, ?_, ?_, ?_⟩
  · rw [ud1, Option.bind_some, ul1, Option.bind_some, ← Option.bind_assoc, uh1, Option.bind_some, k1,
      Option.bind_some, rd, List.getElem?_eq_getElem hk, Option.bind_some, ue1, Option.bind_some]
  · exact ⟨⟨Sh.trans ⟨d1, d2, d3, d4⟩ ud2.sh, ud2.wf⟩, ⟨Sh.trans ⟨l1, l2, l3, l4⟩ ul2.sh, ul2.wf⟩,
      ⟨Sh.trans ⟨h1, h2, h3, h4⟩ uh2.sh, uh2.wf⟩, ⟨Sh.trans ⟨e1, e2, e3, e4⟩ ue2.sh, ue2.wf⟩⟩
  · constructor
    · intro x y m s hin
      have hin' := ud2.sh.inRange.1 hin
      obtain ⟨i1, i2, i3, i4⟩ := hin'
      by_cases hss : s = sample
      · subst hss
        rw [if_pos rfl]
        obtain ⟨v, hv⟩ := get_of_inRange hp.image_wf (x := col + x) (y := row + y) (m := m) (s := 0)
          ⟨by dsimp only; omega, by dsimp only; omega, by dsimp only; omega, hp.image_sample⟩
        dsimp only at hv
        rw [hv]
        refine ud2.hit ⟨i1, i2, i3, i4⟩ ?_
        rw [if_pos ⟨by omega, by omega, by omega, rfl⟩]
        exact hv
      · rw [if_neg hss]
        exact ud2.miss ⟨i1, i2, i3, i4⟩ (if_neg (by tauto))
    · intro m s hin
      have hin' := ul2.sh.inRange.1 hin
      obtain ⟨i1, i2, i3, i4⟩ := hin'
      by_cases hss : s = sample
      · subst hss
        rw [if_pos rfl]
        exact hget m (by omega)
      · rw [if_neg hss]
        exact ul2.miss ⟨i1, i2, i3, i4⟩ (if_neg (by tauto))
    · refine uh2.hit ⟨by omega, by omega, by omega, by omega⟩ ?_
      simp
    · refine uh2.hit ⟨by omega, by omega, by omega, by omega⟩ ?_
      simp
    · intro m s hin hne
      exact uh2.miss (uh2.sh.inRange.1 hin) (if_neg (by tauto))
    · refine ⟨k, ds.classWeights[k], best, List.getElem?_eq_getElem hk, ?_, ?_, ?_⟩
      · rw [← hget k (by omega)]; exact k4
      · intro c v hcl hv
        exact k5 c v (by omega) (by rw [hget c hcl]; exact hv)
      · exact ue2.hit ⟨by omega, by omega, by omega, by omega⟩ (if_pos ⟨rfl, rfl, rfl, rfl⟩)
    · intro s hin hne
      exact ue2.miss (ue2.sh.inRange.1 hin) (if_neg (by tauto))

/-- A dataset whose images are large enough and whose patches can be counted in 32 bits. -/
structure PatchesProper (lowest : R) (px py : Nat) (training testing : List (Tensor R × Tensor R))
    (classWeights : List R) (inputMaps labelMaps : Nat) : Prop where
  px_pos : 0 < px
  py_pos : 0 < py
  px_lt : px < 2 ^ 32
  py_lt : py < 2 ^ 32
  fits : ∀ pair ∈ training ++ testing, PatchPairFits lowest inputMaps labelMaps pair ∧
    px ≤ pair.1.width ∧ py ≤ pair.1.height
  classes : 0 < labelMaps ∧ labelMaps ≤ classWeights.length
  countable : ((training ++ testing).map fun pair =>
    (pair.1.width + 1 - px) * (pair.1.height + 1 - py)).sum < 2 ^ 32

omit [Field R] in
theorem proper_parts {lowest : R} {px py : Nat} {training testing : List (Tensor R × Tensor R)}
    {cw : List R} {im lm : Nat} (h : PatchesProper lowest px py training testing cw im lm) :
    total px py ((training ++ testing).map (·.1)) < 2 ^ 32 ∧
    total px py (training.map (·.1)) < 2 ^ 32 ∧ total px py (testing.map (·.1)) < 2 ^ 32 ∧
    total px py ((training ++ testing).map (·.1)) =
      total px py (training.map (·.1)) + total px py (testing.map (·.1)) ∧
    (∀ u ∈ (training ++ testing).map (·.1), Contains px py u) := by
  have e : total px py ((training ++ testing).map (·.1)) =
      total px py (training.map (·.1)) + total px py (testing.map (·.1)) := by
    simp [total]
  have b : total px py ((training ++ testing).map (·.1)) < 2 ^ 32 := by
    have := h.countable
    rw [total, List.map_map]
    exact this
  refine ⟨b, by omega, by omega, e, ?_⟩
  intro u hu
  obtain ⟨pair, hp, rfl⟩ := List.mem_map.1 hu
  exact ⟨(h.fits pair hp).2.1, (h.fits pair hp).2.2⟩

/-- C31 for training samples. -/
theorem C31_training_partial (lowest : R) (ef : Nat → Nat → Nat → Nat → R) (px py : Nat)
    (training testing : List (Tensor R × Tensor R)) (classes names colors : Nat) (cw : List R)
    (ds : PatchDataset.Dataset R)
    (h : construct px py training testing false false classes names colors cw = .done ds)
    (hproper : PatchesProper lowest px py training testing cw ds.inputMaps ds.labelMaps) :
    ∃ number, Numbers px py (training.map (·.1)) ds.training number ∧
      ∀ (batch : Nat) (outs : Outputs R), PatchOutputsFit ds batch outs →
      ∀ sample, sample < batch → ∀ t col row image label, training[t]? = some (image, label) →
      IsPosition px py (training.map (·.1)) t col row →
      ∃ o, getTrainingSample lowest ef ds outs sample (number t col row) = some (true, o) ∧
        PatchOutputsFit ds batch o ∧ HoldsPatch ef cw px py image label col row sample outs o := by
  unfold construct at h
  split at h
  · cases h
  simp only [Bool.false_eq_true, if_false] at h
  obtain rfl := Outcome.done.inj h
  obtain ⟨b1, b2, b3, b4, b5⟩ := proper_parts hproper
  have hcount := sampleCount_eq hproper.px_pos hproper.py_pos hproper.px_lt hproper.py_lt
    (training.map (·.1)) (fun u hu => b5 u (by rw [List.map_append]; exact List.mem_append_left _ hu))
    b2
  have hn := number_spec px py hproper.px_pos hproper.py_pos (training.map (·.1))
  refine ⟨_, by dsimp only; rw [hcount]; exact hn, ?_⟩
  intro batch outs hfit sample hs t col row image label ht hpos
  have hlt := hn.below t col row hpos
  obtain ⟨image', g1, g2, g3⟩ := hpos
  rw [List.getElem?_map, ht] at g1
  obtain rfl := Option.some.inj g1
  have htlen : t < training.length := (List.getElem?_eq_some_iff.1 ht).1
  have htake : (training.map (·.1) ++ testing.map (·.1)).take t = (training.map (·.1)).take t :=
    List.take_append_of_le_length (by simp; omega)
  have hdt : (training.map (·.1) ++ testing.map (·.1))[t]? = some image := by
    rw [List.getElem?_append_left (by simpa using htlen), List.getElem?_map, ht]; rfl
  have hlt' : (training.map (·.2) ++ testing.map (·.2))[t]? = some label := by
    rw [List.getElem?_append_left (by simpa using htlen), List.getElem?_map, ht]; rfl
  obtain ⟨o, o1, o2, o3⟩ := getPatch_holds lowest ef _ hproper.px_pos hproper.py_pos hproper.px_lt
    hproper.py_lt rfl batch outs hfit sample hs t col row image label hdt hlt'
    (hproper.fits (image, label) (List.mem_append_left _ (List.mem_of_getElem? ht))).1
    hproper.classes.1 hproper.classes.2 g2 g3 (by
      intro u hu
      refine b5 u ?_
      rw [List.map_append]
      exact List.mem_of_mem_take hu) (by
      dsimp only
      rw [htake]
      have hle : total px py ((training.map (·.1)).take (t + 1)) ≤ total px py (training.map (·.1)) := by
        conv => rhs; rw [← List.take_append_drop (t + 1) (training.map (·.1))]
        simp only [total, List.map_append, List.sum_append]
        omega
      have hsp : total px py ((training.map (·.1)).take (t + 1)) =
          total px py ((training.map (·.1)).take t) + positions px py image := by
        rw [List.take_add_one, List.getElem?_map, ht]
        simp [total]
      omega)
  refine ⟨o, ?_, o2, o3⟩
  unfold getTrainingSample
  rw [if_pos (by dsimp only at hlt ⊢; rw [hcount]; exact hlt)]
  dsimp only at o1 ⊢
  rw [htake] at o1
  rw [List.getElem?_map, ht]
  exact o1

/-- C31 for testing samples, only if there are as many testing patches as training patches: the code
adds the wrong count to the index. -/
theorem C31_testing_partial (lowest : R) (ef : Nat → Nat → Nat → Nat → R) (px py : Nat)
    (training testing : List (Tensor R × Tensor R)) (classes names colors : Nat) (cw : List R)
    (ds : PatchDataset.Dataset R)
    (h : construct px py training testing false false classes names colors cw = .done ds)
    (hproper : PatchesProper lowest px py training testing cw ds.inputMaps ds.labelMaps)
    (heq : ds.training = ds.testing) :
    ∃ number, Numbers px py (testing.map (·.1)) ds.testing number ∧
      ∀ (batch : Nat) (outs : Outputs R), PatchOutputsFit ds batch outs →
      ∀ sample, sample < batch → ∀ t col row image label, testing[t]? = some (image, label) →
      IsPosition px py (testing.map (·.1)) t col row →
      ∃ o, getTestingSample lowest ef ds outs sample (number t col row) = some (true, o) ∧
        PatchOutputsFit ds batch o ∧ HoldsPatch ef cw px py image label col row sample outs o := by
  unfold construct at h
  split at h
  · cases h
  simp only [Bool.false_eq_true, if_false] at h
  obtain rfl := Outcome.done.inj h
  obtain ⟨b1, b2, b3, b4, b5⟩ := proper_parts hproper
  have hcount := sampleCount_eq hproper.px_pos hproper.py_pos hproper.px_lt hproper.py_lt
    (training.map (·.1)) (fun u hu => b5 u (by rw [List.map_append]; exact List.mem_append_left _ hu))
    b2
  have hcount' := sampleCount_eq hproper.px_pos hproper.py_pos hproper.px_lt hproper.py_lt
    (testing.map (·.1)) (fun u hu => b5 u (by rw [List.map_append]; exact List.mem_append_right _ hu))
    b3
  dsimp only at heq
  rw [hcount, hcount'] at heq
  have hn := number_spec px py hproper.px_pos hproper.py_pos (testing.map (·.1))
  refine ⟨_, by dsimp only; rw [hcount']; exact hn, ?_⟩
  intro batch outs hfit sample hs t col row image label ht hpos
  have hlt := hn.below t col row hpos
  obtain ⟨image', g1, g2, g3⟩ := hpos
  rw [List.getElem?_map, ht] at g1
  obtain rfl := Option.some.inj g1
  have htake : (training.map (·.1) ++ testing.map (·.1)).take (training.length + t) =
      training.map (·.1) ++ (testing.map (·.1)).take t := by
    rw [List.take_append, List.take_of_length_le (by simp), List.length_map, Nat.add_sub_cancel_left]
  have htot : total px py ((training.map (·.1) ++ testing.map (·.1)).take (training.length + t)) =
      total px py (training.map (·.1)) + total px py ((testing.map (·.1)).take t) := by
    rw [htake]; simp [total]
  have hdt : (training.map (·.1) ++ testing.map (·.1))[training.length + t]? = some image := by
    rw [List.getElem?_append_right (by simp)]
    simp [ht]
  have hlt' : (training.map (·.2) ++ testing.map (·.2))[training.length + t]? = some label := by
    rw [List.getElem?_append_right (by simp)]
    simp [ht]
  have hle : total px py ((testing.map (·.1)).take (t + 1)) ≤ total px py (testing.map (·.1)) := by
    conv => rhs; rw [← List.take_append_drop (t + 1) (testing.map (·.1))]
    simp only [total, List.map_append, List.sum_append]
    omega
  have hsp : total px py ((testing.map (·.1)).take (t + 1)) =
      total px py ((testing.map (·.1)).take t) + positions px py image := by
    rw [List.take_add_one, List.getElem?_map, ht]
    simp [total]
  obtain ⟨o, o1, o2, o3⟩ := getPatch_holds lowest ef _ hproper.px_pos hproper.py_pos hproper.px_lt
    hproper.py_lt rfl batch outs hfit sample hs (training.length + t) col row image label hdt hlt'
    (hproper.fits (image, label) (List.mem_append_right _ (List.mem_of_getElem? ht))).1
    hproper.classes.1 hproper.classes.2 g2 g3 (by
      intro u hu
      refine b5 u ?_
      rw [List.map_append]
      exact List.mem_of_mem_take hu) (by
      dsimp only
      rw [htot]
      omega)
  refine ⟨o, ?_, o2, o3⟩
  dsimp only at hlt o1 ⊢
  rw [List.getElem?_map, ht] at hlt ⊢
  simp only [Option.map_some, Option.getD_some] at hlt ⊢
  unfold getTestingSample
  dsimp only
  rw [hcount', if_pos hlt]
  rw [htot] at o1
  have hix : u32 (total px py ((testing.map (·.1)).take t) + (row * (image.width + 1 - px) + col) +
      total px py (testing.map (·.1))) = total px py (training.map (·.1)) +
      total px py ((testing.map (·.1)).take t) + (row * (image.width + 1 - px) + col) := by
    rw [u32, Nat.mod_eq_of_lt (by omega)]
    omega
  rw [hix]
  exact o1

/-- The blank tensors of the witnesses. -/
def blank : Outputs Rat :=
  { data := ⟨1, 1, 1, 1, [0]⟩, label := ⟨1, 1, 1, 1, [0]⟩, helper := ⟨1, 1, 1, 2, [0, 0]⟩,
    error := ⟨1, 1, 1, 1, [0]⟩ }

/-- A dataset of 1 x 1 patches: pixels 1 and 2 for training, pixel 3 for testing. -/
def fewTesting : PatchDataset.Dataset Rat :=
  { px := 1, py := 1, data := [⟨1, 2, 1, 1, [1, 2]⟩, ⟨1, 1, 1, 1, [3]⟩],
    labels := [⟨1, 2, 1, 1, [1, 1]⟩, ⟨1, 1, 1, 1, [1]⟩], lastSample := [2, 3], training := 2,
    testing := 1, inputMaps := 1, labelMaps := 1, classWeights := [1] }

/-- A dataset of 1 x 1 patches: pixel 1 for training, pixels 2 and 3 for testing. -/
def manyTesting : PatchDataset.Dataset Rat :=
  { px := 1, py := 1, data := [⟨1, 1, 1, 1, [1]⟩, ⟨1, 2, 1, 1, [2, 3]⟩],
    labels := [⟨1, 1, 1, 1, [1]⟩, ⟨1, 2, 1, 1, [1, 1]⟩], lastSample := [1, 3], training := 1,
    testing := 2, inputMaps := 1, labelMaps := 1, classWeights := [1] }

/-- The full property fails for testing samples.  With fewer testing patches than training patches
the only testing sample is a training patch (pixel 2). -/
theorem C31_testing_sample_from_training :
    construct 1 1 [(⟨1, 2, 1, 1, [1, 2]⟩, ⟨1, 2, 1, 1, [1, 1]⟩)]
      [(⟨1, 1, 1, 1, [3]⟩, ⟨1, 1, 1, 1, [1]⟩)] false false 1 1 1 [1] = .done fewTesting ∧
    (getTestingSample (-100) (fun _ _ _ _ => 1) fewTesting blank 0 0).map
      (fun r => (r.1, r.2.data.data)) = some (true, [2]) := by
  refine ⟨rfl, ?_⟩
  decide +kernel

/-- With more testing patches than training patches testing sample 0 is the second patch, and for
testing sample 1 the search runs over the end of its table. -/
theorem C31_testing_search_overrun :
    construct 1 1 [(⟨1, 1, 1, 1, [1]⟩, ⟨1, 1, 1, 1, [1]⟩)]
      [(⟨1, 2, 1, 1, [2, 3]⟩, ⟨1, 2, 1, 1, [1, 1]⟩)] false false 1 1 1 [1] = .done manyTesting ∧
    (getTestingSample (-100) (fun _ _ _ _ => 1) manyTesting blank 0 0).map
      (fun r => (r.1, r.2.data.data)) = some (true, [3]) ∧
    getTestingSample (-100) (fun _ _ _ _ => 1) manyTesting blank 0 1 = none := by
  refine ⟨rfl, ?_, ?_⟩ <;> decide +kernel

/-- C31: the dataset reports the numbers of maps of its images and labels, also if all of them are testing images. -/
theorem C31_maps (px py : Nat) (training testing : List (Tensor R × Tensor R)) (classes names colors : Nat) (cw : List R)
    (ds : PatchDataset.Dataset R) (h : construct px py training testing false false classes names colors cw = .done ds)
    (im lm : Nat) (hfit : ∀ pair ∈ training ++ testing, pair.1.maps = im ∧ pair.2.maps = lm) (hne : training ++ testing ≠ []) :
    ds.inputMaps = im ∧ ds.labelMaps = lm := by
  unfold construct at h
  split at h
  · cases h
  · obtain rfl := Outcome.done.inj h
    dsimp only
    rw [← List.map_append, ← List.map_append]
    match hl : training ++ testing with
    | [] => exact absurd hl hne
    | pair :: _ => exact hfit pair (by simp [hl])

/-- Non-vacuity: no training image, one testing image with three maps. -/
example : ∃ ds : PatchDataset.Dataset Rat, construct 1 1 [] [(⟨1, 1, 1, 3, [1, 2, 3]⟩, ⟨1, 1, 1, 2, [1, 0]⟩)] false false 1 1 1 [1] = .done ds ∧
    ds.inputMaps = 3 ∧ ds.labelMaps = 2 :=
  ⟨_, rfl, C31_maps 1 1 [] [_] 1 1 1 [1] _ rfl 3 2 (by simp) (by simp)⟩

/-- An image smaller than the patch has no patches but is counted with 2^32 - 1 of them. -/
theorem C31_small_image_counted :
    ∃ ds : PatchDataset.Dataset Rat, construct 3 1 [(⟨1, 1, 1, 1, [1]⟩, ⟨1, 1, 1, 1, [1]⟩)] []
      false false 1 1 1 [1] = .done ds ∧ ds.training = 2 ^ 32 - 1 ∧
      ∀ t col row, ¬ IsPosition 3 1 [(⟨1, 1, 1, 1, [1]⟩ : Tensor Rat)] t col row := by
  refine ⟨_, rfl, by decide +kernel, ?_⟩
  rintro t col row ⟨image, h1, h2, h3⟩
  cases t with
  | zero =>
    obtain rfl := Option.some.inj h1
    dsimp only at h2
    omega
  | succ t => simp at h1

/-- Non-vacuity: two images, patches of 2 x 1; sample 2 is the patch of the second image. -/
example : ((construct (R := Rat) 2 1 [(⟨1, 3, 1, 1, [1, 2, 3]⟩, ⟨1, 3, 1, 1, [1, 1, 1]⟩),
      (⟨1, 2, 1, 1, [7, 8]⟩, ⟨1, 2, 1, 1, [4, 5]⟩)] [] false false 1 1 1 [10]).bind fun ds =>
      .ofOption ((getTrainingSample (R := Rat) (-100) (fun x _ _ _ => x + 1) ds
        { data := ⟨1, 2, 1, 1, [0, 0]⟩, label := ⟨1, 1, 1, 1, [0]⟩, helper := ⟨1, 1, 1, 2, [9, 9]⟩,
          error := ⟨1, 1, 1, 1, [0]⟩ } 0 2).map fun r =>
        (r.1, r.2.data.data, r.2.label.data, r.2.helper.data, r.2.error.data))) =
    .done (true, [7, 8], [5], [0, 0], [20]) := by decide +kernel

end CN24.Props
