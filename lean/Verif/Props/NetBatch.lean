import Verif.Proof.NetBatch
import Verif.Proof.NetTrain
import Verif.Props.TestSet

/-! C91: what a network computes for an image does not depend on the batch the image is part of. -/

namespace CN24.NetBatch
open CN24 CN24.Tensor CN24.NetConfig CN24.Net CN24.NetEval CN24.Props

variable {R : Type _} [Field R] [LinearOrder R]

omit [Field R] [LinearOrder R] in
theorem sameSize_like {n n' : Nat} {t t' : Tensor R} (h : SameSize n n' t t') : Like n n' t t' :=
  ⟨t.width, t.height, t.maps, ⟨h.samples.1, rfl, rfl, rfl, h.wf.1⟩,
    ⟨h.samples.2, h.width.symm, h.height.symm, h.maps.symm, h.wf.2⟩⟩

omit [LinearOrder R] in
theorem rel_of_same {n n' s s' : Nat} {t t' : Tensor R} (h : SameSize n n' t t') (hp : SamePicture s s' t t') :
    Rel n n' s s' t t' := by
  refine ⟨t.width, t.height, t.maps, ⟨h.samples.1, rfl, rfl, rfl, h.wf.1⟩,
    ⟨h.samples.2, h.width.symm, h.height.symm, h.maps.symm, h.wf.2⟩, fun x y c hx hy hc => ?_⟩
  have e := hp.pixels x y c hx hy hc
  rw [get_eq_val h.wf.1 ⟨hx, hy, hc, hp.first⟩, get_eq_val h.wf.2
    ⟨by rw [← h.width]; exact hx, by rw [← h.height]; exact hy, by rw [← h.maps]; exact hc, hp.second⟩] at e
  exact Option.some.inj e

omit [LinearOrder R] in
theorem same_of_rel {n n' s s' : Nat} (hs : s < n) (hs' : s' < n') {t t' : Tensor R} (h : Rel n n' s s' t t') :
    SameSize n n' t t' ∧ SamePicture s s' t t' := by
  obtain ⟨w, h, m, a, b, e⟩ := h
  obtain ⟨a1, a2, a3, a4, a5⟩ := a
  obtain ⟨b1, b2, b3, b4, b5⟩ := b
  refine ⟨⟨⟨a5, b5⟩, ⟨a1, b1⟩, a2.trans b2.symm, a3.trans b3.symm, a4.trans b4.symm⟩,
    ⟨a2.trans b2.symm, a3.trans b3.symm, a4.trans b4.symm, by omega, by omega, fun x y k hx hy hk => ?_⟩⟩
  rw [get_eq_val a5 ⟨hx, hy, hk, by omega⟩, get_eq_val b5 ⟨by omega, by omega, by omega, by omega⟩]
  exact congrArg some (e x y k (by omega) (by omega) (by omega))

/-- C91: two batches of any sizes, evaluated by the same network (in the same mode, with whatever the memory of the
outputs held before).  If picture `s` of the first is picture `s'` of the second, then both evaluations succeed and all
tensors of all layers agree in these pictures; other pictures, labels and weights have no influence. -/
theorem C91_batch_partial (env : Env R) (b : Bool) (nodes : List (NewNode R)) (data data' : List (Tensor R))
    (n n' s s' : Nat) (hs : s < n) (hs' : s' < n') (mode mode' : Mode R) (hb : mode.testing = b)
    (hb' : mode'.testing = b) (hd : List.Forall₂ (SameSize n n') data data')
    (hr : ∀ i t t', Reads nodes i → data[i]? = some t → data'[i]? = some t' → SamePicture s s' t t')
    (hsuit : Suitable env b (data.map Tensor.shape) nodes []) :
    ∃ vs vs', values env mode data nodes [] = .done vs ∧ values env mode' data' nodes [] = .done vs' ∧
      (∀ k j : Nat, ∀ t, vs[k]?.bind (fun o => o[j]?) = some t →
        ∃ t', vs'[k]?.bind (fun o => o[j]?) = some t' ∧ SamePicture s s' t t') ∧
      ∀ t, predict env mode nodes data = .done t →
        ∃ t', predict env mode' nodes data' = .done t' ∧ SamePicture s s' t t' := by
  obtain ⟨vs, vs', c1, c2, c3, -⟩ := values_same (env := env) hs hs' hb hb' (hd.imp fun _ _ h => sameSize_like h) nodes
    (known := []) (known' := []) .nil (fun i t t' h1 h2 h3 => by
      obtain ⟨u, u1, u2⟩ := forall₂_get hd _ _ h2
      rw [h3] at u1
      cases u1
      exact rel_of_same u2 (hr i t t' h1 h2 h3)) hsuit
  refine ⟨vs, vs', c1, c2, fun k j t ht => ?_, fun t ht => ?_⟩
  · rw [Option.bind_eq_some_iff] at ht
    obtain ⟨o, h1, h2⟩ := ht
    obtain ⟨o', g1, g2⟩ := forall₂_get c3 _ _ h1
    obtain ⟨t', g3, g4⟩ := forall₂_get g2 _ _ h2
    exact ⟨t', by rw [g1]; exact g3, (same_of_rel hs hs' g4).2⟩
  · unfold predict at ht ⊢
    rw [c1, Outcome.bind_done, Outcome.ofOption_eq_done] at ht
    obtain ⟨t', g1, g2⟩ := outputOf_same nodes c3 t ht
    rw [c2, Outcome.bind_done, g1]
    exact ⟨t', rfl, (same_of_rel hs hs' g2).2⟩

omit [LinearOrder R] in
/-- C91: whatever a description says, the layers that compute something use the images and the helper images of the
data layer only, never the labels or the weights. -/
theorem C91_reads (conv : Config.Str → R) (lines : List Config.Str) (training : Bool) (classes : Nat) (loss : Bool)
    (nodes : List (NewNode R)) (h : nodesOf conv lines training classes loss = .done nodes) (i : Nat)
    (hi : Reads nodes i) : i = 0 ∨ i = 2 := by
  unfold nodesOf at h
  obtain ⟨f, h1, h⟩ := bind_eq_done h
  obtain ⟨st, h2, h⟩ := bind_eq_done h
  cases h
  obtain ⟨nd, n1, n2, c, c1, c2, rfl⟩ := hi
  exact (NetTrain.addLayers_built h2 nd n1).plain n2 c c1 c2

/-- C91: a described network.  The output for a picture is determined by the image and its helper image. -/
theorem C91_described_partial (conv : Config.Str → R) (lines : List Config.Str) (training : Bool) (classes : Nat)
    (loss : Bool) (nodes : List (NewNode R)) (h : nodesOf conv lines training classes loss = .done nodes) (env : Env R)
    (b : Bool) (image label helper weight image' label' helper' weight' : Tensor R)
    (n n' s s' : Nat) (hs : s < n) (hs' : s' < n') (mode mode' : Mode R) (hb : mode.testing = b)
    (hb' : mode'.testing = b)
    (hd : SameSize n n' image image' ∧ SameSize n n' label label' ∧ SameSize n n' helper helper' ∧
      SameSize n n' weight weight')
    (himage : SamePicture s s' image image') (hhelper : SamePicture s s' helper helper')
    (hsuit : Suitable env b [image.shape, label.shape, helper.shape, weight.shape] nodes [])
    (t : Tensor R) (ht : predict env mode nodes [image, label, helper, weight] = .done t) :
    ∃ t', predict env mode' nodes [image', label', helper', weight'] = .done t' ∧ SamePicture s s' t t' := by
  obtain ⟨vs, vs', -, -, -, h2⟩ := C91_batch_partial env b nodes [image, label, helper, weight]
    [image', label', helper', weight'] n n' s s' hs hs' mode mode' hb hb'
    (.cons hd.1 (.cons hd.2.1 (.cons hd.2.2.1 (.cons hd.2.2.2 .nil))))
    (by
      intro i t t' hi e e'
      rcases C91_reads conv lines training classes loss nodes h i hi with rfl | rfl
      · cases e
        cases e'
        exact himage
      · cases e
        cases e'
        exact hhelper) hsuit
  exact h2 t ht

/-! ### The testing set -/

/-- A tensor with one picture. -/
def picture (w h m : Nat) (f : Nat → Nat → Nat → R) : Tensor R :=
  ⟨1, w, h, m, (List.range (m * w * h)).map fun i => f (i % w) (i / w % h) (i / (w * h))⟩

omit [LinearOrder R] in
theorem picture_is (w h m : Nat) (f : Nat → Nat → Nat → R) : (picture w h m f).Is 1 w h m := by
  refine ⟨rfl, rfl, rfl, rfl, ?_⟩
  unfold picture WF elements
  simp

omit [LinearOrder R] in
theorem picture_get {w h m : Nat} (f : Nat → Nat → Nat → R) {x y k : Nat} (hx : x < w) (hy : y < h) (hk : k < m) :
    (picture w h m f).get x y k 0 = some (f x y k) := by
  have hr : (picture w h m f).InRange x y k 0 := ⟨hx, hy, hk, Nat.one_pos⟩
  have hlt := offset_lt _ hr
  rw [(picture_is w h m f).2.2.2.2.symm] at hlt
  have hoff : (picture w h m f).offset x y k 0 = (k * h + y) * w + x := by
    rw [offset_eq]
    simp [picture]
  unfold Tensor.get rd
  rw [hoff]
  unfold picture at hlt ⊢
  dsimp only at hlt ⊢
  rw [List.getElem?_map, List.getElem?_range, Option.map_some]
  · have e1 : ((k * h + y) * w + x) % w = x := by rw [Nat.mul_add_mod_self_right, Nat.mod_eq_of_lt hx]
    have e2 : ((k * h + y) * w + x) / w = k * h + y := by
      rw [Nat.add_comm, Nat.add_mul_div_right _ _ (by omega), Nat.div_eq_of_lt hx, Nat.zero_add]
    rw [e1, e2, Nat.mul_add_mod_self_right, Nat.mod_eq_of_lt hy, ← Nat.div_div_eq_div_mul, e2, Nat.add_comm,
      Nat.add_mul_div_right _ _ (by omega), Nat.div_eq_of_lt hy, Nat.zero_add]
  · have := radix_lt (radix_lt hk hy) hx
    calc _ < m * h * w := this
      _ = m * w * h := by ring

/-- The scores of a network for one picture alone: a batch of one, with labels, helper image and weights all zero. -/
def alone (env : Env R) (nodes : List (NewNode R)) (w h maps classes : Nat) (f : Nat → Nat → Nat → R)
    (x y c : Nat) : R :=
  match predict env ⟨true, fun _ _ => 0⟩ nodes [picture w h maps f, blank ⟨1, w, h, classes⟩ fun _ => 0,
      blank ⟨1, w, h, 2⟩ fun _ => 0, blank ⟨1, w, h, 1⟩ fun _ => 0] with
  | .done t => (t.get x y c 0).getD 0
  | _ => 0

/-- The output of a network for a batch, with labels, helper images and weights all zero. -/
def batchwise (env : Env R) (nodes : List (NewNode R)) (n w h classes : Nat) (d : Tensor R) : Tensor R :=
  match predict env ⟨true, fun _ _ => 0⟩ nodes [d, blank ⟨n, w, h, classes⟩ fun _ => 0,
      blank ⟨n, w, h, 2⟩ fun _ => 0, blank ⟨n, w, h, 1⟩ fun _ => 0] with
  | .done t => t
  | _ => d

/-- A network that gives a score for each class and pixel of batches of `n` images, and uses the images only. -/
structure Scores (env : Env R) (nodes : List (NewNode R)) (n w h maps classes : Nat) : Prop where
  images : ∀ i, Reads nodes i → i = 0
  suitable : Suitable env true [⟨n, w, h, maps⟩, ⟨n, w, h, classes⟩, ⟨n, w, h, 2⟩, ⟨n, w, h, 1⟩] nodes []
  output : ∃ known, shapes 0 1 [⟨n, w, h, maps⟩, ⟨n, w, h, classes⟩, ⟨n, w, h, 2⟩, ⟨n, w, h, 1⟩] nodes [] =
    .done known ∧ outputOf nodes known = some ⟨n, w, h, classes⟩

theorem Scores.run {env : Env R} {nodes : List (NewNode R)} {n w h maps classes : Nat}
    (H : Scores env nodes n w h maps classes) {n' s s' : Nat} (hs : s < n) (hs' : s' < n')
    {mode mode' : Mode R} (hb : mode.testing = true) (hb' : mode'.testing = true)
    {d l e g d' l' e' g' : Tensor R} (h1 : d.Is n w h maps) (h2 : l.Is n w h classes) (h3 : e.Is n w h 2)
    (h4 : g.Is n w h 1) (h1' : d'.Is n' w h maps) (h2' : l'.Is n' w h classes) (h3' : e'.Is n' w h 2)
    (h4' : g'.Is n' w h 1) (hp : ∀ x y k, x < w → y < h → k < maps → d.val x y k s = d'.val x y k s') :
    ∃ t t', predict env mode nodes [d, l, e, g] = .done t ∧ predict env mode' nodes [d', l', e', g'] = .done t' ∧
      t.Is n w h classes ∧ t'.Is n' w h classes ∧
      ∀ x y c, x < w → y < h → c < classes → t.val x y c s = t'.val x y c s' := by
  obtain ⟨vs, vs', c1, c2, c3, c4⟩ := values_same (env := env) hs hs' hb hb' (data := [d, l, e, g])
    (data' := [d', l', e', g']) (.cons ⟨_, _, _, h1, h1'⟩ (.cons ⟨_, _, _, h2, h2'⟩ (.cons ⟨_, _, _, h3, h3'⟩
      (.cons ⟨_, _, _, h4, h4'⟩ .nil)))) nodes (known := []) (known' := []) .nil
    (by
      intro i t t' hi e1 e2
      obtain rfl := H.images i hi
      cases e1
      cases e2
      exact ⟨_, _, _, h1, h1', hp⟩)
    (by
      simp only [List.map_cons, List.map_nil, shape_of_is h1, shape_of_is h2, shape_of_is h3, shape_of_is h4]
      exact H.suitable)
  obtain ⟨known, k1, k2⟩ := H.output
  simp only [List.map_cons, List.map_nil, shape_of_is h1, shape_of_is h2, shape_of_is h3, shape_of_is h4] at c4
  rw [k1] at c4
  cases c4
  rw [outputOf_map, Option.map_eq_some_iff] at k2
  obtain ⟨t, t1, t2⟩ := k2
  obtain ⟨t', g1, w1, hh1, m1, i1, i2, i3⟩ := outputOf_same nodes c3 t t1
  rw [shape_of_is i1] at t2
  cases t2
  refine ⟨t, t', ?_, ?_, i1, i2, i3⟩
  · unfold predict
    rw [c1, Outcome.bind_done, t1]
    rfl
  · unfold predict
    rw [c2, Outcome.bind_done, g1]
    rfl

omit [LinearOrder R] in
theorem zeros_is (n w h m : Nat) : (blank ⟨n, w, h, m⟩ fun _ => (0 : R)).Is n w h m := blank_is ⟨n, w, h, m⟩ _

/-- Such a network treats every picture of a batch alone (C89 assumes this). -/
theorem Scores.imagewise {env : Env R} {nodes : List (NewNode R)} {n w h maps classes : Nat} (hn : 0 < n)
    (H : Scores env nodes n w h maps classes) :
    TestSet.Imagewise n w h maps classes (batchwise env nodes n w h classes) (alone env nodes w h maps classes) where
  wf := by
    intro d hw hsh
    have h1 : d.Is n w h maps := ⟨hsh.1.symm, hsh.2.1.symm, hsh.2.2.1.symm, hsh.2.2.2.symm, hw⟩
    obtain ⟨t, t', p1, -, p3, -⟩ := H.run hn hn (mode := ⟨true, fun _ _ => 0⟩) (mode' := ⟨true, fun _ _ => 0⟩) rfl rfl h1
      (zeros_is n w h classes) (zeros_is n w h 2) (zeros_is n w h 1) h1 (zeros_is n w h classes) (zeros_is n w h 2)
      (zeros_is n w h 1) (fun x y k _ _ _ => rfl)
    unfold batchwise
    rw [p1]
    exact ⟨p3.2.2.2.2, p3.1.symm, p3.2.1.symm, p3.2.2.1.symm, p3.2.2.2.1.symm⟩
  value := by
    intro d f s hw hsh hs hf x y c hx hy hc
    have h1 : d.Is n w h maps := ⟨hsh.1.symm, hsh.2.1.symm, hsh.2.2.1.symm, hsh.2.2.2.symm, hw⟩
    obtain ⟨t, t', p1, p2, p3, p4, p5⟩ := H.run hs Nat.one_pos (mode := ⟨true, fun _ _ => 0⟩)
      (mode' := ⟨true, fun _ _ => 0⟩) rfl rfl h1
      (zeros_is n w h classes) (zeros_is n w h 2) (zeros_is n w h 1) (picture_is w h maps f) (zeros_is 1 w h classes)
      (zeros_is 1 w h 2) (zeros_is 1 w h 1) (fun x y k hx hy hk => by
        rw [val_of_get (hf x y k hx hy hk), val_of_get (picture_get f hx hy hk)])
    unfold batchwise alone
    rw [p1, p2]
    dsimp only
    rw [get_eq_val p3.2.2.2.2 ((inRange_of_is p3).2 ⟨hx, hy, hc, hs⟩), get_eq_val p4.2.2.2.2 ((inRange_of_is p4).2 ⟨hx, hy, hc, Nat.one_pos⟩),
      p5 x y c hx hy hc]
    rfl

/-- The output for a batch does not depend on labels, helper images, weights and the memory. -/
theorem Scores.batch {env : Env R} {nodes : List (NewNode R)} {n w h maps classes : Nat} (hn : 0 < n)
    (H : Scores env nodes n w h maps classes) {mode : Mode R} (hb : mode.testing = true) {d l e g t : Tensor R}
    (h1 : d.Is n w h maps) (h2 : l.Is n w h classes) (h3 : e.Is n w h 2) (h4 : g.Is n w h 1)
    (ht : predict env mode nodes [d, l, e, g] = .done t) : t = batchwise env nodes n w h classes d := by
  have key : ∀ s, s < n → ∃ u, predict env ⟨true, fun _ _ => 0⟩ nodes [d, blank ⟨n, w, h, classes⟩ fun _ => 0,
      blank ⟨n, w, h, 2⟩ fun _ => 0, blank ⟨n, w, h, 1⟩ fun _ => 0] = .done u ∧ t.Is n w h classes ∧ u.Is n w h classes ∧
      ∀ x y c, x < w → y < h → c < classes → t.val x y c s = u.val x y c s := by
    intro s hs
    obtain ⟨t1, u, p1, p2, p3, p4, p5⟩ := H.run hs hs (mode := mode) (mode' := ⟨true, fun _ _ => 0⟩) hb rfl h1 h2 h3 h4 h1
      (zeros_is n w h classes) (zeros_is n w h 2) (zeros_is n w h 1) (fun x y k _ _ _ => rfl)
    rw [ht] at p1
    cases p1
    exact ⟨u, p2, p3, p4, p5⟩
  obtain ⟨u, u1, u2, u3, -⟩ := key 0 hn
  unfold batchwise
  rw [u1]
  dsimp only
  refine ext_get u2.2.2.2.2 u3.2.2.2.2 ⟨u2.1.trans u3.1.symm, u2.2.1.trans u3.2.1.symm, u2.2.2.1.trans u3.2.2.1.symm,
    u2.2.2.2.1.trans u3.2.2.2.1.symm⟩ ?_
  intro x y c s hr
  obtain ⟨v, v1, -, -, v4⟩ := key s (by have := hr.2.2.2; rw [u2.1] at this; exact this)
  rw [u1] at v1
  cases v1
  obtain ⟨hx, hy, hc, hs⟩ := (inRange_of_is u2).1 hr
  rw [get_eq_val u2.2.2.2.2 hr, get_eq_val u3.2.2.2.2 ((inRange_of_is u3).2 ⟨hx, hy, hc, hs⟩)]
  exact congrArg some (v4 x y c hx hy hc)

variable [IsStrictOrderedRing R] {G : Type _} {lowest : R} {ef : Nat → Nat → Nat → Nat → R}
  {ds : TensorStreamDataset.Dataset R}

/-- The assumptions about dataset and network, for batches of `batch` images. -/
structure Tested (env : Env R) (nodes : List (NewNode R)) (batch : Nat) (lowest : R) (ef : Nat → Nat → Nat → Nat → R)
    (ds : TensorStreamDataset.Dataset R) : Prop where
  fits : TestSet.Fits lowest ds
  positive : 0 < batch
  some_image : 0 < ds.testing.length / 2
  zero : lowest ≤ 0
  net : Scores env nodes batch ds.maxWidth ds.maxHeight ds.inputMaps ds.labelMaps
  scores : ∀ j image, ds.testing[2 * j]? = some image → ∀ x y c, x < ds.maxWidth → y < ds.maxHeight →
    c < ds.labelMaps →
    lowest ≤ alone env nodes ds.maxWidth ds.maxHeight ds.inputMaps ds.labelMaps (TestSet.padded image) x y c
  weights : ∀ c ∈ ds.classWeights, 0 ≤ c
  error : ∀ x y w h, 0 ≤ ef x y w h

omit [IsStrictOrderedRing R] in
theorem Tested.setting {env : Env R} {nodes : List (NewNode R)} {batch : Nat}
    (h : Tested env nodes batch lowest ef ds) :
    TestSet.Setting batch lowest ef ds (batchwise env nodes batch ds.maxWidth ds.maxHeight ds.labelMaps)
      (alone env nodes ds.maxWidth ds.maxHeight ds.inputMaps ds.labelMaps) :=
  ⟨h.fits, h.positive, h.some_image, h.zero, h.net.imagewise h.positive, h.scores, h.weights, h.error⟩

/-- The network shows the layer of the rates what it computes for the batch, whatever is left in its memory. -/
def Predicts (env : Env R) (nodes : List (NewNode R)) (ds : TensorStreamDataset.Dataset R) (batch : Nat)
    (p : Outputs R → Tensor R × Tensor R × Tensor R) : Prop :=
  ∀ o, OutputsFit ds batch o → ∃ memory t,
    predict env ⟨true, memory⟩ nodes [o.data, o.label, o.helper, o.error] = .done t ∧ p o = (t, o.label, o.error)

omit [IsStrictOrderedRing R] in
theorem Tested.predicts {env : Env R} {nodes : List (NewNode R)} {batch : Nat}
    (h : Tested env nodes batch lowest ef ds) {p : Outputs R → Tensor R × Tensor R × Tensor R}
    (hp : Predicts env nodes ds batch p) (o : Outputs R) (ho : OutputsFit ds batch o) :
    p o = (batchwise env nodes batch ds.maxWidth ds.maxHeight ds.labelMaps o.data, o.label, o.error) := by
  obtain ⟨memory, t, p1, p2⟩ := hp o ho
  have is : ∀ {m : Nat} {t : Tensor R}, Sh (⟨batch, ds.maxWidth, ds.maxHeight, m, []⟩ : Tensor R) t ∧ t.WF →
      t.Is batch ds.maxWidth ds.maxHeight m :=
    fun h => ⟨h.1.1.symm, h.1.2.1.symm, h.1.2.2.1.symm, h.1.2.2.2.symm, h.2⟩
  rw [p2, ← h.net.batch h.positive (mode := ⟨true, memory⟩) rfl (is ho.data) (is ho.label) (is ho.helper) (is ho.error) p1]

/-- C91: the rates of a test with a network (compare C89, which assumes that the network treats pictures alone): they
are those of the classes with the largest scores that the network computes for each testing image alone. -/
theorem C91_test_set_partial
    (m : Rates.Machine R (Sampling.State R G) (Outputs R) (ConfusionMatrix.State R)) (rnd : Sampling.Random R G) (p : R)
    (env : Session.Weights R → Env R) (nodes : List (NewNode R)) (batch : Nat)
    (hsrc : m.source = Session.layerSource rnd p (ofTensorStream lowest ef ds) batch)
    (hiter : m.testIterations = Trainer.testIterations (ds.testing.length / 2) batch)
    (hsmall : ds.testing.length / 2 / batch + 1 < 2 ^ 24) (first first' : Nat)
    (hm : m.meter = Rates.confusion lowest first) (ht : m.testMeter = Rates.confusion lowest first')
    (hh : m.hybrid = false) (cs : List (Session.Command R))
    (st0 st st' : Rates.State R (Sampling.State R G) (ConfusionMatrix.State R))
    (h : Rates.Ready m (Rates.unused ds.labelMaps) (Rates.unused ds.labelMaps) st0)
    (hmode : st0.base.src.testing = false) (houts : OutputsFit ds batch st0.base.src.outs)
    (hrun : Rates.run m cs st0 = .done st) (hd : Rates.exec m .test st = .done st')
    (hset : Tested (env st.base.opt.weights) nodes batch lowest ef ds)
    (hpred : Predicts (env st.base.opt.weights) nodes ds batch (m.predict true st.base.opt.weights)) :
    ∃ obs hard outs,
      (∀ j, j < ds.testing.length / 2 → ∃ image label, ds.testing[2 * j]? = some image ∧
        ds.testing[2 * j + 1]? = some label ∧ ∀ x y, x < image.width → y < image.height →
          TestSet.PixelOf (alone (env st.base.opt.weights) nodes ds.maxWidth ds.maxHeight ds.inputMaps ds.labelMaps) ef
            ds.classWeights ds.labelMaps image label x y (obs j x y)) ∧
      st'.base.agg.sinks = st.base.agg.sinks.map (· ++ [.process hard outs]) ∧
      TestSet.RatesOf ds.labelMaps first (TestSet.pixels ds obs) outs :=
  TestSet.C89_whole_test_set m rnd p _ _ hset.setting hsrc hiter hsmall first first' hm ht hh cs st0 st st' h hmode houts
    hrun hd (hset.predicts hpred)

/-- C91: the rates of the same network and testing set in batches of two sizes, after any two sessions that lead to the
same weights: equal. -/
theorem C91_batch_size_partial
    (m m' : Rates.Machine R (Sampling.State R G) (Outputs R) (ConfusionMatrix.State R)) (rnd rnd' : Sampling.Random R G)
    (p p' : R) (env env' : Session.Weights R → Env R) (nodes : List (NewNode R)) (batch batch' : Nat)
    (hsrc : m.source = Session.layerSource rnd p (ofTensorStream lowest ef ds) batch)
    (hsrc' : m'.source = Session.layerSource rnd' p' (ofTensorStream lowest ef ds) batch')
    (hiter : m.testIterations = Trainer.testIterations (ds.testing.length / 2) batch)
    (hiter' : m'.testIterations = Trainer.testIterations (ds.testing.length / 2) batch')
    (hsmall : ds.testing.length / 2 / batch + 1 < 2 ^ 24) (hsmall' : ds.testing.length / 2 / batch' + 1 < 2 ^ 24)
    (first second first' second' : Nat)
    (hm : m.meter = Rates.confusion lowest first) (ht : m.testMeter = Rates.confusion lowest second)
    (hm' : m'.meter = Rates.confusion lowest first') (ht' : m'.testMeter = Rates.confusion lowest second')
    (hh : m.hybrid = false) (hh' : m'.hybrid = false) (cs cs' : List (Session.Command R))
    (st0 st st1 st0' st' st1' : Rates.State R (Sampling.State R G) (ConfusionMatrix.State R))
    (h : Rates.Ready m (Rates.unused ds.labelMaps) (Rates.unused ds.labelMaps) st0)
    (h' : Rates.Ready m' (Rates.unused ds.labelMaps) (Rates.unused ds.labelMaps) st0')
    (hmode : st0.base.src.testing = false) (houts : OutputsFit ds batch st0.base.src.outs)
    (hmode' : st0'.base.src.testing = false) (houts' : OutputsFit ds batch' st0'.base.src.outs)
    (hrun : Rates.run m cs st0 = .done st) (hd : Rates.exec m .test st = .done st1)
    (hrun' : Rates.run m' cs' st0' = .done st') (hd' : Rates.exec m' .test st' = .done st1')
    (hw : env st.base.opt.weights = env' st'.base.opt.weights)
    (hset : Tested (env st.base.opt.weights) nodes batch lowest ef ds)
    (hset' : Tested (env' st'.base.opt.weights) nodes batch' lowest ef ds)
    (hpred : Predicts (env st.base.opt.weights) nodes ds batch (m.predict true st.base.opt.weights))
    (hpred' : Predicts (env' st'.base.opt.weights) nodes ds batch' (m'.predict true st'.base.opt.weights)) :
    ∃ hard hard' outs outs',
      st1.base.agg.sinks = st.base.agg.sinks.map (· ++ [.process hard outs]) ∧
      st1'.base.agg.sinks = st'.base.agg.sinks.map (· ++ [.process hard' outs']) ∧
      outs[first]? = outs'[first']? ∧ outs[first + 1]? = outs'[first' + 1]? ∧ outs[first + 2]? = outs'[first' + 2]? := by
  obtain ⟨obs, hard, outs, a1, a2, a3⟩ := C91_test_set_partial m rnd p env nodes batch hsrc hiter hsmall first second hm ht
    hh cs st0 st st1 h hmode houts hrun hd hset hpred
  obtain ⟨obs', hard', outs', b1, b2, b3⟩ := C91_test_set_partial m' rnd' p' env' nodes batch' hsrc' hiter' hsmall' first'
    second' hm' ht' hh' cs' st0' st' st1' h' hmode' houts' hrun' hd' hset' hpred'
  rw [← hw] at b1
  exact ⟨hard, hard', outs, outs', a2, b2, TestSet.C89_determined _ first first' obs obs' outs outs' a1 b1 a3 b3⟩

/-! ### Where the property fails -/

/-- A network with a normalisation only. -/
def normal : List (NewNode ℚ) := [⟨.lrn 1 1 1 true, [⟨0, 0, true⟩], true⟩]

/-- Some environment. -/
def plainEnv : Env ℚ := ⟨fun v => v, fun a _ => a, -1000, fun _ => ⟨⟨1, 1, 1, 1, [2]⟩, ⟨1, 1, 1, 1, [1]⟩⟩, fun _ => (0, 0)⟩

/-- The values of the output. -/
def outputData : Outcome (Tensor ℚ) → Option (List ℚ)
  | .done t => some t.data
  | _ => none

/-- C91: the full property fails for normalisation of images that are wider than high (C46): what the network computes
for the same image depends on what the memory held before, for instance the image computed last. -/
theorem C91_stale_normalisation :
    ∃ d : Tensor ℚ, outputData (predict plainEnv ⟨true, fun _ _ => 0⟩ normal [d]) ≠
      outputData (predict plainEnv ⟨true, fun _ _ => 1⟩ normal [d]) ∧
      (outputData (predict plainEnv ⟨true, fun _ _ => 0⟩ normal [d])).isSome :=
  ⟨⟨1, 2, 1, 1, [3, 4]⟩, by decide +kernel, by decide +kernel⟩

/-! ### A network with a convolution, pooling, scaling and a join, with a loss layer -/

def joined : List (NewNode ℚ) := [⟨.conv ⟨1, 1, 1, 1, 1, 0, 0, 1⟩ 0 (1 / 2) 1, [⟨0, 0, true⟩], false⟩,
  ⟨.maxPool 2 1, [⟨1, 0, true⟩], false⟩, ⟨.upscale 2 1, [⟨2, 0, true⟩], false⟩,
  ⟨.concat, [⟨1, 0, true⟩, ⟨3, 0, true⟩], false⟩, ⟨.relu, [⟨4, 0, true⟩], true⟩,
  ⟨.error 1, [⟨5, 0, true⟩, ⟨0, 1, true⟩, ⟨0, 3, true⟩], false⟩]

/-- The assumptions hold for batches of any size. -/
theorem joined_suitable (n : Nat) : Suitable plainEnv true
    [⟨n, 2, 1, 1⟩, ⟨n, 2, 1, 2⟩, ⟨n, 2, 1, 2⟩, ⟨n, 2, 1, 1⟩] joined [] := by
  refine ⟨[⟨n, 2, 1, 1⟩], [⟨n, 2, 1, 1⟩], rfl, ?_,
    ⟨⟨rfl, rfl, rfl, (Nat.div_one _).symm, rfl⟩, ⟨rfl, rfl, rfl, rfl, rfl⟩, by decide, Or.inl rfl⟩,
    [⟨n, 2, 1, 1⟩], [⟨n, 1, 1, 1⟩], rfl, ?_, trivial,
    [⟨n, 1, 1, 1⟩], [⟨n, 2, 1, 1⟩], rfl, rfl, trivial,
    [⟨n, 2, 1, 1⟩, ⟨n, 2, 1, 1⟩], [⟨n, 2, 1, 2⟩], rfl, ?_, ⟨rfl, rfl⟩,
    [⟨n, 2, 1, 2⟩], [⟨n, 2, 1, 2⟩], rfl, rfl, trivial,
    [⟨n, 2, 1, 2⟩, ⟨n, 2, 1, 2⟩, ⟨n, 2, 1, 1⟩], [], rfl, ?_, trivial, trivial⟩
  · have e : Convolution.initialise ⟨1, 1, 1, 1, 1, 0, 0, 1⟩ 2 1 1 = .done (some (2, 1)) := by decide +kernel
    unfold Layer.outputs
    simp only [e, Outcome.bind_done]
  · have e : Pooling.createOutputs 2 1 2 1 = .done (some (1, 1)) := by decide +kernel
    unfold Layer.outputs
    simp only [e, Outcome.bind_done]
  · unfold Layer.outputs Layers.concatCreate Layers.concatConnect Shape.elements
    simp
    omega
  · unfold Layer.outputs ErrorLayer.accepts
    simp

/-- Alone, and as the second of three images between others, with other labels and memory. -/
example : outputData (predict plainEnv ⟨true, fun _ _ => 0⟩ joined [⟨1, 2, 1, 1, [3, -4]⟩, ⟨1, 2, 1, 2, [1, 0, 0, 1]⟩,
      ⟨1, 2, 1, 2, [0, 0, 0, 0]⟩, ⟨1, 2, 1, 1, [1, 1]⟩]) = some [7 / 2, 0, 7 / 2, 7 / 2] ∧
    outputData (predict plainEnv ⟨true, fun _ i => i⟩ joined [⟨3, 2, 1, 1, [7, 8, 3, -4, 1, 2]⟩,
      ⟨3, 2, 1, 2, [1, 0, 0, 1, 0, 0, 0, 0, 0, 0, 0, 0]⟩, ⟨3, 2, 1, 2, [1, 0, 0, 1, 0, 0, 0, 0, 0, 0, 0, 0]⟩,
      ⟨3, 2, 1, 1, [1, 1, 2, 2, 3, 3]⟩]) = some [15 / 2, 17 / 2, 17 / 2, 17 / 2, 7 / 2, 0,
        7 / 2, 7 / 2, 3 / 2, 5 / 2, 5 / 2, 5 / 2] := by decide +kernel

/-- The images of this network alone. -/
theorem joined_reads (i : Nat) (h : Reads joined i) : i = 0 := by
  obtain ⟨nd, n1, n2, c, c1, c2, rfl⟩ := h
  simp only [joined, List.mem_cons, List.not_mem_nil, or_false] at n1
  rcases n1 with rfl | rfl | rfl | rfl | rfl | rfl
  all_goals
    simp only [List.mem_cons, List.not_mem_nil, or_false] at c1
    first
    | (subst c1; first | rfl | cases c2)
    | (rcases c1 with rfl | rfl <;> cases c2)
    | exact absurd rfl (n2 1)

/-- The output of this network for any image of two pixels in any two batches. -/
example (n n' s s' : Nat) (hs : s < n) (hs' : s' < n') (d l e g d' l' e' g' t : Tensor ℚ) (memory memory' : Nat → Nat → ℚ)
    (h1 : d.Is n 2 1 1) (h2 : l.Is n 2 1 2) (h3 : e.Is n 2 1 2) (h4 : g.Is n 2 1 1)
    (h1' : d'.Is n' 2 1 1) (h2' : l'.Is n' 2 1 2) (h3' : e'.Is n' 2 1 2) (h4' : g'.Is n' 2 1 1)
    (hp : SamePicture s s' d d') (ht : predict plainEnv ⟨true, memory⟩ joined [d, l, e, g] = .done t) :
    ∃ t', predict plainEnv ⟨true, memory'⟩ joined [d', l', e', g'] = .done t' ∧ SamePicture s s' t t' := by
  have same : ∀ {m : Nat} {a b : Tensor ℚ}, a.Is n 2 1 m → b.Is n' 2 1 m → SameSize n n' a b :=
    fun h k => ⟨⟨h.2.2.2.2, k.2.2.2.2⟩, ⟨h.1, k.1⟩, h.2.1.trans k.2.1.symm, h.2.2.1.trans k.2.2.1.symm,
      h.2.2.2.1.trans k.2.2.2.1.symm⟩
  obtain ⟨_, _, -, -, -, h⟩ := C91_batch_partial plainEnv true joined [d, l, e, g] [d', l', e', g'] n n' s s' hs hs'
    ⟨true, memory⟩ ⟨true, memory'⟩ rfl rfl
    (.cons (same h1 h1') (.cons (same h2 h2') (.cons (same h3 h3') (.cons (same h4 h4') .nil))))
    (by
      intro i a b hi ha hb
      obtain rfl := joined_reads i hi
      cases ha
      cases hb
      exact hp)
    (by
      simp only [List.map_cons, List.map_nil, shape_of_is h1, shape_of_is h2, shape_of_is h3, shape_of_is h4]
      exact joined_suitable n)
  exact h t ht

/-! ### A test with a network -/

/-- Two scores for each pixel, with a loss layer. -/
def scorer : List (NewNode ℚ) := [⟨.conv ⟨2, 1, 1, 1, 1, 0, 0, 1⟩ 0 0 1, [⟨0, 0, true⟩], false⟩,
  ⟨.relu, [⟨1, 0, true⟩], true⟩, ⟨.error 1, [⟨2, 0, true⟩, ⟨0, 1, true⟩, ⟨0, 3, true⟩], false⟩]

def scoreEnv : Env ℚ := ⟨fun v => v, fun a _ => a, -1000,
  fun _ => ⟨⟨2, 1, 1, 2, [1, 1, 0, 2]⟩, ⟨1, 2, 1, 1, [0, 1]⟩⟩, fun _ => (0, 0)⟩

theorem scorer_conv (n : Nat) :
    (Layer.conv ⟨2, 1, 1, 1, 1, 0, 0, 1⟩ 0 (0 : ℚ) 1).outputs [⟨n, 2, 2, 2⟩] = .done [⟨n, 2, 2, 2⟩] := by
  have e : Convolution.initialise ⟨2, 1, 1, 1, 1, 0, 0, 1⟩ 2 2 2 = .done (some (2, 2)) := by decide +kernel
  unfold Layer.outputs
  simp only [e, Outcome.bind_done]

theorem scorer_scores (n : Nat) : Scores scoreEnv scorer n 2 2 2 2 where
  images := by
    rintro i ⟨nd, n1, n2, c, c1, c2, rfl⟩
    simp only [scorer, List.mem_cons, List.not_mem_nil, or_false] at n1
    rcases n1 with rfl | rfl | rfl
    · simp only [List.mem_cons, List.not_mem_nil, or_false] at c1
      subst c1
      rfl
    · simp only [List.mem_cons, List.not_mem_nil, or_false] at c1
      subst c1
      cases c2
    · exact absurd rfl (n2 1)
  suitable := by
    refine ⟨[⟨n, 2, 2, 2⟩], [⟨n, 2, 2, 2⟩], rfl, scorer_conv n,
      ⟨⟨rfl, rfl, rfl, (Nat.div_one _).symm, rfl⟩, ⟨rfl, rfl, rfl, rfl, rfl⟩, by decide, Or.inl rfl⟩,
      [⟨n, 2, 2, 2⟩], [⟨n, 2, 2, 2⟩], rfl, rfl, trivial,
      [⟨n, 2, 2, 2⟩, ⟨n, 2, 2, 2⟩, ⟨n, 2, 2, 1⟩], [], rfl, ?_, trivial, trivial⟩
    unfold Layer.outputs ErrorLayer.accepts
    simp
  output := by
    refine ⟨[[⟨n, 2, 2, 2⟩], [⟨n, 2, 2, 2⟩], []], ?_, rfl⟩
    have e : (Layer.error (1 : ℚ)).outputs [⟨n, 2, 2, 2⟩, ⟨n, 2, 2, 2⟩, ⟨n, 2, 2, 1⟩] = .done [] := by
      unfold Layer.outputs ErrorLayer.accepts
      simp
    have e1 := scorer_conv n
    have e2 : (Layer.relu : NetConfig.Layer ℚ).outputs [⟨n, 2, 2, 2⟩] = .done [⟨n, 2, 2, 2⟩] := rfl
    simp [scorer, shapes, sources, source, Outcome.ofOption, e, e1, e2]

/-- The assumptions of the theorems about the testing set hold for these images in batches of any size. -/
theorem scorer_tested (batch : Nat) (hb : 0 < batch) :
    Tested scoreEnv scorer batch (-1000 : ℚ) (fun _ _ _ _ => 1) TestSet.threeImages where
  fits := TestSet.three_fits
  positive := hb
  some_image := by decide
  zero := by decide +kernel
  net := scorer_scores batch
  scores := by
    intro j image hj x y c hx hy hc
    have key : ∀ i ∈ TestSet.threeImages.testing, ∀ x : Fin 2, ∀ y : Fin 2, ∀ c : Fin 2,
        (-1000 : ℚ) ≤ alone scoreEnv scorer 2 2 2 2 (TestSet.padded i) x y c := by decide +kernel
    exact key image (List.mem_of_getElem? hj) ⟨x, hx⟩ ⟨y, hy⟩ ⟨c, hc⟩
  weights := by decide +kernel
  error := fun _ _ _ _ => by decide +kernel

/-- The session of C89 with this network instead. -/
def scoreMachine (batch : Nat) : Rates.Machine ℚ (Sampling.State ℚ Unit) (Outputs ℚ) (ConfusionMatrix.State ℚ) :=
  { TestSet.imageMachine false batch with
    predict := fun _ _ o => (match predict scoreEnv ⟨true, fun _ _ => 5⟩ scorer [o.data, o.label, o.helper, o.error] with
      | .done t => t
      | _ => o.data, o.label, o.error) }

/-- The rates in batches of two and of three. -/
example : TestSet.lastRates (Rates.run (scoreMachine 2) [.test] (TestSet.imageState 2)) =
      TestSet.lastRates (Rates.run (scoreMachine 3) [.train 1 true, .test] (TestSet.imageState 3)) ∧
    (TestSet.lastRates (Rates.run (scoreMachine 2) [.test] (TestSet.imageState 2))).isSome := by decide +kernel

theorem score_predicts (batch : Nat) (hb : 0 < batch) (w : Session.Weights ℚ) :
    Predicts scoreEnv scorer TestSet.threeImages batch ((scoreMachine batch).predict true w) := by
  intro o ho
  have is : ∀ {m : Nat} {t : Tensor ℚ}, Sh (⟨batch, 2, 2, m, []⟩ : Tensor ℚ) t ∧ t.WF → t.Is batch 2 2 m :=
    fun h => ⟨h.1.1.symm, h.1.2.1.symm, h.1.2.2.1.symm, h.1.2.2.2.symm, h.2⟩
  obtain ⟨t, -, h1, -⟩ := (scorer_scores batch).run hb hb (mode := ⟨true, fun _ _ => 5⟩) (mode' := ⟨true, fun _ _ => 5⟩) rfl rfl
    (is ho.data) (is ho.label) (is ho.helper) (is ho.error) (is ho.data) (is ho.label) (is ho.helper) (is ho.error)
    (fun _ _ _ _ _ _ => rfl)
  refine ⟨_, t, h1, ?_⟩
  unfold scoreMachine
  dsimp only
  rw [h1]

theorem score_ready (batch : Nat) :
    Rates.Ready (scoreMachine batch) (Rates.unused 2) (Rates.unused 2) (TestSet.imageState batch) :=
  ⟨⟨rfl, (Rates.pixel_ready false).registered.distinct, (Rates.pixel_ready false).registered.descs⟩, rfl, rfl, rfl, rfl,
    (Rates.pixel_ready false).null⟩

/-- The rates of this network do not depend on the size of the batches, nor on what was done before. -/
example (batch batch' : Nat) (hb : 0 < batch) (hb' : 0 < batch') (cs cs' : List (Session.Command ℚ))
    (st st1 st' st1' : Rates.State ℚ (Sampling.State ℚ Unit) (ConfusionMatrix.State ℚ))
    (hrun : Rates.run (scoreMachine batch) cs (TestSet.imageState batch) = .done st)
    (hd : Rates.exec (scoreMachine batch) .test st = .done st1)
    (hrun' : Rates.run (scoreMachine batch') cs' (TestSet.imageState batch') = .done st')
    (hd' : Rates.exec (scoreMachine batch') .test st' = .done st1') :
    ∃ hard hard' outs outs',
      st1.base.agg.sinks = st.base.agg.sinks.map (· ++ [.process hard outs]) ∧
      st1'.base.agg.sinks = st'.base.agg.sinks.map (· ++ [.process hard' outs']) ∧
      outs[1]? = outs'[1]? ∧ outs[2]? = outs'[2]? ∧ outs[3]? = outs'[3]? :=
  have small : ∀ n, TestSet.threeImages.testing.length / 2 / n + 1 < 2 ^ 24 := fun n => by
    have : TestSet.threeImages.testing.length / 2 / n ≤ 3 := Nat.div_le_self 3 n
    omega
  C91_batch_size_partial (scoreMachine batch) (scoreMachine batch') TestSet.still TestSet.still 1 1 (fun _ => scoreEnv)
    (fun _ => scoreEnv) scorer batch batch' rfl rfl rfl rfl (small _) (small _) 1 4 1 4 rfl rfl rfl rfl rfl rfl cs cs'
    (TestSet.imageState batch) st st1 (TestSet.imageState batch') st' st1' (score_ready batch) (score_ready batch') rfl
    (TestSet.blank_fits batch) rfl (TestSet.blank_fits batch') hrun hd hrun' hd' rfl (scorer_tested batch hb)
    (scorer_tested batch' hb') (score_predicts batch hb _) (score_predicts batch' hb' _)

/-- A description that is accepted, with a spatial prior and a loss layer. -/
def priorLines : List Config.Str := ["method=fcn".toList, "?convolutional size=1x1 kernels=2".toList, "?spatialprior".toList,
  "?fullyconnected neurons=(o)".toList, "?output".toList]

/-- The connections of the nodes: node and buffer. -/
def connections : Outcome (List (NewNode ℚ)) → Option (List (List (Nat × Nat)))
  | .done ns => some (ns.map fun n => n.inputs.map fun c => (c.node, c.buffer))
  | _ => none

/-- The join reads the helper images; only the loss layer, the last, reads labels and weights. -/
example : connections (nodesOf (fun _ => (1 : ℚ)) priorLines true 2 true) =
    some [[(0, 0)], [(1, 0), (0, 2)], [(2, 0)], [(3, 0)], [(4, 0), (0, 1), (0, 3)]] := by decide +kernel

end CN24.NetBatch
