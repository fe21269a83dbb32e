import Verif.Spec.TestSet
import Verif.Props.Sampling
import Verif.Props.Rates

/-! The batches of a test hold the testing images in order. -/

namespace CN24.TestSet
open CN24 CN24.Tensor CN24.Sampling CN24.Session CN24.Props

variable {R G τ B σ : Type _}

/-! ### What does not change about the source during a session -/

/-- A property of the source, for each of its two modes. -/
structure Kept (S : Source τ B) (Inv : Bool → τ → Prop) : Prop where
  set : ∀ a b t, Inv a t → Inv b (S.setTesting b t)
  forward : ∀ b t x t', Inv b t → S.forward t = .done (x, t') → Inv b t'

section
variable [Field R] [LinearOrder R]

theorem report_src {m : Session.Machine R τ B} {v : R} {st st' : Session.State R τ} (h : report m v st = .done st') :
    st'.src = st.src ∧ st'.testSrc = st.testSrc := by
  unfold report at h
  obtain ⟨a, -, h2⟩ := bind_eq_done h
  cases h2
  dsimp only
  split
  · exact ⟨rfl, rfl⟩
  · exact ⟨rfl, rfl⟩

theorem iteration_src {m : Session.Machine R τ B} {Inv : Bool → τ → Prop} (hk : Kept m.source Inv) {b : Bool} {i : Nat}
    {st st' : Session.State R τ} (hi : Inv b st.src) (h : Session.iteration m i st = .done st') :
    Inv b st'.src ∧ st'.testSrc = st.testSrc := by
  obtain ⟨x, p1, p2⟩ := bind_eq_done h
  obtain ⟨opt, p3, p4⟩ := bind_eq_done p2
  obtain ⟨e1, e2⟩ := report_src p4
  refine ⟨?_, e2⟩
  rw [e1]
  refine forO_keep (P := fun _ (x : τ × List (List R) × R) => Inv b x.1) ?_ hi p1
  intro k _ y y' hy hp
  obtain ⟨z, q1, q2⟩ := bind_eq_done hp
  obtain ⟨acc, q3, q4⟩ := bind_eq_done q2
  cases q4
  exact hk.forward b y.1 z.1 z.2 hy q1

theorem updateAll_src {M : Rates.Meter σ R} {s : σ} {st st' : Rates.State R τ σ}
    (h : Rates.updateAll M s st = .done st') : st'.base.src = st.base.src ∧ st'.base.testSrc = st.base.testSrc := by
  obtain ⟨x, p1, p2⟩ := bind_eq_done h
  obtain ⟨y, p3, p4⟩ := bind_eq_done p2
  cases p4
  exact ⟨rfl, rfl⟩

theorem resetLayers_src {m : Rates.Machine R τ B σ} {b : Bool} {st st' : Rates.State R τ σ}
    (h : Rates.resetLayers m b st = .done st') : st'.base = st.base := by
  unfold Rates.resetLayers at h
  split at h
  · obtain ⟨x, p1, p2⟩ := bind_eq_done h
    obtain ⟨y, p3, p4⟩ := bind_eq_done p2
    cases p4
    rfl
  · cases h
    rfl

theorem epoch_src {m : Rates.Machine R τ B σ} {Inv : Bool → τ → Prop} (hk : Kept m.source Inv) {b : Bool}
    {st st' : Rates.State R τ σ} (hi : Inv b st.base.src) (h : Rates.epoch m st = .done st') :
    Inv false st'.base.src ∧ st'.base.testSrc = st.base.testSrc := by
  obtain ⟨s1, p1, p2⟩ := bind_eq_done h
  obtain ⟨s2, p3, p4⟩ := bind_eq_done p2
  cases p4
  have key : Inv false s1.base.src ∧ s1.base.testSrc = st.base.testSrc := by
    refine forO_keep (P := fun _ (x : Rates.State R τ σ) => Inv false x.base.src ∧ x.base.testSrc = st.base.testSrc)
      ?_ (by exact ⟨hk.set b false _ hi, rfl⟩) p1
    intro k _ y y' hy hp
    obtain ⟨z, q1, q2⟩ := bind_eq_done hp
    obtain ⟨base, q3, q4⟩ := bind_eq_done q2
    cases q4
    obtain ⟨g1, g2⟩ := iteration_src hk hy.1 q3
    exact ⟨g1, g2.trans hy.2⟩
  split at p3
  · obtain ⟨e1, e2⟩ := updateAll_src p3
    exact ⟨by rw [e1]; exact key.1, e2.trans key.2⟩
  · cases p3
    exact key

theorem snapshot_src {m : Rates.Machine R τ B σ} {st st' : Rates.State R τ σ} (h : Rates.snapshot m st = .done st') :
    st'.base.src = st.base.src ∧ st'.base.testSrc = st.base.testSrc := by
  obtain ⟨x, p1, p2⟩ := bind_eq_done h
  rw [resetLayers_src p2]
  obtain ⟨y, p3, p4⟩ := bind_eq_done p1
  cases p4
  exact ⟨rfl, rfl⟩

theorem train_src {m : Rates.Machine R τ B σ} {Inv : Bool → τ → Prop} (hk : Kept m.source Inv) {n : Nat} {b : Bool}
    {st st' : Rates.State R τ σ} (hi : Inv false st.base.src) (h : Rates.train m n b st = .done st') :
    Inv false st'.base.src ∧ st'.base.testSrc = st.base.testSrc := by
  obtain ⟨s1, p1, p2⟩ := bind_eq_done h
  cases p2
  show Inv false s1.base.src ∧ s1.base.testSrc = st.base.testSrc
  refine forO_keep (s' := s1) (P := fun _ (x : Rates.State R τ σ) => Inv false x.base.src ∧
    x.base.testSrc = st.base.testSrc) ?_ (by exact ⟨hi, rfl⟩) p1
  intro k _ y y' hy hp
  obtain ⟨z, q1, q2⟩ := bind_eq_done hp
  obtain ⟨g1, g2⟩ := epoch_src hk hy.1 q1
  split at q2
  · obtain ⟨w, q3, q4⟩ := bind_eq_done q2
    cases q4
    obtain ⟨e1, e2⟩ := snapshot_src q3
    exact ⟨by show Inv false w.base.src; rw [e1]; exact g1, e2.trans (g2.trans hy.2)⟩
  · cases q2
    exact ⟨g1, g2.trans hy.2⟩

theorem test_src {m : Rates.Machine R τ B σ} {Inv TInv : Bool → τ → Prop} (hk : Kept m.source Inv)
    (ht : Kept m.testSource TInv)
    {st st' : Rates.State R τ σ} (hi : Inv false st.base.src) (hti : TInv false st.base.testSrc)
    (h : Rates.test m st = .done st') : Inv false st'.base.src ∧ TInv false st'.base.testSrc := by
  unfold Rates.test at h
  dsimp only at h
  split at h
  · obtain ⟨s1, p1, p2⟩ := bind_eq_done h
    obtain ⟨s2, p3, p4⟩ := bind_eq_done p2
    cases p4
    obtain ⟨e1, e2⟩ := updateAll_src p3
    have key : Inv false s1.base.src ∧ TInv true s1.base.testSrc := by
      refine forO_keep (P := fun _ (x : Rates.State R τ σ) => Inv false x.base.src ∧ TInv true x.base.testSrc)
        ?_ (by exact ⟨hi, ht.set false true _ hti⟩) p1
      intro k _ y y' hy hp
      obtain ⟨z, q1, q2⟩ := bind_eq_done hp
      obtain ⟨c, q3, q4⟩ := bind_eq_done q2
      obtain ⟨base, q5, q6⟩ := bind_eq_done q4
      cases q6
      obtain ⟨z', r1, r2⟩ := bind_eq_done q5
      obtain ⟨f1, f2⟩ := report_src r2
      refine ⟨?_, ?_⟩
      · show Inv false base.src
        rw [f1]
        exact hy.1
      · show TInv true base.testSrc
        rw [f2]
        exact ht.forward true _ _ _ hy.2 r1
    refine ⟨?_, ?_⟩
    · show Inv false s2.base.src
      rw [e1]
      exact key.1
    · show TInv false (m.testSource.setTesting false s2.base.testSrc)
      rw [e2]
      exact ht.set true false _ key.2
  · obtain ⟨s1, p1, p2⟩ := bind_eq_done h
    obtain ⟨s2, p3, p4⟩ := bind_eq_done p2
    cases p4
    obtain ⟨e1, e2⟩ := updateAll_src p3
    have key : Inv true s1.base.src ∧ TInv false s1.base.testSrc := by
      refine forO_keep (P := fun _ (x : Rates.State R τ σ) => Inv true x.base.src ∧ TInv false x.base.testSrc)
        ?_ (by exact ⟨hk.set false true _ hi, hti⟩) p1
      intro k _ y y' hy hp
      obtain ⟨z, q1, q2⟩ := bind_eq_done hp
      obtain ⟨c, q3, q4⟩ := bind_eq_done q2
      obtain ⟨base, q5, q6⟩ := bind_eq_done q4
      cases q6
      obtain ⟨z', r1, r2⟩ := bind_eq_done q5
      obtain ⟨f1, f2⟩ := report_src r2
      refine ⟨?_, ?_⟩
      · show Inv true base.src
        rw [f1]
        exact hk.forward true _ _ _ hy.1 r1
      · show TInv false base.testSrc
        rw [f2]
        exact hy.2
    refine ⟨?_, ?_⟩
    · show Inv false (m.source.setTesting false s2.base.src)
      rw [e1]
      exact hk.set true false _ key.1
    · show TInv false s2.base.testSrc
      rw [e2]
      exact key.2

theorem finish_src {m : Rates.Machine R τ B σ} {b : Bool} {st st' : Rates.State R τ σ}
    (h : Rates.finish m b st = .done st') : st'.base.src = st.base.src ∧ st'.base.testSrc = st.base.testSrc := by
  obtain ⟨x, p1, p2⟩ := bind_eq_done h
  obtain ⟨y, p3, p4⟩ := bind_eq_done p2
  rw [resetLayers_src p4]
  obtain ⟨z, q1, q2⟩ := bind_eq_done p3
  cases q2
  unfold generateIf at p1
  split at p1
  · obtain ⟨z, q3, q4⟩ := bind_eq_done p1
    cases q4
    exact ⟨rfl, rfl⟩
  · cases p1
    exact ⟨rfl, rfl⟩

theorem syncEpoch_src (m : Session.Machine R τ B) (st : Session.State R τ) :
    (syncEpoch m st).src = st.src ∧ (syncEpoch m st).testSrc = st.testSrc := by
  unfold syncEpoch
  split
  · exact ⟨rfl, rfl⟩
  · exact ⟨rfl, rfl⟩

theorem exec_src {m : Rates.Machine R τ B σ} {Inv TInv : Bool → τ → Prop} (hk : Kept m.source Inv)
    (ht : Kept m.testSource TInv) {c : Command R}
    {st st' : Rates.State R τ σ} (hi : Inv false st.base.src) (hti : TInv false st.base.testSrc)
    (h : Rates.exec m c st = .done st') : Inv false st'.base.src ∧ TInv false st'.base.testSrc := by
  cases c with
  | train n b =>
    obtain ⟨s1, p1, p2⟩ := bind_eq_done h
    obtain ⟨e1, e2⟩ := finish_src p2
    obtain ⟨g1, g2⟩ := train_src hk (by exact hi) p1
    rw [e1, e2]
    dsimp only
    rw [(syncEpoch_src _ _).1, (syncEpoch_src _ _).2, g2]
    exact ⟨g1, hti⟩
  | test =>
    obtain ⟨s1, p1, p2⟩ := bind_eq_done h
    obtain ⟨e1, e2⟩ := finish_src p2
    rw [e1, e2]
    refine test_src hk ht ?_ ?_ p1
    · show Inv false (syncEpoch m.toMachine (startRecording m.toMachine st.base)).src
      rw [(syncEpoch_src _ _).1]
      exact hi
    · show TInv false (syncEpoch m.toMachine (startRecording m.toMachine st.base)).testSrc
      rw [(syncEpoch_src _ _).2]
      exact hti
  | setEpoch e =>
    unfold Rates.exec at h
    obtain ⟨s1, p1, p2⟩ := bind_eq_done h
    cases p2
    cases p1
    dsimp only
    rw [(syncEpoch_src _ _).1, (syncEpoch_src _ _).2]
    exact ⟨hi, hti⟩
  | reset w =>
    unfold Rates.exec at h
    obtain ⟨s1, p1, p2⟩ := bind_eq_done h
    cases p2
    cases p1
    exact ⟨hi, hti⟩
  | load w =>
    unfold Rates.exec at h
    obtain ⟨s1, p1, p2⟩ := bind_eq_done h
    cases p2
    cases p1
    exact ⟨hi, hti⟩

theorem run_src {m : Rates.Machine R τ B σ} {Inv TInv : Bool → τ → Prop} (hk : Kept m.source Inv)
    (ht : Kept m.testSource TInv) : ∀ {cs : List (Command R)} {st st' : Rates.State R τ σ}, Inv false st.base.src →
      TInv false st.base.testSrc → Rates.run m cs st = .done st' → Inv false st'.base.src ∧ TInv false st'.base.testSrc
  | [], st, st', hi, hti, h => by cases h; exact ⟨hi, hti⟩
  | c :: cs, st, st', hi, hti, h => by
    obtain ⟨s1, p1, p2⟩ := bind_eq_done h
    obtain ⟨g1, g2⟩ := exec_src hk ht hi hti p1
    exact run_src hk ht g1 g2 p2

/-- Nothing is known about the source. -/
theorem kept_true (S : Source τ B) : Kept S fun _ _ => True := ⟨fun _ _ _ _ => trivial, fun _ _ _ _ _ _ => trivial⟩

end

/-! ### The input layer with a tensor stream dataset -/

section
variable [Field R] [LinearOrder R]

/-- The pairs of a dataset fit. -/
structure Fits (lowest : R) (ds : TensorStreamDataset.Dataset R) : Prop where
  training : ∀ i, i < ds.training.length / 2 → ∃ image label, ds.training[2 * i]? = some image ∧
    ds.training[2 * i + 1]? = some label ∧ PairFits ds lowest image label
  testing : ∀ i, i < ds.testing.length / 2 → ∃ image label, ds.testing[2 * i]? = some image ∧
    ds.testing[2 * i + 1]? = some label ∧ PairFits ds lowest image label
  even : ds.training.length % 2 = 0 ∧ ds.testing.length % 2 = 0

theorem select_mode {rnd : Random R G} {ds : Data R} {st : Sampling.State R G} {x : Nat × Bool × Sampling.State R G}
    (h : select rnd ds st = some x) : x.2.2.testing = st.testing ∧ x.2.2.outs = st.outs := by
  unfold select at h
  split at h
  · split at h
    · cases h
      exact ⟨rfl, rfl⟩
    · cases h
      exact ⟨rfl, rfl⟩
  · obtain ⟨e, -, h2⟩ := Option.map_eq_some_iff.1 h
    dsimp only at h2
    split at h2
    · cases h2
      exact ⟨rfl, rfl⟩
    · cases h2
      exact ⟨rfl, rfl⟩

theorem fetched_fits {lowest : R} {ef : Nat → Nat → Nat → Nat → R} {ds : TensorStreamDataset.Dataset R} {batch : Nat}
    (hf : Fits lowest ds) {testing : Bool} {o : Outputs R} {s i : Nat} {o' : Outputs R} (hs : s < batch)
    (ho : OutputsFit ds batch o)
    (h : (if testing then (ofTensorStream lowest ef ds).getTesting o s i
      else (ofTensorStream lowest ef ds).getTraining o s i) = some (true, o')) : OutputsFit ds batch o' := by
  cases testing with
  | true =>
    rw [if_pos rfl] at h
    by_cases hi : i < ds.testing.length / 2
    · obtain ⟨image, label, k1, k2, k3⟩ := hf.testing i hi
      obtain ⟨o1, e1, e2, -⟩ := C30_testing_sample lowest ef ds batch o ho s i hs image label k1 k2 k3
      rw [show (ofTensorStream lowest ef ds).getTesting o s i = some (true, o1) from e1] at h
      cases h
      exact e2
    · have := (C30_out_of_range lowest ef ds o s i).2 (by have := hf.even.2; omega)
      rw [show (ofTensorStream lowest ef ds).getTesting o s i = some (false, o) from this] at h
      cases h
  | false =>
    rw [if_neg (by simp)] at h
    by_cases hi : i < ds.training.length / 2
    · obtain ⟨image, label, k1, k2, k3⟩ := hf.training i hi
      obtain ⟨o1, e1, e2, -⟩ := C30_training_sample lowest ef ds batch o ho s i hs image label k1 k2 k3
      rw [show (ofTensorStream lowest ef ds).getTraining o s i = some (true, o1) from e1] at h
      cases h
      exact e2
    · have := (C30_out_of_range lowest ef ds o s i).1 (by have := hf.even.1; omega)
      rw [show (ofTensorStream lowest ef ds).getTraining o s i = some (false, o) from this] at h
      cases h

theorem setError_fits {ds : TensorStreamDataset.Dataset R} {batch : Nat} {o : Outputs R} {e : Tensor R}
    (h : OutputsFit ds batch o) (hw : e.WF) (hs : Sh o.error e) : OutputsFit ds batch { o with error := e } :=
  ⟨h.data, h.label, h.helper, h.error.1.trans hs, hw⟩

theorem fillPosition_fits {rnd : Random R G} {p lowest : R} {ef : Nat → Nat → Nat → Nat → R}
    {ds : TensorStreamDataset.Dataset R} {batch : Nat} (hf : Fits lowest ds) {s : Nat} (hs : s < batch)
    {st st' : Sampling.State R G} (ho : OutputsFit ds batch st.outs)
    (h : fillPosition rnd p (ofTensorStream lowest ef ds) s st = .done st') :
    OutputsFit ds batch st'.outs ∧ st'.testing = st.testing := by
  obtain ⟨sel, p1, p2⟩ := bind_eq_done h
  obtain ⟨e1, e2⟩ := select_mode (Outcome.ofOption_eq_done.1 p1)
  obtain ⟨r, p3, p4⟩ := bind_eq_done p2
  dsimp only at p3 p4
  have hr := Outcome.ofOption_eq_done.1 p3
  rw [e2] at hr
  obtain ⟨ok, o⟩ := r
  cases ok with
  | false => cases p4
  | true =>
    have g := fetched_fits hf hs ho hr
    rw [if_neg (by simp)] at p4
    obtain ⟨s1, p5, p6⟩ := bind_eq_done p4
    have key : OutputsFit ds batch s1.outs ∧ s1.testing = st.testing := by
      split at p5
      · obtain ⟨l, q1, q2⟩ := Option.map_eq_some_iff.1 (Outcome.ofOption_eq_done.1 p5)
        subst q2
        have g' := g.error.1
        obtain ⟨u, l1, l2⟩ := lossSampling_spec rnd p (sample := s) sel.2.2.gen (t := o.error) g.error.2
          (by have := g'.1; dsimp only at this; omega) (by have := g'.2.2.2; dsimp only at this; omega)
        rw [l1] at q1
        cases q1
        exact ⟨setError_fits g l2.wf l2.sh, e1⟩
      · cases p5
        exact ⟨g, e1⟩
    split at p6
    · obtain ⟨u, q1, q2⟩ := Option.map_eq_some_iff.1 (Outcome.ofOption_eq_done.1 p6)
      subst q2
      obtain ⟨u', c1, c2⟩ := upd_clear_sample key.1.error.2 (0 : R)
        (show s < s1.outs.error.samples by have := key.1.error.1.1; dsimp only at this; omega)
      rw [c1] at q1
      cases q1
      exact ⟨setError_fits key.1 c2.wf c2.sh, key.2⟩
    · cases p6
      exact key

/-- The output tensors of the layer keep their shapes and its mode is what it was set to. -/
theorem kept_layer (rnd : Random R G) (p lowest : R) (ef : Nat → Nat → Nat → Nat → R)
    (ds : TensorStreamDataset.Dataset R) (batch : Nat) (hf : Fits lowest ds) :
    Kept (layerSource rnd p (ofTensorStream lowest ef ds) batch)
      (fun b (t : Sampling.State R G) => t.testing = b ∧ OutputsFit ds batch t.outs) where
  set := fun a b t h => ⟨rfl, h.2⟩
  forward := by
    intro b t x t' h hd
    obtain ⟨t1, p1, p2⟩ := bind_eq_done hd
    cases p2
    refine forO_keep (P := fun _ (t : Sampling.State R G) => t.testing = b ∧ OutputsFit ds batch t.outs) ?_ h p1
    intro k hk y y' hy hp
    obtain ⟨g1, g2⟩ := fillPosition_fits hf hk hy.2 hp
    exact ⟨g2.trans hy.1, g1⟩

/-- Position `s` of the outputs holds an image and its label. -/
structure Shown (ef : Nat → Nat → Nat → Nat → R) (ds : TensorStreamDataset.Dataset R) (image lab : Tensor R) (s : Nat)
    (o : Outputs R) : Prop where
  data : ∀ x y m, o.data.InRange x y m s → o.data.get x y m s =
    if x < image.width ∧ y < image.height then image.get x y m 0 else some 0
  label : ∀ x y m, o.label.InRange x y m s → o.label.get x y m s =
    if x < image.width ∧ y < image.height then lab.get x y m 0 else some 0
  padding : ∀ x y, o.error.InRange x y 0 s → ¬ (x < image.width ∧ y < image.height) → o.error.get x y 0 s = some 0
  inside : ∀ x y, x < image.width → y < image.height → ∃ k cw best, k < lab.maps ∧ ds.classWeights[k]? = some cw ∧
    lab.get x y k 0 = some best ∧
    (∀ c v, c < lab.maps → lab.get x y c 0 = some v → v ≤ best ∧ (c < k → v < best)) ∧
    o.error.get x y 0 s = some (ef x y image.width image.height * cw)

/-- Position `s` of the outputs holds testing image number `j` with its label, or nothing that counts. -/
def AtPos (ef : Nat → Nat → Nat → Nat → R) (ds : TensorStreamDataset.Dataset R) (j s : Nat) (o : Outputs R) : Prop :=
  (∃ i image lab, i < ds.testing.length / 2 ∧ ds.testing[2 * i]? = some image ∧ ds.testing[2 * i + 1]? = some lab ∧
    (∀ x y m, o.data.InRange x y m s → o.data.get x y m s =
      if x < image.width ∧ y < image.height then image.get x y m 0 else some 0) ∧
    ∀ x y m, o.label.InRange x y m s → o.label.get x y m s =
      if x < image.width ∧ y < image.height then lab.get x y m 0 else some 0) ∧
  if j < ds.testing.length / 2 then ∃ image label, ds.testing[2 * j]? = some image ∧
    ds.testing[2 * j + 1]? = some label ∧ Shown ef ds image label s o
  else ∀ x y, o.error.InRange x y 0 s → o.error.get x y 0 s = some 0

/-- The other positions. -/
def Elsewhere (s : Nat) (o o' : Outputs R) : Prop :=
  (∀ x y m k, o.data.InRange x y m k → k ≠ s → o'.data.get x y m k = o.data.get x y m k) ∧
  (∀ x y m k, o.label.InRange x y m k → k ≠ s → o'.label.get x y m k = o.label.get x y m k) ∧
  ∀ x y k, o.error.InRange x y 0 k → k ≠ s → o'.error.get x y 0 k = o.error.get x y 0 k

theorem AtPos.other {lowest : R} {ef : Nat → Nat → Nat → Nat → R} {ds : TensorStreamDataset.Dataset R}
    (hf : Fits lowest ds) {batch j s i : Nat}
    {o o' : Outputs R} (h : AtPos ef ds j s o) (h1 : OutputsFit ds batch o) (h2 : OutputsFit ds batch o')
    (he : Elsewhere i o o') (hi : s ≠ i) (hs : s < batch) : AtPos ef ds j s o' := by
  have sd : Sh o.data o'.data := (Sh.symm h1.data.1).trans h2.data.1
  have sl : Sh o.label o'.label := (Sh.symm h1.label.1).trans h2.label.1
  have se : Sh o.error o'.error := (Sh.symm h1.error.1).trans h2.error.1
  obtain ⟨⟨i', image, lab, l1, l2, l3, l5, l4⟩, h⟩ := h
  refine ⟨⟨i', image, lab, l1, l2, l3, fun x y m hin => ?_, fun x y m hin => ?_⟩, ?_⟩
  · have hin' := sd.inRange.1 hin
    rw [he.1 x y m s hin' hi, l5 x y m hin']
  · have hin' := sl.inRange.1 hin
    rw [he.2.1 x y m s hin' hi, l4 x y m hin']
  split
  · rename_i hj
    rw [if_pos hj] at h
    obtain ⟨image, label, k1, k2, k3⟩ := h
    obtain ⟨image', label', k1', k2', k4⟩ := hf.testing j hj
    rw [k1] at k1'
    cases k1'
    refine ⟨image, label, k1, k2, ?_, ?_, ?_, ?_⟩
    · intro x y m hin
      have hin' := sd.inRange.1 hin
      rw [he.1 x y m s hin' hi, k3.data x y m hin']
    · intro x y m hin
      have hin' := sl.inRange.1 hin
      rw [he.2.1 x y m s hin' hi, k3.label x y m hin']
    · intro x y hin hn
      have hin' := se.inRange.1 hin
      rw [he.2.2 x y s hin' hi, k3.padding x y hin' hn]
    · intro x y hx hy
      obtain ⟨k, cw, best, a1, a2, a3, a4, a5⟩ := k3.inside x y hx hy
      refine ⟨k, cw, best, a1, a2, a3, a4, ?_⟩
      rw [he.2.2 x y s ?_ hi, a5]
      obtain ⟨⟨b1, b2, b3, b4⟩, -⟩ := h1.error
      dsimp only at b1 b2 b3 b4
      have := k4.width
      have := k4.height
      exact ⟨by omega, by omega, by omega, by omega⟩
  · rename_i hj
    rw [if_neg hj] at h
    intro x y hin
    have hin' := se.inRange.1 hin
    rw [he.2.2 x y s hin' hi, h x y hin']

theorem holds_elsewhere {ef : Nat → Nat → Nat → Nat → R} {ds : TensorStreamDataset.Dataset R} {image label : Tensor R}
    {batch s : Nat} {o o' : Outputs R} (h1 : OutputsFit ds batch o) (h2 : OutputsFit ds batch o')
    (h : Holds ef ds image label s o o') : Elsewhere s o o' := by
  have sd : Sh o.data o'.data := (Sh.symm h1.data.1).trans h2.data.1
  have sl : Sh o.label o'.label := (Sh.symm h1.label.1).trans h2.label.1
  have se : Sh o.error o'.error := (Sh.symm h1.error.1).trans h2.error.1
  refine ⟨?_, ?_, ?_⟩
  · intro x y m k hin hk
    rw [h.data x y m k (sd.inRange.2 hin), if_neg hk]
  · intro x y m k hin hk
    rw [h.label x y m k (sl.inRange.2 hin), if_neg hk]
  · intro x y k hin hk
    exact h.others x y k (se.inRange.2 hin) hk

/-- A position of a test. -/
theorem fillPosition_content {rnd : Random R G} {p lowest : R} {ef : Nat → Nat → Nat → Nat → R}
    {ds : TensorStreamDataset.Dataset R} {batch : Nat} (hf : Fits lowest ds) (hn : 0 < ds.testing.length / 2)
    {s : Nat} (hs : s < batch) {st : Sampling.State R G} (ht : st.testing = true) (ho : OutputsFit ds batch st.outs)
    {j : Nat} (hc : st.currentTesting = min j (ds.testing.length / 2)) :
    ∃ st', fillPosition rnd p (ofTensorStream lowest ef ds) s st = .done st' ∧ st'.testing = true ∧
      OutputsFit ds batch st'.outs ∧ st'.currentTesting = min (j + 1) (ds.testing.length / 2) ∧
      AtPos ef ds j s st'.outs ∧ Elsewhere s st.outs st'.outs := by
  by_cases hj : j < ds.testing.length / 2
  · obtain ⟨image, label, k1, k2, k3⟩ := hf.testing j hj
    obtain ⟨o1, e1, e2, e3⟩ := C30_testing_sample lowest ef ds batch st.outs ho s j hs image label k1 k2 k3
    have hcj : st.currentTesting = j := by omega
    refine ⟨{ st with currentTesting := st.currentTesting + 1,
                      requests := st.requests ++ [⟨true, s, st.currentTesting⟩], outs := o1 }, ?_, ht, e2, ?_, ?_, ?_⟩
    · have hlt : ¬ (ofTensorStream lowest ef ds).testing ≤ st.currentTesting := by
        show ¬ ds.testing.length / 2 ≤ _
        omega
      have g : (ofTensorStream lowest ef ds).getTesting st.outs s st.currentTesting = some (true, o1) := by
        rw [hcj]; exact e1
      unfold fillPosition select
      simp [ht, hlt, g]
    · show st.currentTesting + 1 = _
      omega
    · have hl : ∀ x y m, o1.label.InRange x y m s → o1.label.get x y m s =
          if x < image.width ∧ y < image.height then label.get x y m 0 else some 0 := by
        intro x y m hin
        rw [e3.label x y m s hin, if_pos rfl]
      have hd : ∀ x y m, o1.data.InRange x y m s → o1.data.get x y m s =
          if x < image.width ∧ y < image.height then image.get x y m 0 else some 0 := by
        intro x y m hin
        rw [e3.data x y m s hin, if_pos rfl]
      refine ⟨⟨j, image, label, hj, k1, k2, hd, hl⟩, ?_⟩
      rw [if_pos hj]
      exact ⟨image, label, k1, k2, hd, hl, e3.padding, e3.inside⟩
    · exact holds_elsewhere ho e2 e3
  · obtain ⟨image, label, k1, k2, k3⟩ := hf.testing 0 hn
    obtain ⟨o1, e1, e2, e3⟩ := C30_testing_sample lowest ef ds batch st.outs ho s 0 hs image label k1 k2 k3
    obtain ⟨u, c1, c2⟩ := upd_clear_sample e2.error.2 (0 : R)
      (show s < o1.error.samples by have := e2.error.1.1; dsimp only at this; omega)
    have f2 := setError_fits e2 c2.wf c2.sh
    obtain ⟨q1, q2, q3⟩ := holds_elsewhere ho e2 e3
    have se : Sh st.outs.error o1.error := (Sh.symm ho.error.1).trans e2.error.1
    refine ⟨{ st with requests := st.requests ++ [⟨true, s, 0⟩],
                      outs := { o1 with error := u } }, ?_, ht, f2, ?_, ?_, q1, q2, ?_⟩
    · have hlt : (ofTensorStream lowest ef ds).testing ≤ st.currentTesting := by
        show ds.testing.length / 2 ≤ _
        omega
      have g : (ofTensorStream lowest ef ds).getTesting st.outs s 0 = some (true, o1) := e1
      unfold fillPosition select
      simp [ht, hlt, g, c1]
    · show st.currentTesting = _
      omega
    · refine ⟨⟨0, image, label, hn, k1, k2, fun x y m hin => ?_, fun x y m hin => ?_⟩, ?_⟩
      · have := e3.data x y m s hin
        rw [if_pos rfl] at this
        exact this
      · have := e3.label x y m s hin
        rw [if_pos rfl] at this
        exact this
      rw [if_neg hj]
      intro x y hin
      exact c2.hit (c2.sh.inRange.1 hin) (if_pos rfl)
    · intro x y k hin hk
      rw [← q3 x y k hin hk]
      exact c2.miss (se.inRange.2 hin) (if_neg hk)

/-- A batch of a test. -/
theorem feedForward_content {rnd : Random R G} {p lowest : R} {ef : Nat → Nat → Nat → Nat → R}
    {ds : TensorStreamDataset.Dataset R} {batch : Nat} (hf : Fits lowest ds) (hn : 0 < ds.testing.length / 2)
    {st : Sampling.State R G} (ht : st.testing = true) (ho : OutputsFit ds batch st.outs)
    {j : Nat} (hc : st.currentTesting = min j (ds.testing.length / 2)) :
    ∃ st', feedForward rnd p (ofTensorStream lowest ef ds) batch st = .done st' ∧ st'.testing = true ∧
      OutputsFit ds batch st'.outs ∧ st'.currentTesting = min (j + batch) (ds.testing.length / 2) ∧
      ∀ s, s < batch → AtPos ef ds (j + s) s st'.outs := by
  refine forO_inv (fun k (u : Sampling.State R G) => u.testing = true ∧ OutputsFit ds batch u.outs ∧
    u.currentTesting = min (j + k) (ds.testing.length / 2) ∧ ∀ s, s < k → AtPos ef ds (j + s) s u.outs)
    ⟨ht, ho, hc, fun s hs => absurd hs (Nat.not_lt_zero s)⟩ ?_
  rintro i u hi ⟨a1, a2, a3, a4⟩
  obtain ⟨u', b1, b2, b3, b4, b5, b6⟩ := fillPosition_content (rnd := rnd) (p := p) (ef := ef) hf hn hi a1 a2 a3
  refine ⟨u', b1, b2, b3, b4, ?_⟩
  intro s hs
  by_cases e : s = i
  · subst e
    exact b5
  · exact (a4 s (by omega)).other hf a2 b3 b6 e (by omega)

/-- The batches of a test. -/
theorem batches_content {rnd : Random R G} {p lowest : R} {ef : Nat → Nat → Nat → Nat → R}
    {ds : TensorStreamDataset.Dataset R} {batch : Nat} (hf : Fits lowest ds) (hn : 0 < ds.testing.length / 2)
    {st : Sampling.State R G} (ht : st.testing = true) (ho : OutputsFit ds batch st.outs)
    (hc : st.currentTesting = 0) (n : Nat) :
    ∃ bs st', batches (layerSource rnd p (ofTensorStream lowest ef ds) batch) n st = .done (bs, st') ∧
      st'.testing = true ∧ OutputsFit ds batch st'.outs ∧
      st'.currentTesting = min (n * batch) (ds.testing.length / 2) ∧ bs.length = n ∧
      ∀ q, q < n → ∃ o, bs[q]? = some o ∧ OutputsFit ds batch o ∧
        ∀ s, s < batch → AtPos ef ds (q * batch + s) s o := by
  induction n with
  | zero => exact ⟨[], st, rfl, ht, ho, by rw [hc]; omega, rfl, fun q hq => absurd hq (Nat.not_lt_zero q)⟩
  | succ n ih =>
    obtain ⟨bs, t, a1, a2, a3, a4, a5, a6⟩ := ih
    obtain ⟨t', b1, b2, b3, b4, b5⟩ := feedForward_content (rnd := rnd) (p := p) (ef := ef) hf hn a2 a3 a4
    refine ⟨bs ++ [t'.outs], t', ?_, b2, b3, by rw [b4, Nat.succ_mul], by rw [List.length_append, a5]; rfl, ?_⟩
    · rw [batches, a1, Outcome.bind_done]
      show ((feedForward rnd p (ofTensorStream lowest ef ds) batch t).bind _).bind _ = _
      rw [b1]
      rfl
    · intro q hq
      by_cases e : q < n
      · obtain ⟨o, g1, g2⟩ := a6 q e
        exact ⟨o, by rw [List.getElem?_append_left (by omega)]; exact g1, g2⟩
      · have e' : q = n := by omega
        subst e'
        exact ⟨t'.outs, by rw [List.getElem?_append_right (by omega), a5]; simp, b3, b5⟩

end
end CN24.TestSet
