import Verif.Proof.Sampling
import Verif.Props.Dataset
import Mathlib.Tactic.Linarith

/-
Property theorems about the dataset input layer: C27 (training epochs), C28 (test runs), C63 (loss
sampling).
-/

namespace CN24.Props
open CN24 CN24.Tensor CN24.Sampling

variable {R G : Type _}

/-- `std::shuffle` permutes. -/
def Shuffles (rnd : Random R G) : Prop := ∀ g l, (rnd.shuffle g l).1.Perm l

/-- The training samples delivered, in order. -/
def trainingSequence (st : State R G) : List Nat :=
  (st.requests.filter (fun r => !r.testing)).map (·.index)

/-! ## C27 -/

section
variable [Zero R] [LT R] [DecidableLT R]

/-- C27: for every history of test runs and batches, the training samples delivered, cut into groups
of the size of the training set, are permutations of the training set; the last, incomplete group has
no repetitions. -/
theorem C27_epochs_are_permutations (rnd : Random R G) (hrnd : Shuffles rnd) (p : R) (ds : Data R)
    (batch : Nat) (seed : G) (outs : Outputs R) (ops : List Op) (st : State R G)
    (h : run rnd p ds batch ops (construct rnd ds seed outs) = .done st) :
    (trainingSequence st).length = batch * trainingBatches false ops ∧
    (∀ k, (k + 1) * ds.training ≤ (trainingSequence st).length →
      (((trainingSequence st).drop (k * ds.training)).take ds.training).Perm
        (List.range ds.training)) ∧
    ((trainingSequence st).drop
      ((trainingSequence st).length / ds.training * ds.training)).Nodup ∧
    ∀ i ∈ trainingSequence st, i < ds.training := by
  obtain ⟨⟨h1, h2, chunks, h3, h4⟩, h5⟩ :=
    run_shuffled hrnd batch ops (construct_shuffled rnd hrnd ds seed outs) h
  have e : trainingSequence st = trained st.requests := rfl
  have hc : ∀ c ∈ chunks, c.length = ds.training := by
    intro c hc
    rw [(h3 c hc).length_eq]; simp
  have hlen : (trained st.requests).length = chunks.length * ds.training + st.current := by
    rw [h4, List.length_append, flatten_length hc, List.length_take, h1.length_eq]
    simp only [List.length_range]
    omega
  rw [e]
  refine ⟨?_, ?_, ?_, ?_⟩
  · rw [h5]
    simp [construct, redoPermutation, trained]
  · intro k hk
    rw [h4]
    by_cases hn : ds.training = 0
    · rw [hn]; simp
    · refine groups_perm h3 _ k ?_
      by_contra hge
      have := Nat.mul_le_mul_right ds.training (show chunks.length + 1 ≤ k + 1 by omega)
      rw [Nat.add_mul] at this
      omega
  · have hd : (trained st.requests).length / ds.training * ds.training =
        chunks.flatten.length := by
      rw [flatten_length hc]
      rcases h2 with h2 | ⟨h2, _⟩
      · congr 1
        rw [hlen, Nat.mul_comm, Nat.mul_add_div (by omega), Nat.div_eq_of_lt h2]; rfl
      · rw [h2]; rfl
    rw [hd, h4, List.drop_left]
    have : st.perm.Nodup := h1.nodup_iff.2 List.nodup_range
    exact this.sublist (List.take_sublist ..)
  · intro i hi
    rw [h4] at hi
    rcases List.mem_append.1 hi with hi | hi
    · obtain ⟨c, hc', hic⟩ := List.mem_flatten.1 hi
      exact List.mem_range.1 ((h3 c hc').mem_iff.1 hic)
    · exact List.mem_range.1 (h1.mem_iff.1 (List.mem_of_mem_take hi))

/-- C27: on a dataset with training and testing samples that delivers every sample in range, every
history is defined. -/
theorem C27_histories_defined (rnd : Random R G) (hrnd : Shuffles rnd) (p : R) (ds : Data R)
    (batch : Nat) (Fit : Outputs R → Prop) (hg : Good ds batch Fit) (h1 : 0 < ds.training)
    (h2 : 0 < ds.testing) (seed : G) (outs : Outputs R) (hf : Fit outs) (ops : List Op) :
    ∃ st, run rnd p ds batch ops (construct rnd ds seed outs) = .done st := by
  obtain ⟨st, h, _⟩ := run_defined hrnd (p := p) hg h1 h2 ops (st := construct rnd ds seed outs) hf
    (construct_shuffled rnd hrnd ds seed outs)
  exact ⟨st, h⟩

end

/-- Non-vacuity: three samples in batches of two with a test run in between; the shuffle rotates. -/
example : (match run (R := Rat) (G := Nat)
      { shuffle := fun g l => (l.rotateLeft 1, g + 1), draw := fun g => (0, g) } 1
      { fcn := true, training := 3, testing := 1, getTraining := fun o _ _ => some (true, o),
        getTesting := fun o _ _ => some (true, o) } 2
      [.forward, .setTesting true, .forward, .setTesting false, .forward, .forward]
      (construct { shuffle := fun g l => (l.rotateLeft 1, g + 1), draw := fun g => (0, g) }
        { fcn := true, training := 3, testing := 1, getTraining := fun o _ _ => some (true, o),
          getTesting := fun o _ _ => some (true, o) } 0
        ⟨⟨2, 1, 1, 1, [0, 0]⟩, ⟨2, 1, 1, 1, [0, 0]⟩, ⟨2, 1, 1, 2, [0, 0, 0, 0]⟩,
          ⟨2, 1, 1, 1, [1, 1]⟩⟩) with
      | .done st => some (trainingSequence st, st.requests.length)
      | _ => none) = some ([1, 2, 0, 2, 0, 1], 8) := by decide +kernel

/-! ## C28 -/

section
variable [Zero R] [LT R] [DecidableLT R]

/-- C28: a test run of `k` batches from training mode delivers the test samples in order, starting
with the first one, and afterwards fills up with sample 0; the weights of positions filled up in the
last batch are zero. -/
theorem C28_test_run (rnd : Random R G) (p : R) (ds : Data R)
    (batch : Nat) (Fit : Outputs R → Prop) (hg : Good ds batch Fit) (hn : 0 < ds.testing)
    (st : State R G) (hf : Fit st.outs) (ht : st.testing = false) (k : Nat) :
    ∃ st', run rnd p ds batch (.setTesting true :: List.replicate k .forward) st = .done st' ∧
      st'.requests = st.requests ++ (List.range (k * batch)).map (fun j =>
        ⟨true, j % batch, if j < ds.testing then j else 0⟩) ∧
      (0 < k → ∀ x y m s, st'.outs.error.InRange x y m s → ds.testing ≤ (k - 1) * batch + s →
        st'.outs.error.get x y m s = some 0) := by
  have key : ∀ k (st : State R G) (d : Nat), Fit st.outs → st.testing = true →
      st.currentTesting = min d ds.testing →
      ∃ st', run rnd p ds batch (List.replicate k .forward) st = .done st' ∧
        st'.requests = st.requests ++ (List.range (k * batch)).map (fun j =>
          ⟨true, j % batch, if d + j < ds.testing then d + j else 0⟩) ∧
        (0 < k → ∀ x y m s, st'.outs.error.InRange x y m s → ds.testing ≤ d + ((k - 1) * batch + s) →
          st'.outs.error.get x y m s = some 0) := by
    intro k
    induction k with
    | zero =>
      intro st d _ _ _
      exact ⟨st, rfl, by simp, by omega⟩
    | succ k ih =>
      intro st d hf ht hc
      obtain ⟨s1, e1, e2, e3, e4, e5, e6, e7⟩ :=
        feedForward_testing (rnd := rnd) (p := p) hg ht hf hn d hc
      obtain ⟨s2, f1, f2, f3⟩ := ih s1 (d + batch) e2 e3 e4
      refine ⟨s2, ?_, ?_, ?_⟩
      · rw [List.replicate_succ, run, e1]
        exact f1
      · rw [f2, e5, List.append_assoc]
        congr 1
        rw [Nat.add_mul, Nat.one_mul, Nat.add_comm (k * batch) batch, List.range_add,
          List.map_append, List.map_map]
        congr 1
        · apply List.map_congr_left
          intro j hj
          rw [Nat.mod_eq_of_lt (List.mem_range.1 hj)]
        · apply List.map_congr_left
          intro j _
          simp only [Function.comp_apply, Nat.add_mod_left, Nat.add_assoc]
      · intro _ x y m s hin hge
        cases k with
        | zero =>
          have h2 : s2 = s1 := by
            rw [List.replicate_zero, run] at f1
            exact (Outcome.done.inj f1).symm
          subst h2
          exact e7 x y m s (e6.inRange.1 hin) (by simpa using hge)
        | succ k =>
          refine f3 (by omega) x y m s hin ?_
          simp only [Nat.add_sub_cancel] at hge ⊢
          rw [Nat.add_mul] at hge
          omega
  obtain ⟨st', h1, h2, h3⟩ := key k (setTestingMode true st) 0 hf rfl (by
    show (if true ≠ st.testing ∧ true then 0 else st.currentTesting) = _
    rw [ht]; simp)
  refine ⟨st', h1, ?_, ?_⟩
  · rw [h2]
    simp [setTestingMode]
  · intro hk x y m s hin hge
    exact h3 hk x y m s hin (by omega)

/-- C28: with testing ratio 1 the number of batches is large enough for every test sample, so the
sample numbers start with each test sample exactly once, in order, and all others are repetitions
with zero weight.  The full property lacks the bound on the number of batches. -/
theorem C28_every_sample_partial (samples batch : Nat) (hb : 0 < batch)
    (hfit : samples / batch + 1 < 2 ^ 24) :
    ∃ extra, ((List.range (Trainer.testIterations samples batch * batch)).map
      (fun j => if j < samples then j else 0)) = List.range samples ++ List.replicate extra 0 := by
  have hk : samples ≤ Trainer.testIterations samples batch * batch := by
    unfold Trainer.testIterations Pooling.toF32
    rw [if_pos hfit, Nat.add_mul]
    have := Nat.mod_lt samples hb
    have := Nat.div_add_mod' samples batch
    omega
  obtain ⟨extra, he⟩ := Nat.exists_eq_add_of_le hk
  refine ⟨extra, ?_⟩
  rw [he, List.range_add, List.map_append, List.map_map]
  congr 1
  · conv_rhs => rw [← List.map_id (List.range samples)]
    apply List.map_congr_left
    intro j hj
    rw [if_pos (List.mem_range.1 hj)]; rfl
  · rw [List.eq_replicate_iff]
    refine ⟨by simp, ?_⟩
    intro b hb
    simp only [List.mem_map, Function.comp_apply] at hb
    obtain ⟨j, _, rfl⟩ := hb
    rw [if_neg (by omega)]

/-- The full property fails for large test sets: the number of batches is rounded to a float, so with
batch size 1 the last of 2^25 + 1 test samples is never delivered. -/
theorem C28_large_test_set : Trainer.testIterations (2 ^ 25 + 1) 1 * 1 < 2 ^ 25 + 1 := by
  decide +kernel

/-- The full property also fails for an empty test set: the test run ends in a fatal error, as the
layer asks for test sample 0 to fill up the first batch. -/
theorem C28_empty_test_set (rnd : Random R G) (p : R) (ds : Data R) (batch : Nat) (hb : 0 < batch)
    (hn : ds.testing = 0) (st : State R G)
    (hrefuse : ∀ o s, ds.getTesting o s 0 = some (false, o)) :
    run rnd p ds batch [.setTesting true, .forward] st = .fatal := by
  have hfill : fillPosition rnd p ds 0 (setTestingMode true st) = .fatal := by
    unfold fillPosition select
    simp [setTestingMode, hn, hrefuse]
  have hall : ∀ n, forO (n + 1) (fillPosition rnd p ds) (setTestingMode true st) = .fatal := by
    intro n
    induction n with
    | zero => simp [forO, hfill]
    | succ n ih => rw [forO, ih]; rfl
  obtain ⟨n, rfl⟩ := Nat.exists_eq_add_of_le' hb
  rw [run, run, feedForward, hall]
  rfl

/-! ## C63 -/

/-- C63: loss sampling keeps or drops whole blocks of 12 x 12 pixels of the sample's weights, block
`b` (row by row) according to draw number `b`, and touches nothing else. -/
theorem C63_blocks (rnd : Random R G) (p : R) (sample : Nat) (g : G) (t : Tensor R)
    (hw : t.WF) (hs : sample < t.samples) (hm : 0 < t.maps) :
    ∃ g' u, lossSampling rnd p sample g t = some (g', u) ∧ u.WF ∧ Sh t u ∧
      ∀ x y m s, t.InRange x y m s → u.get x y m s =
        if m = 0 ∧ s = sample ∧ p < nth rnd g (y / 12 * ((t.width + 11) / 12) + x / 12) then some 0
        else t.get x y m s := by
  obtain ⟨u, h1, h2⟩ := lossSampling_spec rnd p g hw hs hm
  refine ⟨_, u, h1, h2.wf, h2.sh, ?_⟩
  intro x y m s hin
  by_cases hc : m = 0 ∧ s = sample ∧ p < nth rnd g (y / 12 * ((t.width + 11) / 12) + x / 12)
  · rw [if_pos hc]
    exact h2.hit hin (if_pos hc)
  · rw [if_neg hc]
    exact h2.miss hin (if_neg hc)

/-- C63: with a probability no draw exceeds (such as 1) the weights stay as they are. -/
theorem C63_keeps_all (rnd : Random R G) (p : R) (hp : ∀ g, ¬ p < (rnd.draw g).1) (sample : Nat)
    (g : G) (t : Tensor R) (hw : t.WF) (hs : sample < t.samples) (hm : 0 < t.maps) :
    ∃ g', lossSampling rnd p sample g t = some (g', t) := by
  obtain ⟨g', u, h1, h2, h3, h4⟩ := C63_blocks rnd p sample g t hw hs hm
  refine ⟨g', ?_⟩
  rw [h1, ext_get hw h2 h3 (fun x y m s hin => by
    rw [h4 x y m s hin, if_neg (fun h => hp _ h.2.2)])]

end

/-- Non-vacuity: 13 x 1 pixels, two blocks; the second draw exceeds the probability. -/
example : (lossSampling (R := Rat) (G := Nat)
      { shuffle := fun g l => (l, g), draw := fun g => (g, g + 1) } (1/2) 1 0
      ⟨2, 13, 1, 1, List.replicate 26 7⟩).map (fun r => (r.1, r.2.data)) =
    some (2, List.replicate 25 7 ++ [0]) := by decide +kernel

/-! ## The tensor stream dataset meets the assumptions -/

/-- A tensor stream dataset as seen by the input layer. -/
def ofTensorStream [Field R] [LinearOrder R] (lowest : R) (ef : Nat → Nat → Nat → Nat → R)
    (ds : TensorStreamDataset.Dataset R) : Data R where
  fcn := true
  training := ds.training.length / 2
  testing := ds.testing.length / 2
  getTraining := TensorStreamDataset.getTrainingSample lowest ef ds
  getTesting := TensorStreamDataset.getTestingSample lowest ef ds

theorem fit_error_only [Field R] [LinearOrder R] {ef : Nat → Nat → Nat → Nat → R}
    {ds : TensorStreamDataset.Dataset R} {image label : Tensor R} {batch s : Nat} {o o' : Outputs R}
    (h1 : OutputsFit ds batch o) (h2 : OutputsFit ds batch o') (h : Holds ef ds image label s o o') :
    Sh o.error o'.error ∧ ∀ x y m s', o.error.InRange x y m s' → s' ≠ s →
      o'.error.get x y m s' = o.error.get x y m s' := by
  have hsh : Sh o.error o'.error := (Sh.symm h1.error.1).trans h2.error.1
  refine ⟨hsh, ?_⟩
  intro x y m s' hin hne
  have hm : m = 0 := by
    have := hin.2.2.1
    have := h1.error.1.2.2.2
    dsimp only at this
    omega
  subst hm
  exact h.others x y s' (hsh.inRange.2 hin) hne

/-- C27, C28: if all pairs of a tensor stream dataset fit (see C29, C30), the input layer's
assumptions hold for it. -/
theorem C27_tensor_stream [Field R] [LinearOrder R] (lowest : R) (ef : Nat → Nat → Nat → Nat → R)
    (ds : TensorStreamDataset.Dataset R) (batch : Nat)
    (htrain : ∀ i, i < ds.training.length / 2 → ∃ image label, ds.training[2 * i]? = some image ∧
      ds.training[2 * i + 1]? = some label ∧ PairFits ds lowest image label)
    (htest : ∀ i, i < ds.testing.length / 2 → ∃ image label, ds.testing[2 * i]? = some image ∧
      ds.testing[2 * i + 1]? = some label ∧ PairFits ds lowest image label) :
    Good (ofTensorStream lowest ef ds) batch (OutputsFit ds batch) where
  error := by
    intro o h
    have := h.error.1
    exact ⟨h.error.2, this.1.symm, by have := this.2.2.2; dsimp only at this; omega⟩
  setError := by
    intro o e h hw hs
    exact ⟨h.data, h.label, h.helper, h.error.1.trans hs, hw⟩
  training := by
    intro o s i h hs hi
    obtain ⟨image, label, k1, k2, k3⟩ := htrain i hi
    obtain ⟨o', e1, e2, e3⟩ := C30_training_sample lowest ef ds batch o h s i hs image label k1 k2 k3
    exact ⟨o', e1, e2, fit_error_only h e2 e3⟩
  testing := by
    intro o s i h hs hi
    obtain ⟨image, label, k1, k2, k3⟩ := htest i hi
    obtain ⟨o', e1, e2, e3⟩ := C30_testing_sample lowest ef ds batch o h s i hs image label k1 k2 k3
    exact ⟨o', e1, e2, fit_error_only h e2 e3⟩

end CN24.Props
