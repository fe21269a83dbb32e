import Verif.Proof.PatchLoad
import Verif.Props.DatasetConfig

/-! C70: where the images of a patch dataset come from. -/

namespace CN24.Props
open CN24 CN24.Tensor CN24.PatchLoad

/-- A file of images and labels: alternating records of tensors. -/
def pairFile (ps : List (Tensor F32 × Tensor F32)) : List Byte := (flat ps).flatMap serialize

/-- The images and the labels of the dataset are, in order, the pairs `ps`. -/
def HoldsPairs (ds : PatchDataset.Dataset (Option F32)) (ps : List (Tensor F32 × Tensor F32)) : Prop :=
  ds.data = ps.map (fun p => p.1.known) ∧ ds.labels = ps.map (fun p => p.2.known)

/-- The tensors of pairs that can be stored. -/
def StorablePairs (ps : List (Tensor F32 × Tensor F32)) : Prop := ∀ t ∈ flat ps, t.WF ∧ 0 < t.elements ∧ t.Fits

theorem load_pairs (px py : Nat) (train test : List (Tensor F32 × Tensor F32)) (h1 : StorablePairs train)
    (h2 : StorablePairs test) (fd1 fd2 : Option (List Byte)) (n : Nat) (ws : List (Option F32)) :
    ∃ ds, load px py ⟨pairFile train, fd1⟩ ⟨pairFile test, fd2⟩ n n n ws = .done ds ∧
      ds.data = (viewPairs fd1 0 train).map (·.1) ++ (viewPairs fd2 0 test).map (·.1) ∧
      ds.labels = (viewPairs fd1 0 train).map (·.2) ++ (viewPairs fd2 0 test).map (·.2) ∧
      ds.px = px ∧ ds.py = py ∧ ds.classWeights = ws := by
  have e1 : readPairs fd1 train.length { bytes := pairFile train } = viewPairs fd1 0 train :=
    readPairs_records fd1 train h1 _ ⟨rfl, rfl, by simp, by simp [pairFile]⟩
  have e2 : readPairs fd2 test.length { bytes := pairFile test } = viewPairs fd2 0 test :=
    readPairs_records fd2 test h2 _ ⟨rfl, rfl, by simp, by simp [pairFile]⟩
  have c1 : count (pairFile train) = some (2 * train.length) := by
    unfold pairFile; rw [count_records _ h1, flat_length]
  have c2 : count (pairFile test) = some (2 * test.length) := by
    unfold pairFile; rw [count_records _ h2, flat_length]
  have o1 : (2 * train.length % 2 == 1) = false := by rw [beq_eq_false_iff_ne]; omega
  have o2 : (2 * test.length % 2 == 1) = false := by rw [beq_eq_false_iff_ne]; omega
  unfold load
  dsimp only
  rw [c1, c2]
  simp only [Outcome.ofOption, Outcome.bind_done]
  rw [o1, o2, show 2 * train.length / 2 = train.length by omega, show 2 * test.length / 2 = test.length by omega, e1, e2]
  unfold PatchDataset.construct
  rw [if_neg (by simp)]
  simp only [Bool.false_eq_true, if_false]
  exact ⟨_, rfl, rfl, rfl, rfl, rfl, rfl⟩

/-- C70: when nothing is mapped into memory (`nommap`, or a system without it), the images of the training file are
followed by those of the testing file, every image with its label and all of them bit-identical. -/
theorem C70_create_partial (conv : Config.Str → F32) (one : F32) (file : Config.Str → Option (List Byte)) (mmap : Bool)
    (px py : Nat) (text : Config.Str) (c : DatasetConfig.Cfg F32) (hc : DatasetConfig.create conv one text = .done c)
    (hm : mmap = false ∨ c.noMmap = true) (train test : List (Tensor F32 × Tensor F32)) (h1 : StorablePairs train)
    (h2 : StorablePairs test) (ht : c.training ≠ []) (he : c.testing ≠ []) (f1 : file c.training = some (pairFile train))
    (f2 : file c.testing = some (pairFile test)) :
    ∃ ds, PatchLoad.create conv one file mmap false .both px py text = .done ds ∧ HoldsPairs ds (train ++ test) ∧
      ds.px = px ∧ ds.py = py ∧ ds.classWeights = c.weights.map some := by
  obtain ⟨n1, n2, -, -⟩ := C69_accepted conv one text c hc
  obtain ⟨ds, e, d1, d2, d3⟩ := load_pairs px py train test h1 h2 none none c.classes (c.weights.map some)
  refine ⟨ds, ?_, ⟨?_, ?_⟩, d3⟩
  · unfold PatchLoad.create
    rw [hc, Outcome.bind_done, C69_patch_files_partial _ mmap c ht he hm (by simp [f1]) (by simp [f2]),
      Outcome.bind_done, n1, n2]
    simp only [contents, f1, f2, Option.getD_some, Option.bind_none]
    exact e
  · rw [d1, viewPairs_none, viewPairs_none, List.map_map, List.map_map, List.map_append]; rfl
  · rw [d2, viewPairs_none, viewPairs_none, List.map_map, List.map_map, List.map_append]; rfl

/-- C70: loading the training images only is right in every configuration. -/
theorem C70_training_only (conv : Config.Str → F32) (one : F32) (file : Config.Str → Option (List Byte)) (mmap : Bool)
    (px py : Nat) (text : Config.Str) (c : DatasetConfig.Cfg F32) (hc : DatasetConfig.create conv one text = .done c)
    (train : List (Tensor F32 × Tensor F32)) (h1 : StorablePairs train) (ht : c.training ≠ [])
    (f1 : file c.training = some (pairFile train)) :
    ∃ ds, PatchLoad.create conv one file mmap false .trainingOnly px py text = .done ds ∧ HoldsPairs ds train := by
  obtain ⟨n1, n2, -, -⟩ := C69_accepted conv one text c hc
  have l1 : 0 < c.training.length := List.length_pos_of_ne_nil ht
  have key : ∀ fd, (fd = none ∨ fd = some (pairFile train)) → viewPairs fd 0 train =
      train.map fun q => (q.1.known, q.2.known) := by
    intro fd hfd
    have := readPairs_own fd train h1 hfd
    rw [readPairs_records fd train h1 _ ⟨rfl, rfl, by simp, by simp⟩] at this
    exact this
  by_cases hb : (mmap && !c.noMmap) = true
  · obtain ⟨ds, e, d1, d2, -⟩ := load_pairs px py train [] h1 (by intro t ht; cases ht) (some (pairFile train)) none
      c.classes (c.weights.map some)
    rw [key _ (.inr rfl)] at d1 d2
    refine ⟨ds, ?_, ?_, ?_⟩
    · unfold PatchLoad.create
      rw [hc, Outcome.bind_done, n1, n2]
      have : DatasetConfig.patchFiles (fun f => (file f).isSome) mmap false .trainingOnly c =
          .done (some ⟨c.training, some c.training⟩, none) := by
        simp only [DatasetConfig.patchFiles, l1, hb, f1]; rfl
      rw [this, Outcome.bind_done]
      simp only [contents, f1, Option.getD_some, Option.bind_some]
      exact e
    · rw [d1, List.map_map]; simp [viewPairs]
    · rw [d2, List.map_map]; simp [viewPairs]
  · obtain ⟨ds, e, d1, d2, -⟩ := load_pairs px py train [] h1 (by intro t ht; cases ht) none none
      c.classes (c.weights.map some)
    rw [key _ (.inl rfl)] at d1 d2
    refine ⟨ds, ?_, ?_, ?_⟩
    · unfold PatchLoad.create
      rw [hc, Outcome.bind_done, n1, n2]
      have : DatasetConfig.patchFiles (fun f => (file f).isSome) mmap false .trainingOnly c =
          .done (some ⟨c.training, none⟩, none) := by
        simp only [DatasetConfig.patchFiles, l1, f1, eq_false hb]; rfl
      rw [this, Outcome.bind_done]
      simp only [contents, f1, Option.getD_some, Option.bind_none]
      exact e
    · rw [d1, List.map_map]; simp [viewPairs]
    · rw [d2, List.map_map]; simp [viewPairs]

/-- C70, refuted: in the default configuration of a POSIX system, a testing file with images and labels of the same
sizes as in the training file is not used: the testing images and labels are those of the training file. -/
theorem C70_testing_is_training (conv : Config.Str → F32) (one : F32) (file : Config.Str → Option (List Byte))
    (px py : Nat) (text : Config.Str) (c : DatasetConfig.Cfg F32) (hc : DatasetConfig.create conv one text = .done c)
    (hm : c.noMmap = false) (train test : List (Tensor F32 × Tensor F32)) (h1 : StorablePairs train) (h2 : StorablePairs test)
    (hsh : List.Forall₂ (fun p q => SameShape p.1 q.1 ∧ SameShape p.2 q.2) test train) (ht : c.training ≠ [])
    (he : c.testing ≠ []) (f1 : file c.training = some (pairFile train)) (f2 : file c.testing = some (pairFile test)) :
    ∃ ds, PatchLoad.create conv one file true false .both px py text = .done ds ∧ HoldsPairs ds (train ++ train) := by
  obtain ⟨n1, n2, -, -⟩ := C69_accepted conv one text c hc
  obtain ⟨ds, e, d1, d2, -⟩ := load_pairs px py train test h1 h2 (some (pairFile train)) (some (pairFile train))
    c.classes (c.weights.map some)
  have k1 : viewPairs (some (pairFile train)) 0 train = train.map fun q => (q.1.known, q.2.known) :=
    viewPairs_map _ train train forall₂_same (fun t ht => (h1 t ht).1)
      (fun t ht => ⟨(h1 t ht).1, (h1 t ht).2.1⟩) 0 [] (by simp [pairFile])
  have k2 : viewPairs (some (pairFile train)) 0 test = train.map fun q => (q.1.known, q.2.known) :=
    viewPairs_map _ test train hsh (fun t ht => (h2 t ht).1)
      (fun t ht => ⟨(h1 t ht).1, (h1 t ht).2.1⟩) 0 [] (by simp [pairFile])
  rw [k1, k2] at d1 d2
  refine ⟨ds, ?_, ?_, ?_⟩
  · unfold PatchLoad.create
    rw [hc, Outcome.bind_done, C69_patch_testing_map _ c ht he hm (by simp [f1]) (by simp [f2]), Outcome.bind_done,
      n1, n2]
    simp only [contents, f1, f2, Option.getD_some, Option.bind_some]
    exact e
  · rw [d1, List.map_map, List.map_append]; rfl
  · rw [d2, List.map_map, List.map_append]; rfl

/-- C70: counting the tensors ends on any file. -/
theorem C70_count_terminates (bytes : List Byte) : ∃ n, count bytes = some n :=
  countLoop_terminates _ _ _ (by simp)

/-- C70: an image without a label ends the program. -/
theorem C70_odd (px py : Nat) (ts : List (Tensor F32)) (h : ∀ t ∈ ts, t.WF ∧ 0 < t.elements ∧ t.Fits)
    (hodd : ts.length % 2 = 1) (fd : Option (List Byte)) (other : File) (n k m : Nat) (ws : List (Option F32)) :
    load px py ⟨ts.flatMap serialize, fd⟩ other n k m ws = .fatal ∧
    load px py other ⟨ts.flatMap serialize, fd⟩ n k m ws = .fatal := by
  obtain ⟨j, hj⟩ := C70_count_terminates other.bytes
  constructor
  · unfold load
    rw [count_records ts h, hj]
    simp only [Outcome.ofOption, Outcome.bind_done, hodd]
    unfold PatchDataset.construct
    split
    · rfl
    · simp
  · unfold load
    rw [count_records ts h, hj]
    simp only [Outcome.ofOption, Outcome.bind_done, hodd]
    unfold PatchDataset.construct
    split
    · rfl
    · simp

/-- The hypotheses are met: a picture of one pixel with its label in each file; what is loaded for testing has the
contents of the training file. -/
example :
    let train : List (Tensor F32 × Tensor F32) := [(⟨1, 1, 1, 1, [5#32]⟩, ⟨1, 1, 1, 1, [6#32]⟩)]
    let test : List (Tensor F32 × Tensor F32) := [(⟨1, 1, 1, 1, [7#32]⟩, ⟨1, 1, 1, 1, [8#32]⟩)]
    let text := "classes=1\nroad\ncolors\n0\ntraining=a\ntesting=b".toList
    let file : Config.Str → Option (List Byte) := fun f =>
      if f = ['a'] then some (pairFile train) else if f = ['b'] then some (pairFile test) else none
    StorablePairs train ∧ StorablePairs test ∧
    ∃ ds, PatchLoad.create (fun _ => 0#32) 1#32 file true false .both 1 1 text = .done ds ∧
      HoldsPairs ds (train ++ train) := by
  intro train test text file
  have h1 : StorablePairs train := by
    intro t ht
    simp only [train, flat, List.flatMap_cons, List.flatMap_nil, List.append_nil, List.mem_cons, List.not_mem_nil,
      or_false] at ht
    rcases ht with rfl | rfl <;> decide
  have h2 : StorablePairs test := by
    intro t ht
    simp only [test, flat, List.flatMap_cons, List.flatMap_nil, List.append_nil, List.mem_cons, List.not_mem_nil,
      or_false] at ht
    rcases ht with rfl | rfl <;> decide
  refine ⟨h1, h2, ?_⟩
  exact C70_testing_is_training (fun _ => 0#32) 1#32 file 1 1 text
    ⟨1, ["road".toList], [0], [1#32], false, ['a'], ['b'], false⟩ rfl rfl train test h1 h2
    (.cons ⟨⟨rfl, rfl, rfl, rfl⟩, ⟨rfl, rfl, rfl, rfl⟩⟩ .nil) (by simp) (by simp) rfl rfl

end CN24.Props
