import Verif.Model.Hybrid
import Verif.Proof.Hybrid

/-
C73: a network trained with patches and its copy for whole images have the same parameters.

The hypothesis on the lines: the word `flatten`, which removes a line from the network for whole images, occurs only in
lines that begin with `?flatten` and in comments.  `C73_unmarked_removes` shows what happens otherwise.
-/

namespace CN24.Props
open CN24 CN24.Config CN24.Net CN24.NetConfig CN24.Hybrid
variable {D : Type _}

/-- The nodes of both networks, and their parameters as far as the maps determine them. -/
theorem both_nodes {conv : Str → D} {zero one : D} {lines : List Str} {classes : Nat} {f : Fields}
    (hm : ∀ l ∈ lines, "flatten".toList <:+: l → "?flatten".toList <+: l ∨ ['#'] <+: l)
    (hf : construct lines true = .done f) (hp : f.method = .patch) {P : List (NewNode D)}
    (hP : nodesOf conv zero one lines classes true = .done P) (dm : List Nat) :
    ∃ F, nodesOf conv zero one lines classes false = .done F ∧ params 0 1 dm P [] = params 0 1 dm F [] := by
  unfold nodesOf at hP ⊢
  rw [hf, Outcome.bind_done] at hP
  obtain ⟨st, h1, h2⟩ := bind_eq_done hP
  obtain ⟨g, hg, _⟩ := construct_any hf
  rw [hg, Outcome.bind_done]
  obtain ⟨st', h3, h4⟩ := addLines_rel (g := g) (dm := dm) (data := 0) (base := 1) (by decide) hp lines
    (fun l hl => hm l hl) (start_rel (by decide) hp) h1
  unfold addLayers
  rw [h3, Outcome.bind_done]
  refine ⟨_, rfl, ?_⟩
  rw [← Outcome.done.inj h2]
  exact h4.params

/-- If the description can be turned into a network for patches, it can also be turned into one for whole images: no
line is refused or undefined for the second factory alone. -/
theorem C73_second_factory {conv : Str → D} {zero one : D} {lines : List Str} {classes : Nat} {f : Fields}
    (hm : ∀ l ∈ lines, "flatten".toList <:+: l → "?flatten".toList <+: l ∨ ['#'] <+: l)
    (hf : construct lines true = .done f) (hp : f.method = .patch) {P : List (NewNode D)}
    (hP : nodesOf conv zero one lines classes true = .done P) :
    ∃ F, nodesOf conv zero one lines classes false = .done F :=
  let ⟨F, h, _⟩ := both_nodes hm hf hp hP []
  ⟨F, h⟩

/-- Both networks have the same parameters: as many, in the same order, each of the same shape and belonging to the
same layer of the description. -/
theorem C73_same_parameters {conv : Str → D} {zero one : D} {lines : List Str} {classes : Nat} {f : Fields}
    {trainShapes testShapes : List Shape}
    (hm : ∀ l ∈ lines, "flatten".toList <:+: l → "?flatten".toList <+: l ∨ ['#'] <+: l)
    (hf : construct lines true = .done f) (hp : f.method = .patch)
    (hmaps : trainShapes.map (·.maps) = testShapes.map (·.maps)) {training testing : List (Param D)}
    (htrain : network conv zero one lines classes true trainShapes = .done training)
    (htest : network conv zero one lines classes false testShapes = .done testing) : testing = training := by
  unfold network at htrain htest
  obtain ⟨P, h1, h2⟩ := bind_eq_done htrain
  obtain ⟨F, h3, h4⟩ := bind_eq_done htest
  obtain ⟨F', h5, h6⟩ := both_nodes hm hf hp h1 (trainShapes.map (·.maps))
  rw [h3] at h5
  obtain rfl := Outcome.done.inj h5
  have hk : Known [] [] := ⟨rfl, fun i o s h => absurd h (by simp)⟩
  rw [parameters_eq P hk h2, parameters_eq F hk h4, h6, hmaps]

/-- The two networks are set up without an access outside the lists of parameters, and afterwards every parameter of
the second network, without exception, is the memory of the parameter of the first network at the same position. -/
theorem C73_shared_partial {conv : Str → D} {zero one : D} {lines : List Str} {classes : Nat} {f : Fields}
    {trainShapes testShapes : List Shape}
    (hm : ∀ l ∈ lines, "flatten".toList <:+: l → "?flatten".toList <+: l ∨ ['#'] <+: l)
    (hf : construct lines true = .done f) (hp : f.method = .patch)
    (hmaps : trainShapes.map (·.maps) = testShapes.map (·.maps)) {training testing : List (Param D)}
    (htrain : network conv zero one lines classes true trainShapes = .done training)
    (htest : network conv zero one lines classes false testShapes = .done testing) :
    ∃ memory, setup conv zero one lines classes trainShapes testShapes = .done (some memory) ∧
      memory.length = testing.length ∧
      ∀ p (hp : p < training.length), memory[p]? = some (.shadow p training[p].shape) := by
  have he := C73_same_parameters hm hf hp hmaps htrain htest
  obtain ⟨t, h1, h2, h3, _⟩ := share_done (training.map (·.shape)) (testing.map (.own ·.shape)) (by simp [he])
  refine ⟨t, ?_, by simpa using h2, ?_⟩
  · unfold setup
    rw [hf, Outcome.bind_done, htrain, Outcome.bind_done, if_pos hp, htest, Outcome.bind_done, h1]
    rfl
  · intro p hp
    have := h3 p (by simpa using hp)
    simpa using this

/-- Sharing again, as the commands `reset` and `load` do, changes nothing. -/
theorem C73_again {training : List Shape} {testing t : List Storage} (hl : testing.length = training.length)
    (h : share training testing = .done t) : share training t = .done t := by
  obtain ⟨t1, a1, a2, a3, a4⟩ := share_done training testing (by omega)
  rw [h] at a1
  obtain rfl := Outcome.done.inj a1
  obtain ⟨t2, b1, b2, b3, b4⟩ := share_done training t (by omega)
  rw [b1]
  congr 1
  apply List.ext_getElem?
  intro p
  rcases Nat.lt_or_ge p training.length with hp | hp
  · rw [a3 p hp, b3 p hp]
  · rw [b4 p hp]

/-- Without a description that asks for patches there is no second network. -/
theorem C73_single {conv : Str → D} {zero one : D} {lines : List Str} {classes : Nat} {f : Fields}
    {trainShapes testShapes : List Shape} (hf : construct lines true = .done f) (hp : f.method = .fcn)
    {training : List (Param D)} (htrain : network conv zero one lines classes true trainShapes = .done training) :
    setup conv zero one lines classes trainShapes testShapes = .done none := by
  unfold setup
  rw [hf, Outcome.bind_done, htrain, Outcome.bind_done, if_neg (by rw [hp]; decide)]

/-! ### Cases -/

/-- A description with a marker, pooling, a branch and a learned activation. -/
def hybridLines : List Str :=
  ["# flatten only for patches".toList, "method=patch".toList, "?convolutional kernels=4 size=3x3".toList,
   "?maxpooling size=2x2".toList, "?hmax mu=1 weight=1".toList, "?flatten".toList,
   "?fullyconnected neurons=(o)".toList, "?output".toList]

def patchShapes : List Shape := [⟨2, 4, 4, 3⟩, ⟨2, 1, 1, 5⟩, ⟨2, 1, 1, 2⟩, ⟨2, 1, 1, 1⟩]
def imageShapes : List Shape := [⟨1, 20, 16, 3⟩, ⟨1, 20, 16, 5⟩, ⟨1, 20, 16, 2⟩, ⟨1, 20, 16, 1⟩]

/-- The hypotheses hold for it, and five parameters are shared. -/
example : (∀ l ∈ hybridLines, "flatten".toList <:+: l → "?flatten".toList <+: l ∨ ['#'] <+: l) ∧
    (construct hybridLines true = .done ⟨.patch, 4, 4, 2, 2, false⟩) ∧
    patchShapes.map (·.maps) = imageShapes.map (·.maps) ∧
    setup (fun s => s.length) 0 1 hybridLines 5 patchShapes imageShapes =
      .done (some [.shadow 0 ⟨4, 3, 3, 3⟩, .shadow 1 ⟨1, 4, 1, 1⟩, .shadow 2 ⟨1, 2, 1, 1⟩,
        .shadow 3 ⟨5, 1, 1, 4⟩, .shadow 4 ⟨1, 5, 1, 1⟩]) := by
  refine ⟨by decide +kernel, by decide +kernel, by decide +kernel, by decide +kernel⟩

/-- The same with the word at the end of a layer line. -/
def unmarkedLines : List Str :=
  ["method=patch".toList, "?convolutional kernels=4 size=3x3".toList, "?convolutional kernels=4 size=1x1 flatten".toList,
   "?output".toList]

def unmarkedPatch : List Shape := [⟨2, 3, 3, 3⟩, ⟨2, 1, 1, 4⟩, ⟨2, 1, 1, 2⟩, ⟨2, 1, 1, 1⟩]
def unmarkedImage : List Shape := [⟨1, 20, 16, 3⟩, ⟨1, 20, 16, 4⟩, ⟨1, 20, 16, 2⟩, ⟨1, 20, 16, 1⟩]

/-- The word `flatten` anywhere in a layer line removes the layer from the second network only: with two networks that
are each accepted, the loop that shares the parameters reads beyond the end of the second list. -/
theorem C73_unmarked_removes : ∃ training testing : List (Param Nat),
    network (fun s => s.length) 0 1 unmarkedLines 4 true unmarkedPatch = .done training ∧
    network (fun s => s.length) 0 1 unmarkedLines 4 false unmarkedImage = .done testing ∧
    training.length = 4 ∧ testing.length = 2 ∧
    setup (fun s => s.length) 0 1 unmarkedLines 4 unmarkedPatch unmarkedImage = .undefined := by
  let a : Layer Nat := .conv ⟨4, 3, 3, 1, 1, 0, 0, 1⟩ 0 0 1
  let b : Layer Nat := .conv ⟨4, 1, 1, 1, 1, 0, 0, 1⟩ 1 0 1
  refine ⟨[⟨a, ⟨4, 3, 3, 3⟩⟩, ⟨a, ⟨1, 4, 1, 1⟩⟩, ⟨b, ⟨4, 1, 1, 4⟩⟩, ⟨b, ⟨1, 4, 1, 1⟩⟩],
    [⟨a, ⟨4, 3, 3, 3⟩⟩, ⟨a, ⟨1, 4, 1, 1⟩⟩], ?_, ?_, rfl, rfl, ?_⟩ <;> decide +kernel

end CN24.Props
