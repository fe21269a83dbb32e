import Verif.Proof.DatasetConfig

/-! C69: dataset descriptions. -/

namespace CN24.Props
open CN24 CN24.Config CN24.DatasetConfig

variable {D : Type _}

theorem create_text (conv : Str → D) (one : D) {items : List Item} (hok : ∀ i ∈ items, i.Ok) (hfit : Fits 0 items) :
    create conv one (text items) =
      if (padWeights one (items.foldl (apply conv) (Cfg.new D))).classes ≠
          (padWeights one (items.foldl (apply conv) (Cfg.new D))).names.length ∨
        (padWeights one (items.foldl (apply conv) (Cfg.new D))).classes ≠
          (padWeights one (items.foldl (apply conv) (Cfg.new D))).colors.length then .fatal
      else .done (padWeights one (items.foldl (apply conv) (Cfg.new D))) := by
  unfold create text
  rw [ListStream.linesOf_unlines (linesOk hok)]
  obtain ⟨m, h, -⟩ := readLoop_items conv items [[]] (items.flatMap Item.lines ++ [[]]).length (Cfg.new D) hok hfit
    (show 0 < 2147483648 by decide) (by simp)
  rw [h, readLoop_blank, Outcome.bind_done]

/-- The weights of `n` classes: those of the first section of weights, or ones. -/
def declaredWeights (conv : Str → D) (one : D) (n : Nat) : List (List Str) → List D
  | w :: _ => w.map conv
  | [] => List.replicate n one

/-- C69: a description with one section of class names, one of colours and at most one of weights, in any order
in which the names come first, with settings and comments in between, is read exactly: the names verbatim, whatever
they look like, the colours, the weights or ones, the last files named and the error function. -/
theorem C69_create (conv : Str → D) (one : D) (items : List Item) (hok : ∀ i ∈ items, i.Ok) (hfit : Fits 0 items)
    (names : List Str) (hn : items.filterMap Item.names? = [names]) (cs : List Nat)
    (hc : items.filterMap Item.colors? = [cs]) (hcl : cs.length = names.length) (ws : List (List Str))
    (hw : items.filterMap Item.weights? = ws) (hw1 : ws.length ≤ 1) (hwl : ∀ w ∈ ws, w.length = names.length)
    (he : (items.filterMap Item.error?).length ≤ 1) :
    create conv one (text items) = .done {
      classes := names.length
      names := names
      colors := cs
      weights := declaredWeights conv one names.length ws
      kitti := items.filterMap Item.error? == [true]
      training := (items.filterMap Item.training?).getLast?.getD []
      testing := (items.filterMap Item.testing?).getLast?.getD []
      noMmap := false } := by
  rw [create_text conv one hok hfit]
  obtain ⟨h1, h2, h3, h4, h5, h6, h7, h8⟩ := fold_fields conv items (Cfg.new D)
  generalize hg : items.foldl (apply conv) (Cfg.new D) = g at *
  have g1 : g.names = names := by rw [h1, hn]; simp [Cfg.new]
  have g2 : g.colors = cs := by rw [h2, hc]; simp [Cfg.new]
  have g3 : g.weights = ws.flatten.map conv := by rw [h3, hw]; simp [Cfg.new]
  have g4 : g.classes = names.length := by rw [h4, hn]; rfl
  have g7 : g.kitti = (items.filterMap Item.error? == [true]) := by
    rw [h7]
    match hE : items.filterMap Item.error? with
    | [] => rfl
    | [true] => rfl
    | [false] => rfl
    | a :: b :: r => rw [hE] at he; simp at he
  have key : padWeights one g = { g with weights := declaredWeights conv one names.length ws } := by
    unfold padWeights
    clear hw
    match ws, hw1, hwl, g3 with
    | [], _, _, g3 =>
      have g3' : g.weights = [] := g3
      by_cases hz : g.weights.length ≠ g.classes
      · rw [if_pos hz, g3', g4]; rfl
      · rw [if_neg hz]
        have : names.length = 0 := by
          rw [g3', g4, List.length_nil, Decidable.not_not] at hz
          exact hz.symm
        rw [this]
        cases g
        cases g3'
        rfl
    | [w], _, hwl, g3 =>
      have g3' : g.weights = w.map conv := by rw [g3]; simp
      have hlen := hwl w (by simp)
      rw [if_neg (by rw [g3', g4, List.length_map, hlen]; simp)]
      show g = { g with weights := w.map conv }
      rw [← g3']
    | a :: b :: r, hw1, _, _ => simp at hw1
  rw [key]
  dsimp only
  rw [g1, g2, g4, hcl, if_neg (by simp), h5, h6, g7, h8]
  rfl

theorem step_inv (P : Cfg D → Prop) (conv : Str → D) {line : Str} {rest : List Str} {c : Cfg D} {r : List Str × Cfg D}
    (h0 : P c) (hn : ∀ c b, P c → P { c with noMmap := b })
    (h1 : ∀ c n ns, P c → P { c with classes := n, names := c.names ++ ns })
    (h2 : ∀ (c : Cfg D) cs, (∀ k ∈ cs, k < 4294967296) → P c → P { c with colors := c.colors ++ cs })
    (h3 : ∀ c ws, P c → P { c with weights := c.weights ++ ws }) (h4 : ∀ c k, P c → P { c with kitti := k })
    (h5 : ∀ c a b, P c → P { c with training := a, testing := b }) (h : step conv line rest c = .done r) : P r.2 := by
  unfold step at h
  have hm := hn c (c.noMmap || startsWithIdentifier line "nommap".toList) h0
  generalize { c with noMmap := c.noMmap || startsWithIdentifier line "nommap".toList } = c0 at h hm
  dsimp only at h
  cases e1 : readClasses line rest c0 with
  | fatal => rw [e1] at h; cases h
  | undefined => rw [e1] at h; cases h
  | done r1 =>
    have p1 : P r1.2 := by
      unfold readClasses at e1
      split at e1
      · cases q : Outcome.ofOption (parseCount line "classes".toList c0.classes) with
        | fatal => rw [q] at e1; cases e1
        | undefined => rw [q] at e1; cases e1
        | done n =>
          rw [q, Outcome.bind_done] at e1
          cases q' : sectionLines n rest with
          | fatal => rw [q'] at e1; cases e1
          | undefined => rw [q'] at e1; cases e1
          | done l => rw [q', Outcome.bind_done] at e1; cases e1; exact h1 _ _ _ hm
      · cases e1; exact hm
    rw [e1, Outcome.bind_done] at h
    cases e2 : readColorSection line r1.1 r1.2 with
    | fatal => rw [e2] at h; cases h
    | undefined => rw [e2] at h; cases h
    | done r2 =>
      have p2 : P r2.2 := by
        unfold readColorSection at e2
        split at e2
        · cases q : sectionLines r1.2.classes r1.1 with
          | fatal => rw [q] at e2; cases e2
          | undefined => rw [q] at e2; cases e2
          | done l =>
            rw [q, Outcome.bind_done] at e2
            cases q' : readColors l.1 with
            | fatal => rw [q'] at e2; cases e2
            | undefined => rw [q'] at e2; cases e2
            | done cs => rw [q', Outcome.bind_done] at e2; cases e2; exact h2 _ _ (readColors_bound q').2 p1
        · cases e2; exact p1
      rw [e2, Outcome.bind_done] at h
      cases e3 : readWeightSection conv line r2.1 r2.2 with
      | fatal => rw [e3] at h; cases h
      | undefined => rw [e3] at h; cases h
      | done r3 =>
        have p3 : P r3.2 := by
          unfold readWeightSection at e3
          split at e3
          · cases q : sectionLines r2.2.classes r2.1 with
            | fatal => rw [q] at e3; cases e3
            | undefined => rw [q] at e3; cases e3
            | done l =>
              rw [q, Outcome.bind_done] at e3
              cases q' : readWeights conv l.1 with
              | fatal => rw [q'] at e3; cases e3
              | undefined => rw [q'] at e3; cases e3
              | done cs => rw [q', Outcome.bind_done] at e3; cases e3; exact h3 _ _ p2
          · cases e3; exact p2
        rw [e3, Outcome.bind_done] at h
        cases e4 : readError line r3.2 with
        | fatal => rw [e4] at h; cases h
        | undefined => rw [e4] at h; cases h
        | done c4 =>
          have p4 : P c4 := by
            unfold readError at e4
            split at e4
            · cases e4
            · cases e4; exact p3
            · split at e4
              · cases e4; exact h4 _ _ p3
              · split at e4
                · cases e4; exact h4 _ _ p3
                · cases e4; exact p3
          rw [e4, Outcome.bind_done] at h
          cases e5 : readFiles line c4 with
          | fatal => rw [e5] at h; cases h
          | undefined => rw [e5] at h; cases h
          | done c5 =>
            have p5 : P c5 := by
              unfold readFiles at e5
              split at e5
              · cases e5; exact h5 _ _ _ p4
              · cases e5
            rw [e5, Outcome.bind_done] at h
            cases h
            exact p5

/-- C69: whatever the text is, an accepted description has a name, a colour of 32 bits and a weight for every
class. -/
theorem C69_accepted (conv : Str → D) (one : D) (s : Str) (c : Cfg D) (h : create conv one s = .done c) :
    c.names.length = c.classes ∧ c.colors.length = c.classes ∧ c.classes ≤ c.weights.length ∧
      ∀ k ∈ c.colors, k < 4294967296 := by
  unfold create at h
  cases e : readLoop conv (NetConfig.linesOf s).length (NetConfig.linesOf s) (Cfg.new D) with
  | fatal => rw [e] at h; cases h
  | undefined => rw [e] at h; cases h
  | done g =>
    have hcol : ∀ n lines (c0 g : Cfg D), (∀ k ∈ c0.colors, k < 4294967296) → readLoop conv n lines c0 = .done g →
        ∀ k ∈ g.colors, k < 4294967296 := by
      intro n
      induction n with
      | zero => intro lines c0 g h0 hr; rw [readLoop] at hr; cases hr; exact h0
      | succ n ih =>
        intro lines c0 g h0 hr
        cases lines with
        | nil => rw [readLoop] at hr; cases hr; exact h0
        | cons l ls =>
          rw [readLoop] at hr
          cases hs : step conv l ls c0 with
          | fatal => rw [hs] at hr; cases hr
          | undefined => rw [hs] at hr; cases hr
          | done r =>
            rw [hs, Outcome.bind_done] at hr
            refine ih r.1 r.2 g ?_ hr
            refine step_inv (fun c => ∀ k ∈ c.colors, k < 4294967296) conv h0 (fun _ _ h => h) (fun _ _ _ h => h) ?_
              (fun _ _ h => h) (fun _ _ h => h) (fun _ _ _ h => h) hs
            intro c cs hcs hc k hk
            rcases List.mem_append.1 hk with hk | hk
            · exact hc k hk
            · exact hcs k hk
    have hg := hcol _ _ _ g (by simp [Cfg.new]) e
    rw [e, Outcome.bind_done] at h
    split at h
    · cases h
    · next hn =>
      cases h
      rw [not_or, Decidable.not_not, Decidable.not_not] at hn
      refine ⟨hn.1.symm, hn.2.symm, ?_, ?_⟩
      · unfold padWeights
        split
        · dsimp only; rw [List.length_append, List.length_replicate]; omega
        · next h => rw [Decidable.not_not] at h; omega
      · intro k hk
        have : (padWeights one g).colors = g.colors := by unfold padWeights; split <;> rfl
        rw [this] at hk
        exact hg k hk

/-- C69: the streams are those of the files named, as far as they are selected. -/
theorem C69_streams (c : Cfg D) (h1 : c.training ≠ []) (h2 : c.testing ≠ []) :
    streamFiles false .both c = (some c.training, some c.testing) ∧
    streamFiles false .trainingOnly c = (some c.training, none) ∧
    streamFiles false .testingOnly c = (none, some c.testing) ∧ ∀ s, streamFiles true s c = (none, none) := by
  have l1 : 0 < c.training.length := List.length_pos_of_ne_nil h1
  have l2 : 0 < c.testing.length := List.length_pos_of_ne_nil h2
  refine ⟨?_, ?_, ?_, ?_⟩
  · simp [streamFiles, l1, l2]
  · simp [streamFiles, l1]
  · simp [streamFiles, l2]
  · intro s; simp [streamFiles]

/-- C69, refuted: a file that ends within the list of colours is accepted; the missing colours are black. -/
theorem C69_truncated_colors (conv : Str → D) (one : D) (names : List Str) (hn : ∀ n ∈ names, '\n' ∉ n)
    (hl : names.length < 2147483648) (upper : Bool) (cs : List Nat) (hc : ∀ c ∈ cs, c < 16777216)
    (hlt : cs.length < names.length) :
    ∃ c, create conv one (text [.classes names, .colors upper cs]) = .done c ∧ c.names = names ∧
      c.colors = cs ++ List.replicate (names.length - cs.length) 0 := by
  have hok : ∀ i ∈ [Item.classes names, Item.colors upper cs], i.Ok := by
    intro i hi
    simp only [List.mem_cons, List.not_mem_nil, or_false] at hi
    rcases hi with rfl | rfl
    · exact ⟨hl, hn⟩
    · exact hc
  obtain ⟨m, h, hm⟩ := readLoop_items conv [.classes names] ("colors".toList :: (cs.map (colorText upper) ++ [[]]))
    (([Item.classes names, Item.colors upper cs].flatMap Item.lines) ++ [[]]).length (Cfg.new D)
    (fun i hi => hok i (by simp only [List.mem_singleton] at hi; simp [hi])) trivial (by decide : 0 < 2147483648) (by
      simp [Item.lines])
  have hlines : [Item.classes names, Item.colors upper cs].flatMap Item.lines ++ [[]] =
      [Item.classes names].flatMap Item.lines ++ "colors".toList :: (cs.map (colorText upper) ++ [[]]) := by
    simp [Item.lines]
  have hm1 : 0 < m := by
    rw [hlines, List.length_append, List.length_cons] at hm
    omega
  obtain ⟨m, rfl⟩ : ∃ k, m = k + 1 := ⟨m - 1, by omega⟩
  have hnl : nextLines names.length (cs.map (colorText upper) ++ [[]]) =
      (cs.map (colorText upper) ++ List.replicate (names.length - cs.length) [], []) := by
    have := nextLines_short (cs.map (colorText upper)) (names.length - cs.length)
    rw [List.length_map, show cs.length + (names.length - cs.length) = names.length by omega, if_neg (by omega)] at this
    exact this
  have hstep := step_colors_lines conv (cs.map (colorText upper) ++ [[]]) _ [] _
    ([Item.classes names].foldl (apply conv) (Cfg.new D)) hl hnl (readColors_append (readColors_texts upper hc)
      (readColors_blank (names.length - cs.length)))
  rw [readLoop, hstep, Outcome.bind_done] at h
  have h' : ∀ k (c : Cfg D), readLoop conv k [] c = .done c := by intro k c; cases k <;> rfl
  rw [h'] at h
  unfold create text
  rw [ListStream.linesOf_unlines (linesOk hok)]
  rw [← hlines] at h
  rw [h, Outcome.bind_done]
  refine ⟨padWeights one _, if_neg ?_, ?_, ?_⟩
  · have e1 : ∀ c : Cfg D, (padWeights one c).classes = c.classes := by intro c; unfold padWeights; split <;> rfl
    have e2 : ∀ c : Cfg D, (padWeights one c).names = c.names := by intro c; unfold padWeights; split <;> rfl
    have e3 : ∀ c : Cfg D, (padWeights one c).colors = c.colors := by intro c; unfold padWeights; split <;> rfl
    rw [e1, e2, e3]
    show ¬ (names.length ≠ ([] ++ names).length ∨ names.length ≠ ([] ++ (cs ++ List.replicate _ 0)).length)
    rw [List.nil_append, List.nil_append, List.length_append, List.length_replicate]
    omega
  · unfold padWeights; split <;> rfl
  · unfold padWeights; split <;> rfl

/-- C69, refuted: naming the default error function does not undo an earlier choice. -/
theorem C69_default_keeps_kitti (conv : Str → D) (one : D) :
    ∃ c, create conv one (text [.error true, .error false]) = .done c ∧ c.kitti = true := by
  have hok : ∀ i ∈ [Item.error true, Item.error false], i.Ok := by
    intro i hi
    simp only [List.mem_cons, List.not_mem_nil, or_false] at hi
    rcases hi with rfl | rfl <;> trivial
  rw [create_text conv one hok trivial]
  exact ⟨_, rfl, rfl⟩

/-- C69, refuted: words are compared only at the beginning of a line: one that goes on differently sets the file
to the rest of the line without its first character, and one without a value ends the program. -/
theorem C69_keyword_prefix (conv : Str → D) (rest : List Str) (c : Cfg D) :
    step conv "training_size=5".toList rest c = .done (rest, { c with training := "size=5".toList }) ∧
    step conv "training".toList rest c = .fatal ∧ step conv "testing".toList rest c = .fatal := by
  refine ⟨?_, rfl, rfl⟩
  unfold step readClasses readColorSection readWeightSection readError readFiles
  rw [show startsWithIdentifier "training_size=5".toList "nommap".toList = false from rfl, Bool.or_false]
  rfl

/-- C69, refuted: what is not a colour is accepted as one. -/
theorem C69_color_words (conv : Str → D) (one : D) :
    create conv one "classes=2\na\nb\ncolors\nblue\nred\n".toList =
      .done ⟨2, ["a".toList, "b".toList], [11, 0], [one, one], false, [], [], false⟩ := rfl

/-- C69, refuted: weights in front of the classes are ignored. -/
theorem C69_early_weights (conv : Str → D) (one : D) :
    create conv one "weights\n5\nclasses=1\na\ncolors\n0\n".toList =
      .done ⟨1, ["a".toList], [0], [one], false, [], [], false⟩ := rfl

/-- C69, refuted: in the patch version, the memory map for the testing images shows the training file. -/
theorem C69_patch_testing_map (isFile : Str → Bool) (c : Cfg D) (h1 : c.training ≠ []) (h2 : c.testing ≠ [])
    (hm : c.noMmap = false) (f1 : isFile c.training = true) (f2 : isFile c.testing = true) :
    patchFiles isFile true false .both c =
      .done (some ⟨c.training, some c.training⟩, some ⟨c.testing, some c.training⟩) := by
  have l1 : 0 < c.training.length := List.length_pos_of_ne_nil h1
  have l2 : 0 < c.testing.length := List.length_pos_of_ne_nil h2
  simp [patchFiles, l1, l2, hm, f1, f2]

/-- C69, refuted: with testing images only, the patch version ends the program. -/
theorem C69_patch_testing_only (isFile : Str → Bool) (c : Cfg D) (h1 : c.training = []) (h2 : c.testing ≠ [])
    (hm : c.noMmap = false) (f1 : isFile [] = false) : patchFiles isFile true false .testingOnly c = .fatal := by
  have l2 : 0 < c.testing.length := List.length_pos_of_ne_nil h2
  simp [patchFiles, l2, hm, h1, f1]

/-- C69, without memory maps (`nommap`, or not BUILD_POSIX): both files are the right ones. -/
theorem C69_patch_files_partial (isFile : Str → Bool) (mmap : Bool) (c : Cfg D) (h1 : c.training ≠ [])
    (h2 : c.testing ≠ []) (hm : mmap = false ∨ c.noMmap = true) (f1 : isFile c.training = true)
    (f2 : isFile c.testing = true) :
    patchFiles isFile mmap false .both c = .done (some ⟨c.training, none⟩, some ⟨c.testing, none⟩) := by
  have l1 : 0 < c.training.length := List.length_pos_of_ne_nil h1
  have l2 : 0 < c.testing.length := List.length_pos_of_ne_nil h2
  rcases hm with hm | hm <;> simp [patchFiles, l1, l2, hm, f1, f2]

/-- A description the theorems apply to: class names that look like settings are names. -/
example : create (fun s => s.length) 1 (text [.comment "# x".toList, .testing "a".toList,
      .classes ["training=z".toList, "colors".toList], .weights ["0.5".toList, "2".toList],
      .colors true [0xFF0000, 0xabcdef], .error true, .training "b".toList]) =
    .done ⟨2, ["training=z".toList, "colors".toList], [0xFF0000, 0xABCDEF], [3, 1], true, "b".toList, "a".toList, false⟩ := by
  rfl

end CN24.Props
