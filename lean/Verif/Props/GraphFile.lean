import Verif.Proof.GraphFile

/-
C95: the picture of a network that the training tool writes shows its layers and connections, and the names in it identify
the layers.
-/

namespace CN24.GraphFile
open CN24 CN24.Config CN24.Dot

/-- Text without the characters that have a meaning in labels and strings. -/
def Plain (s : Str) : Prop := ∀ c ∈ s, c ∉ ['{', '}', '|', '<', '>', '"', '\\']

instance (s : Str) : Decidable (Plain s) := by unfold Plain; infer_instance

/-- The box of a layer: its name and description, and a field for every output with its name and its size. -/
def box (n : Node) : Box where
  name := n.name
  colours := (if n.isInput then ["red".toList] else []) ++ (if n.isOutput then ["blue".toList] else [])
  fields := ⟨"i".toList, (n.name ++ ":".toList) :: words n.description⟩ :: n.buffers.mapIdx fun i b =>
    ⟨"o".toList ++ digitsOf i, words b.description ++ (b.tensor.map tensorText).toList⟩

/-- The arrow of a connection of `n`. -/
def arrow (heap : Nat → Node) (n : Node) (c : Net.Conn) : Arrow :=
  ⟨(heap c.node).name, "o".toList ++ digitsOf c.buffer, n.name, "i".toList, !c.backprop⟩

/-- A node as `Initialize` leaves it, with texts that do not disturb. -/
structure Printable (n : Node) : Prop where
  name : isName n.name = true
  description : Plain n.description
  buffers : ∀ b ∈ n.buffers, Plain b.description ∧ b.tensor.isSome

theorem name_chars {w : Text} (h : isName w = true) : w ≠ [] ∧ ∀ c ∈ w, wordChar c = true := by
  unfold isName at h
  simp only [Bool.and_eq_true, Bool.not_eq_true', List.all_eq_true] at h
  obtain ⟨⟨⟨h1, h2⟩, _⟩, _⟩ := h
  refine ⟨?_, fun c hc => (h2 c hc).1⟩
  rintro rfl
  cases h1

theorem digits_chars (n : Nat) : digitsOf n ≠ [] ∧ ∀ c ∈ digitsOf n, wordChar c = true := by
  refine ⟨digitsOf_ne_nil n, fun c hc => ?_⟩
  have := digitsOf_isDigit hc
  unfold wordChar
  rw [this]
  simp

theorem plain_word {w : Text} (h : ∀ c ∈ w, wordChar c = true) : Plain w := by
  intro c hc hm
  have := h c hc
  have hf : ∀ d ∈ ['{', '}', '|', '<', '>', '"', '\\'], wordChar d = false := by decide
  rw [hf c hm] at this
  cases this

theorem Plain.append {a b : Str} (ha : Plain a) (hb : Plain b) : Plain (a ++ b) := by
  intro c hc
  rcases List.mem_append.1 hc with h | h
  · exact ha c h
  · exact hb c h

theorem plain_digits (n : Nat) : Plain (digitsOf n) := plain_word (digits_chars n).2

theorem plain_tensor (t : Nat × Nat × Nat × Nat) : Plain (tensorText t) := by
  unfold tensorText
  exact (((((((Plain.append (by decide) (plain_digits _)).append (by decide)).append (plain_digits _)).append (by decide)).append
    (plain_digits _)).append (by decide)).append (plain_digits _)).append (by decide)

theorem no_space_word {w : Text} (h : ∀ c ∈ w, wordChar c = true) : ' ' ∉ w := by
  intro hm
  have := h _ hm
  revert this
  decide

theorem tensor_word (t : Nat × Nat × Nat × Nat) : words (tensorText t) = [tensorText t] := by
  apply words_one
  · unfold tensorText
    simp
  · have := fun n => no_space_word (digits_chars n).2
    unfold tensorText
    simp [this]

/-! ### Labels -/

def isBar (c : Char) : Bool := c = '{' || c = '}' || c = '|'

theorem plain_bar {s : Str} (h : Plain s) : ∀ c ∈ s, isBar c = false := by
  intro c hc
  have := h c hc
  simp only [List.mem_cons, List.not_mem_nil, or_false, not_or] at this
  simp [isBar, this.1, this.2.1, this.2.2.1]

theorem gt_not_word {w : Text} (h : ∀ c ∈ w, wordChar c = true) : '>' ∉ w := by
  intro hm
  have := h _ hm
  revert this
  decide

/-- A field of an output. -/
theorem field_output (k i : Nat) (pre d : Str) (hpre : pre = [] ∨ pre = [' ']) (t : Nat × Nat × Nat × Nat) :
    field (List.replicate k ' ' ++ "<o".toList ++ digitsOf i ++ ">".toList ++ pre ++ d ++ " ".toList ++ tensorText t) =
      some (some ⟨"o".toList ++ digitsOf i, words d ++ [tensorText t]⟩) := by
  have h := field_port k (port := "o".toList ++ digitsOf i) (text := pre ++ d ++ " ".toList ++ tensorText t) (by
    intro hm
    rcases List.mem_append.1 hm with h | h
    · revert h; decide
    · exact gt_not_word (digits_chars i).2 h)
  have hw : words (pre ++ d ++ " ".toList ++ tensorText t) = words d ++ [tensorText t] := by
    rw [show " ".toList = [' '] from rfl, List.append_assoc, List.singleton_append, words_append, tensor_word]
    rcases hpre with rfl | rfl
    · rfl
    · rw [show [' '] ++ d = [] ++ ' ' :: d from rfl, words_append, words_nil]
      rfl
  rw [hw] at h
  rw [← h]
  congr 1
  simp [show "<o".toList = ['<', 'o'] from rfl, show "o".toList = ['o'] from rfl, show ">".toList = ['>'] from rfl]

/-- Parts of a label that begin with a bar are read on their own. -/
theorem fields_append (a b : Str) (hb : b = [] ∨ ∃ c r, b = c :: r ∧ isBar c = true) :
    (cut isBar (a ++ b)).filterMap field = (cut isBar a).filterMap field ++ (cut isBar b).filterMap field := by
  rcases hb with rfl | ⟨c, r, rfl, hc⟩
  · rw [List.append_nil]
    show _ = _ ++ []
    rw [List.append_nil]
  · rw [cut_append _ _ hc, List.filterMap_append, show c :: r = [] ++ c :: r from rfl, cut_append _ _ hc,
      List.filterMap_append]
    rfl

/-- The field of output `i`. -/
def outputField (i : Nat) (b : Buffer) : Field :=
  ⟨"o".toList ++ digitsOf i, words b.description ++ (b.tensor.map tensorText).toList⟩

theorem no_quote {s : Str} (h : Plain s) : ∀ c ∈ s, c ≠ '"' ∧ c ≠ '\\' := by
  intro c hc
  have := h c hc
  simp only [List.mem_cons, List.not_mem_nil, or_false, not_or] at this
  exact ⟨this.2.2.2.2.2.1, this.2.2.2.2.2.2⟩

theorem output_piece (k i : Nat) (pre d : Str) (hpre : pre = [] ∨ pre = [' ']) (hd : Plain d) (t : Nat × Nat × Nat × Nat) :
    (cut isBar (List.replicate k ' ' ++ "<o".toList ++ digitsOf i ++ ">".toList ++ pre ++ d ++ " ".toList ++
      tensorText t)).filterMap field = [some ⟨"o".toList ++ digitsOf i, words d ++ [tensorText t]⟩] := by
  rw [cut_plain, List.filterMap_cons, field_output k i pre d hpre t]
  · rfl
  · intro c hc
    simp only [List.mem_append] at hc
    rcases hc with ((((((h | h) | h) | h) | h) | h) | h) | h
    · rw [List.eq_of_mem_replicate h]; rfl
    · revert c; decide
    · exact plain_bar (plain_digits i) c h
    · revert c; decide
    · rcases hpre with rfl | rfl
      · cases h
      · revert c; decide
    · exact plain_bar hd c h
    · revert c; decide
    · exact plain_bar (plain_tensor t) c h

/-- Fields of several outputs. -/
theorem fields_buffers (bs : List Buffer) (i : Nat) (h : ∀ b ∈ bs, Plain b.description ∧ b.tensor.isSome) :
    ∃ s, bufferTexts i bs = some s ∧ (∀ c ∈ s, c ≠ '"' ∧ c ≠ '\\') ∧
      (0 < i → s = [] ∨ ∃ c r, s = c :: r ∧ isBar c = true) ∧
      (cut isBar s).filterMap field = (bs.mapIdx fun j b => outputField (i + j) b).map some := by
  induction bs generalizing i with
  | nil => exact ⟨[], rfl, by simp, fun _ => Or.inl rfl, rfl⟩
  | cons b bs ih =>
    obtain ⟨hd, ht⟩ := h b (by simp)
    obtain ⟨s, h1, h2, h3, h4⟩ := ih (i + 1) fun c hc => h c (by simp [hc])
    obtain ⟨t, ht⟩ := Option.isSome_iff_exists.1 ht
    have hrest := h3 (by omega)
    let piece := "<o".toList ++ digitsOf i ++ ">".toList ++ b.description ++ " ".toList ++ tensorText t
    have hp : (cut isBar piece).filterMap field = [some (outputField i b)] := by
      have := output_piece 0 i [] b.description (Or.inl rfl) hd t
      simp only [List.replicate_zero, List.nil_append, List.append_nil] at this
      unfold outputField
      rw [ht]
      exact this
    have hq : ∀ c ∈ piece, c ≠ '"' ∧ c ≠ '\\' := by
      intro c hc
      simp only [piece, List.mem_append] at hc
      rcases hc with ((((h | h) | h) | h) | h) | h
      · revert c; decide
      · exact no_quote (plain_digits i) c h
      · revert c; decide
      · exact no_quote hd c h
      · revert c; decide
      · exact no_quote (plain_tensor t) c h
    have hmap : ((b :: bs).mapIdx fun j b => outputField (i + j) b).map some =
        some (outputField i b) :: (bs.mapIdx fun j b => outputField (i + 1 + j) b).map some := by
      rw [List.mapIdx_cons]
      simp only [List.map_cons, Nat.add_zero]
      congr 3
      funext j b
      rw [show i + (j + 1) = i + 1 + j by omega]
    have hrec : (cut isBar (piece ++ s)).filterMap field = ((b :: bs).mapIdx fun j b => outputField (i + j) b).map some := by
      rw [fields_append _ _ hrest, hp, h4, hmap]
      rfl
    refine ⟨(if i > 0 then "|".toList else []) ++ (piece ++ s), ?_, ?_, ?_, ?_⟩
    · rw [bufferTexts, ht, h1]
      simp [piece]
    · intro c hc
      rcases List.mem_append.1 hc with hc | hc
      · split at hc
        · exact (by decide : ∀ c ∈ "|".toList, c ≠ '"' ∧ c ≠ '\\') c hc
        · cases hc
      · rcases List.mem_append.1 hc with hc | hc
        · exact hq c hc
        · exact h2 c hc
    · intro hi
      rw [if_pos hi]
      exact Or.inr ⟨'|', _, rfl, rfl⟩
    · split
      · rw [show "|".toList ++ (piece ++ s) = [] ++ '|' :: (piece ++ s) from rfl, cut_append _ _ (by decide),
          List.filterMap_append, hrec]
        rfl
      · exact hrec

theorem mapM_some {α : Type} (l : List α) : (l.map some).mapM id = some l := by
  induction l with
  | nil => rfl
  | cons a l ih => rw [List.map_cons, List.mapM_cons, ih]; rfl

/-- The label of a box is what `box` says. -/
theorem label_fields (n : Node) (h : Printable n) :
    ∃ l, label n = some l ∧ (∀ c ∈ l, c ≠ '"' ∧ c ≠ '\\') ∧ fields l = some (box n).fields := by
  obtain ⟨hname, hdesc, hbuf⟩ := h
  obtain ⟨hn1, hn2⟩ := name_chars hname
  let first := " <i> ".toList ++ n.name ++ ": ".toList ++ n.description
  have hfirst : (cut isBar first).filterMap field = [some ⟨"i".toList, (n.name ++ ":".toList) :: words n.description⟩] := by
    have e : first = List.replicate 1 ' ' ++ '<' :: ("i".toList ++ '>' :: (' ' :: (n.name ++ ":".toList ++ ' ' :: n.description))) := by
      simp [first, show " <i> ".toList = [' ', '<', 'i', '>', ' '] from rfl, show ": ".toList = [':', ' '] from rfl,
        show ":".toList = [':'] from rfl, show "i".toList = ['i'] from rfl]
    have hw : words (' ' :: (n.name ++ ":".toList ++ ' ' :: n.description)) = (n.name ++ ":".toList) :: words n.description := by
      rw [show ' ' :: (n.name ++ ":".toList ++ ' ' :: n.description) = [] ++ ' ' :: (n.name ++ ":".toList ++ ' ' :: n.description) from rfl,
        words_append, words_append, words_one (a := n.name ++ ":".toList) (by simp)]
      · rfl
      · intro hm
        rcases List.mem_append.1 hm with h | h
        · exact no_space_word hn2 h
        · revert h; decide
    rw [cut_plain]
    · rw [List.filterMap_cons, e, field_port 1 (by decide), hw]
      rfl
    · have : Plain n.name := plain_word hn2
      intro c hc
      simp only [first, List.mem_append] at hc
      rcases hc with ((h | h) | h) | h
      · revert c; decide
      · exact plain_bar this c h
      · revert c; decide
      · exact plain_bar hdesc c h
  have hfq : ∀ c ∈ first, c ≠ '"' ∧ c ≠ '\\' := by
    intro c hc
    simp only [first, List.mem_append] at hc
    rcases hc with ((h | h) | h) | h
    · revert c; decide
    · exact no_quote (plain_word hn2) c h
    · revert c; decide
    · exact no_quote hdesc c h
  have key : ∀ s : Str, (∀ c ∈ s, c ≠ '"' ∧ c ≠ '\\') → (s = [] ∨ ∃ c r, s = c :: r ∧ isBar c = true) →
      (cut isBar s).filterMap field = (n.buffers.mapIdx outputField).map some →
      (∀ c ∈ "{ <i> ".toList ++ n.name ++ ": ".toList ++ n.description ++ s ++ "}".toList, c ≠ '"' ∧ c ≠ '\\') ∧
      fields ("{ <i> ".toList ++ n.name ++ ": ".toList ++ n.description ++ s ++ "}".toList) = some (box n).fields := by
    intro s h1 h2 h3
    have e : "{ <i> ".toList ++ n.name ++ ": ".toList ++ n.description ++ s ++ "}".toList =
        [] ++ '{' :: ((first ++ s) ++ '}' :: []) := by
      simp [first, show " <i> ".toList = [' ', '<', 'i', '>', ' '] from rfl,
        show "{ <i> ".toList = ['{', ' ', '<', 'i', '>', ' '] from rfl, show "}".toList = ['}'] from rfl]
    constructor
    · rw [e]
      intro c hc
      simp only [List.nil_append, List.mem_cons, List.mem_append, List.not_mem_nil, or_false] at hc
      rcases hc with rfl | (h | h) | rfl
      · decide
      · exact hfq c h
      · exact h1 c h
      · decide
    · rw [e]
      unfold fields
      show ((cut isBar _).filterMap field).mapM id = _
      rw [cut_append _ _ (by decide), cut_append _ _ (by decide), List.filterMap_append, List.filterMap_append,
        fields_append _ _ h2, hfirst, h3]
      have := mapM_some ((box n).fields)
      rw [← this]
      congr 1
      show [] ++ ([_] ++ _ ++ []) = _
      rw [List.append_nil]
      rfl
  unfold label
  cases hb : n.buffers with
  | nil =>
    obtain ⟨k1, k2⟩ := key [] (by simp) (Or.inl rfl) (by rw [hb]; rfl)
    exact ⟨_, rfl, k1, k2⟩
  | cons b bs =>
    cases bs with
    | nil =>
      obtain ⟨hd, ht⟩ := hbuf b (by simp [hb])
      obtain ⟨t, ht⟩ := Option.isSome_iff_exists.1 ht
      have hp := output_piece 1 0 [' '] b.description (Or.inr rfl) hd t
      have e : "| <o0> ".toList ++ b.description ++ " ".toList ++ tensorText t = [] ++ '|' :: (List.replicate 1 ' ' ++ "<o".toList ++
          digitsOf 0 ++ ">".toList ++ [' '] ++ b.description ++ " ".toList ++ tensorText t) := by
        simp [show "| <o0> ".toList = ['|', ' ', '<', 'o', '0', '>', ' '] from rfl, show "<o".toList = ['<', 'o'] from rfl,
          show digitsOf 0 = ['0'] from rfl, show ">".toList = ['>'] from rfl]
      obtain ⟨k1, k2⟩ := key ("| <o0> ".toList ++ b.description ++ " ".toList ++ tensorText t) (by
          intro c hc
          simp only [List.mem_append] at hc
          rcases hc with ((h | h) | h) | h
          · revert c; decide
          · exact no_quote hd c h
          · revert c; decide
          · exact no_quote (plain_tensor t) c h)
        (Or.inr ⟨'|', _, e, rfl⟩) (by
          rw [e, cut_append _ _ (by decide), List.filterMap_append, hp, hb]
          simp only [List.mapIdx_cons, List.mapIdx_nil, List.map_cons, List.map_nil, outputField, ht]
          rfl)
      simp only [ht, Option.map_some]
      exact ⟨_, rfl, k1, k2⟩
    | cons c cs =>
      obtain ⟨s, h1, h2, _, h4⟩ := fields_buffers (b :: c :: cs) 0 (by rw [← hb]; exact hbuf)
      have e : "| {".toList ++ s ++ "}".toList = [] ++ '|' :: ([' '] ++ '{' :: (s ++ '}' :: [])) := by
        simp [show "| {".toList = ['|', ' ', '{'] from rfl, show "}".toList = ['}'] from rfl]
      obtain ⟨k1, k2⟩ := key ("| {".toList ++ s ++ "}".toList) (by
          intro c hc
          simp only [List.mem_append] at hc
          rcases hc with (h | h) | h
          · revert c; decide
          · exact h2 c h
          · revert c; decide)
        (Or.inr ⟨'|', _, e, rfl⟩) (by
          rw [e, cut_append _ _ (by decide), cut_append _ _ (by decide), cut_append _ _ (by decide), List.filterMap_append,
            List.filterMap_append, List.filterMap_append, h4, hb]
          show [] ++ ([] ++ (_ ++ [])) = _
          simp)
      simp only [h1, Option.map_some]
      exact ⟨_, rfl, k1, k2⟩

/-! ### Statements -/

/-- The statement of a node with the label `l`. -/
def nodeStatement (n : Node) (l : Str) : Statement :=
  .node n.name ([("shape".toList, "record".toList)] ++ (if n.isInput then [("color".toList, "red".toList)] else []) ++
    (if n.isOutput then [("color".toList, "blue".toList)] else []) ++ [("label".toList, l)])

theorem reads_node (n : Node) (hn : isName n.name = true) (l : Str) (hl : label n = some l) (hq : ∀ c ∈ l, c ≠ '"' ∧ c ≠ '\\') :
    ∃ s, nodeText n = some s ∧ Reads s [nodeStatement n l] := by
  obtain ⟨h1, h2⟩ := name_chars hn
  have a1 := step_word h1 h2
  have a2 : Step (.inWord n.name.reverse) " [shape=record,".toList
      [.word n.name.reverse.reverse, .lbrack, .word "shape".toList, .equals, .word "record".toList, .comma] .between :=
    step_of_scan rfl
  rw [List.reverse_reverse] at a2
  have a3 : Step .between (if n.isInput then "color=red,".toList else [])
      (if n.isInput then [.word "color".toList, .equals, .word "red".toList, .comma] else []) .between := by
    split
    · exact step_of_scan rfl
    · exact Step.nil _
  have a4 : Step .between (if n.isOutput then "color=blue,".toList else [])
      (if n.isOutput then [.word "color".toList, .equals, .word "blue".toList, .comma] else []) .between := by
    split
    · exact step_of_scan rfl
    · exact Step.nil _
  have a5 : Step .between " label=\"".toList [.word "label".toList, .equals] (.inString []) := step_of_scan rfl
  have a6 := step_string hq []
  have a7 : Step (.inString (l.reverse ++ [])) "\"];\n".toList [.quoted (l.reverse ++ []).reverse, .rbrack, .semi] .between :=
    step_of_scan rfl
  rw [List.append_nil, List.reverse_reverse] at a7
  rw [List.append_nil] at a6
  have hk : isName n.name = true → ¬n.name = ['g', 'r', 'a', 'p', 'h'] := by
    intro h e
    rw [e] at h
    revert h
    decide
  refine ⟨_, by rw [nodeText, hl]; rfl, _, (((((a1.trans a2).trans a3).trans a4).trans a5).trans a6).trans a7, ?_⟩
  apply Parses.one
  · simp
  · simp
  · intro rest
    unfold nodeStatement
    cases n.isInput <;> cases n.isOutput <;>
      simp [statement, attributes, hn, hk hn]

/-- The statement of an edge. -/
def edgeStatement (heap : Nat → Node) (n : Node) (c : Net.Conn) : Statement :=
  .edge (heap c.node).name ("o".toList ++ digitsOf c.buffer) n.name "i".toList
    ([("penwidth".toList, "2".toList)] ++ if c.backprop then [] else [("style".toList, "dotted".toList)])

theorem reads_edge (heap : Nat → Node) (n : Node) (c : Net.Conn) (hn : isName n.name = true)
    (hc : isName (heap c.node).name = true) : Reads (edgeText heap n c) [edgeStatement heap n c] := by
  obtain ⟨h1, h2⟩ := name_chars hn
  obtain ⟨k1, k2⟩ := name_chars hc
  have a1 := step_word k1 k2
  have a2 : Step (.inWord (heap c.node).name.reverse) ":o".toList [.word (heap c.node).name.reverse.reverse, .colon] (.inWord ['o']) :=
    step_of_scan rfl
  rw [List.reverse_reverse] at a2
  have a3 := step_inWord (digits_chars c.buffer).2 ['o']
  have a4 : Step (.inWord ((digitsOf c.buffer).reverse ++ ['o'])) " -> ".toList
      [.word ((digitsOf c.buffer).reverse ++ ['o']).reverse, .arrow] .between := step_of_scan rfl
  rw [List.reverse_append, List.reverse_reverse] at a4
  have a5 := step_word h1 h2
  have a6 : Step (.inWord n.name.reverse) ":i".toList [.word n.name.reverse.reverse, .colon] (.inWord ['i']) := step_of_scan rfl
  rw [List.reverse_reverse] at a6
  have a7 : Step (.inWord ['i']) "[penwidth=2".toList [.word "i".toList, .lbrack, .word "penwidth".toList, .equals] (.inWord ['2']) :=
    step_of_scan rfl
  have a8 : Step (.inWord ['2']) ((if c.backprop then [] else ",style=dotted".toList) ++ "];\n".toList)
      (.word "2".toList :: ((if c.backprop then [] else [.comma, .word "style".toList, .equals, .word "dotted".toList]) ++
        [.rbrack, .semi])) .between := by
    cases c.backprop
    · exact step_of_scan rfl
    · exact step_of_scan rfl
  refine ⟨_, by unfold edgeText; rw [List.append_assoc]; exact ((((((a1.trans a2).trans a3).trans a4).trans a5).trans a6).trans a7).trans a8, ?_⟩
  apply Parses.one
  · simp
  · simp
  · intro rest
    unfold edgeStatement
    cases c.backprop <;> simp [statement, attributes, hn, hc]

/-- All sources of connections have names. -/
def Named (g : Graph) : Prop := ∀ n ∈ g.nodes, ∀ c ∈ (g.heap n).inputs, isName (g.heap c.node).name = true

theorem draw_append (a b : List Statement) : draw (a ++ b) = (draw a).bind fun r => (draw b).map fun r' => (r.1 ++ r'.1, r.2 ++ r'.2) := by
  induction a with
  | nil => simp [draw]
  | cons s a ih =>
    cases s with
    | graph _ => exact ih
    | node n at' =>
      simp only [List.cons_append, draw, ih]
      split
      · split
        · cases fields _ <;> cases draw a <;> cases draw b <;> simp
        · rfl
      · rfl
    | edge s p t q at' =>
      simp only [List.cons_append, draw, ih]
      cases draw a <;> cases draw b <;> simp

theorem draw_node (n : Node) (l : Str) (hl : fields l = some (box n).fields) : draw [nodeStatement n l] = some ([box n], []) := by
  unfold nodeStatement
  have e : ∀ fs, box n = ⟨n.name, (if n.isInput then ["red".toList] else []) ++ (if n.isOutput then ["blue".toList] else []), fs⟩ →
      fs = (box n).fields := fun fs h => by rw [h]
  cases hi : n.isInput <;> cases ho : n.isOutput <;>
    simp [draw, valuesOf, hl] <;> simp [box, hi, ho]

theorem draw_edges (heap : Nat → Node) (n : Node) (cs : List Net.Conn) :
    draw (cs.map (edgeStatement heap n)) = some ([], cs.map (arrow heap n)) := by
  induction cs with
  | nil => rfl
  | cons c cs ih =>
    rw [List.map_cons, edgeStatement, draw, ih]
    unfold arrow
    cases hc : c.backprop <;> simp [valuesOf, hc]

/-- Reading the texts of the nodes and edges. -/
theorem texts_read (heap : Nat → Node) (ns : List Nat) (hp : ∀ n ∈ ns, Printable (heap n))
    (hs : ∀ n ∈ ns, ∀ c ∈ (heap n).inputs, isName (heap c.node).name = true) :
    ∃ a b sa sb, texts heap ns = some (a, b) ∧ Reads a sa ∧ Reads b sb ∧ draw sa = some (ns.map fun n => box (heap n), []) ∧
      draw sb = some ([], ns.flatMap fun n => (heap n).inputs.map (arrow heap (heap n))) := by
  induction ns with
  | nil => exact ⟨[], [], [], [], rfl, Reads.nil, Reads.nil, rfl, rfl⟩
  | cons n ns ih =>
    obtain ⟨a, b, sa, sb, h1, h2, h3, h4, h5⟩ := ih (fun m hm => hp m (by simp [hm])) (fun m hm => hs m (by simp [hm]))
    have hn := hp n (by simp)
    obtain ⟨l, l1, l2, l3⟩ := label_fields (heap n) hn
    obtain ⟨t, t1, t2⟩ := reads_node (heap n) hn.name l l1 l2
    have e := Reads.flatMap (heap n).inputs (edgeText heap (heap n)) (edgeStatement heap (heap n))
      fun c hc => reads_edge heap (heap n) c hn.name (hs n (by simp) c hc)
    refine ⟨_, _, _, _, by rw [texts, t1, h1]; rfl, t2.append h2, e.append h3, ?_, ?_⟩
    · rw [draw_append, draw_node _ _ l3, h4]; rfl
    · rw [draw_append, draw_edges, h5]; rfl

/-- C95: Graphviz draws the graph file of every initialised network as one box for every layer, with its name, its description,
its outputs and their sizes, red for inputs and blue for outputs, and one arrow for every connection, from the output it
reads to the layer, dotted if no gradient is passed back. -/
theorem C95_graph_file (g : Graph) (hp : ∀ n ∈ g.nodes, Printable (g.heap n)) (hs : Named g) :
    ∃ text, graphFile g = some text ∧
      drawing text = some (g.nodes.map fun n => box (g.heap n),
        g.nodes.flatMap fun n => (g.heap n).inputs.map (arrow g.heap (g.heap n))) := by
  unfold graphFile printGraph drawing
  split
  · rename_i h
    rw [List.length_eq_zero_iff.1 h]
    exact ⟨_, rfl, by rw [file_of_reads Reads.nil]; rfl⟩
  · obtain ⟨a, b, sa, sb, h1, h2, h3, h4, h5⟩ := texts_read g.heap g.nodes hp hs
    rw [h1]
    refine ⟨_, rfl, ?_⟩
    have r0 : Reads "graph [ranksep=.75, esep=1];".toList
        [.graph [("ranksep".toList, ".75".toList), ("esep".toList, "1".toList)]] :=
      ⟨[.word "graph".toList, .lbrack, .word "ranksep".toList, .equals, .word ".75".toList, .comma, .word "esep".toList, .equals,
        .word "1".toList, .rbrack, .semi], step_of_scan (by decide +kernel), Parses.one (by simp) (by simp) fun rest => by
          simp [statement, attributes]⟩
    rw [file_of_reads ((r0.append h2).append h3)]
    show draw _ = _
    rw [draw_append, draw_append, h4, h5]
    show (some _ : Option (List Box × List Arrow)) = _
    simp [draw]

/-! ### Names -/

/-- Names that `AddNode` gives. -/
def autoName (i : Nat) : Str := "node".toList ++ digitsOf i

theorem autoName_inj {i j : Nat} (h : autoName i = autoName j) : i = j := by
  have := List.append_cancel_left h
  rw [← digitsValue_digitsOf i, this, digitsValue_digitsOf]

theorem lower_digit {c : Char} (h : c.isDigit = true) : c.toLower = c := by
  unfold Char.toLower
  rw [dif_neg]
  simp only [Char.isDigit, Bool.and_eq_true, decide_eq_true_eq] at h
  intro hu
  have h1 := h.2
  have h2 := hu.1
  exact absurd (UInt32.le_trans h2 h1) (by decide)

theorem autoName_isName (i : Nat) : isName (autoName i) = true := by
  have hd : ∀ c ∈ digitsOf i, c.isDigit = true := fun c hc => digitsOf_isDigit hc
  unfold isName
  simp only [Bool.and_eq_true, Bool.not_eq_true', List.all_eq_true]
  refine ⟨⟨⟨rfl, ?_⟩, rfl⟩, ?_⟩
  · intro c hc
    rcases List.mem_append.1 hc with h | h
    · exact (by decide : ∀ c ∈ "node".toList, wordChar c = true ∧ (c != '.') = true) c h
    · have h1 := hd c h
      refine ⟨by unfold wordChar; rw [h1]; simp, ?_⟩
      have : c ≠ '.' := by rintro rfl; revert h1; decide
      simpa using this
  · rw [Bool.eq_false_iff]
    intro hk
    have hm : (autoName i).map Char.toLower ∈ keywords := by simpa [isKeyword] using hk
    have hno : ∀ w ∈ keywords, ∀ c ∈ w, c.isDigit = false := by decide
    obtain ⟨c, hc⟩ := List.exists_mem_of_ne_nil _ (digitsOf_ne_nil i)
    have h1 := hd c hc
    have h2 : c ∈ (autoName i).map Char.toLower :=
      List.mem_map.2 ⟨c, List.mem_append.2 (Or.inr hc), lower_digit h1⟩
    rw [hno _ hm c h2] at h1
    cases h1

/-- Adding nodes one after the other. -/
def addAll (g : Graph) (ns : List Nat) : Graph := ns.foldl addNode g

/-- What is known when the nodes `done` have been added to an empty graph. -/
structure Added (heap : Nat → Node) (done : List Nat) (g : Graph) : Prop where
  nodes : g.nodes = done
  others : ∀ k, k ∉ done → g.heap k = heap k
  rest : ∀ k, ∃ name, g.heap k = { heap k with name := name }
  user : ∀ k, (heap k).name ≠ [] → g.heap k = heap k
  auto : ∀ k ∈ done, (heap k).name = [] → ∃ i, i < g.nextUid ∧ (g.heap k).name = autoName i
  apart : ∀ k ∈ done, ∀ l ∈ done, (heap k).name = [] → (heap l).name = [] → (g.heap k).name = (g.heap l).name → k = l

theorem Added.add {heap : Nat → Node} {done : List Nat} {g : Graph} (h : Added heap done g) {n : Nat} (hn : n ∉ done) :
    Added heap (done ++ [n]) (addNode g n) := by
  have hname : g.heap n = heap n := h.others n hn
  unfold addNode
  rw [hname]
  by_cases he : (heap n).name = []
  · rw [if_pos (by rw [he]; rfl)]
    refine ⟨by rw [h.nodes], ?_, ?_, ?_, ?_, ?_⟩
    · intro k hk
      have hk' : k ≠ n := by rintro rfl; simp at hk
      simp only [if_neg hk']
      exact h.others k fun hm => hk (by simp [hm])
    · intro k
      dsimp only
      split
      · rename_i e; subst e; exact ⟨_, rfl⟩
      · exact h.rest k
    · intro k hk
      have hk' : k ≠ n := by rintro rfl; exact hk he
      simp only [if_neg hk']
      exact h.user k hk
    · intro k hk hkn
      dsimp only
      split
      · exact ⟨g.nextUid, Nat.lt_succ_self _, rfl⟩
      · rename_i e
        obtain ⟨i, i1, i2⟩ := h.auto k (by simpa [e] using hk) hkn
        exact ⟨i, by omega, i2⟩
    · intro k hk l hl hkn hln heq
      dsimp only at heq
      split at heq
      · split at heq
        · rename_i a b; rw [a, b]
        · rename_i e e'
          obtain ⟨i, i1, i2⟩ := h.auto l (by simpa [e'] using hl) hln
          rw [i2] at heq
          have := autoName_inj (i := g.nextUid) heq
          omega
      · split at heq
        · rename_i e e'
          obtain ⟨i, i1, i2⟩ := h.auto k (by simpa [e] using hk) hkn
          rw [i2] at heq
          have := autoName_inj (j := g.nextUid) heq
          omega
        · rename_i e e'
          exact h.apart k (by simpa [e] using hk) l (by simpa [e'] using hl) hkn hln heq
  · rw [if_neg (by rw [List.length_eq_zero_iff]; exact he)]
    refine ⟨by rw [h.nodes], fun k hk => h.others k fun hm => hk (by simp [hm]), h.rest, h.user, ?_, ?_⟩
    · intro k hk hkn
      have hk' : k ≠ n := by rintro rfl; exact he hkn
      exact h.auto k (by simpa [hk'] using hk) hkn
    · intro k hk l hl hkn hln
      have hk' : k ≠ n := by rintro rfl; exact he hkn
      have hl' : l ≠ n := by rintro rfl; exact he hln
      exact h.apart k (by simpa [hk'] using hk) l (by simpa [hl'] using hl) hkn hln

theorem added_all (heap : Nat → Node) (ns : List Nat) (hn : ns.Nodup) : Added heap ns (addAll ⟨heap, [], 0⟩ ns) := by
  suffices ∀ (ns done : List Nat) (g : Graph), Added heap done g → (done ++ ns).Nodup → Added heap (done ++ ns) (addAll g ns) from
    this ns [] ⟨heap, [], 0⟩ ⟨rfl, fun _ _ => rfl, fun k => ⟨_, rfl⟩, fun _ _ => rfl, by simp, by simp⟩ hn
  intro ns
  induction ns with
  | nil => intro done g h _; rw [List.append_nil]; exact h
  | cons n ns ih =>
    intro done g h hd
    have hn : n ∉ done := fun hm => by
      rw [List.nodup_append] at hd
      exact hd.2.2 n hm n (by simp) rfl
    have := ih (done ++ [n]) (addNode g n) (h.add hn) (by simpa using hd)
    rw [List.append_assoc] at this
    exact this

/-- C95: however nodes are added to a graph, in whatever order, those without a name get names that differ from each other
and are valid for Graphviz; only names are changed.  If the names given by the user differ from each other and are not of the form
that the graph uses, all names differ, and asking for the statistics of the name of a node reports that node and no other. -/
theorem C95_names_partial (heap : Nat → Node) (ns : List Nat) (hn : ns.Nodup)
    (huser : ∀ n ∈ ns, (heap n).name ≠ [] → isName (heap n).name = true ∧ ∀ i, (heap n).name ≠ autoName i)
    (hdiff : ∀ n ∈ ns, ∀ m ∈ ns, (heap n).name ≠ [] → (heap n).name = (heap m).name → n = m) :
    let g := addAll ⟨heap, [], 0⟩ ns
    g.nodes = ns ∧ (∀ k, ∃ name, g.heap k = { heap k with name := name }) ∧ (∀ k, (heap k).name ≠ [] → g.heap k = heap k) ∧
      (∀ n ∈ ns, isName (g.heap n).name = true) ∧
      (∀ n ∈ ns, ∀ m ∈ ns, (g.heap n).name = (g.heap m).name → n = m) ∧
      ∀ n ∈ ns, reported g (g.heap n).name = [n] := by
  intro g
  have h : Added heap ns g := added_all heap ns hn
  have hinj : ∀ n ∈ ns, ∀ m ∈ ns, (g.heap n).name = (g.heap m).name → n = m := by
    intro n hn' m hm e
    by_cases h1 : (heap n).name = []
    · by_cases h2 : (heap m).name = []
      · exact h.apart n hn' m hm h1 h2 e
      · obtain ⟨i, _, hi⟩ := h.auto n hn' h1
        rw [hi, h.user m h2] at e
        exact absurd e.symm ((huser m hm h2).2 i)
    · by_cases h2 : (heap m).name = []
      · obtain ⟨i, _, hi⟩ := h.auto m hm h2
        rw [hi, h.user n h1] at e
        exact absurd e ((huser n hn' h1).2 i)
      · rw [h.user n h1, h.user m h2] at e
        exact hdiff n hn' m hm h1 e
  refine ⟨h.nodes, h.rest, h.user, ?_, hinj, ?_⟩
  · intro n hn'
    by_cases h1 : (heap n).name = []
    · obtain ⟨i, _, hi⟩ := h.auto n hn' h1
      rw [hi]
      exact autoName_isName i
    · rw [h.user n h1]
      exact (huser n hn' h1).1
  · intro n hn'
    have : ∀ l : List Nat, l.Nodup → (∀ m ∈ l, m ∈ ns) →
        (l.filter fun m => (g.heap m).name = (g.heap n).name) = if n ∈ l then [n] else [] := by
      intro l
      induction l with
      | nil => intro _ _; rfl
      | cons m l ih =>
        intro hd hsub
        have ih' := ih (List.nodup_cons.1 hd).2 fun k hk => hsub k (by simp [hk])
        by_cases e : m = n
        · subst e
          rw [List.filter_cons_of_pos (by simp), ih', if_neg (List.nodup_cons.1 hd).1, if_pos (by simp)]
        · rw [List.filter_cons_of_neg, ih']
          · simp [Ne.symm e]
          · simp only [decide_eq_true_eq]
            exact fun h => e (hinj m (hsub m (by simp)) n hn' h)
    unfold reported
    rw [h.nodes, this ns hn (fun _ h => h), if_pos hn']

/-- C95 fails for names chosen by the user: a node called node0 that is added before one without a name shares its name,
and the statistics of both are reported. -/
theorem C95_name_clash : ∃ heap : Nat → Node, (heap 0).name = "node0".toList ∧ (heap 1).name = [] ∧
    let g := addAll ⟨heap, [], 0⟩ [0, 1]
    (g.heap 0).name = (g.heap 1).name ∧ reported g "node0".toList = [0, 1] :=
  ⟨fun n => if n = 0 then { name := "node0".toList } else {}, rfl, rfl, by decide +kernel, by decide +kernel⟩

/-- C95: every arrow in the picture starts at a field that its box has, if the connection is one that `IsComplete` accepts. -/
theorem C95_ports (g : Graph) (n : Nat) (c : Net.Conn) (hc : c.buffer < (g.heap c.node).buffers.length) :
    (arrow g.heap (g.heap n) c).source = (box (g.heap c.node)).name ∧
      (∃ f ∈ (box (g.heap c.node)).fields, f.port = (arrow g.heap (g.heap n) c).sourcePort) ∧
      (arrow g.heap (g.heap n) c).target = (box (g.heap n)).name ∧
      ∃ f ∈ (box (g.heap n)).fields, f.port = (arrow g.heap (g.heap n) c).targetPort := by
  refine ⟨rfl, ⟨outputField c.buffer (g.heap c.node).buffers[c.buffer], ?_, rfl⟩, rfl, ⟨_, List.mem_cons_self, rfl⟩⟩
  refine List.mem_cons_of_mem _ ?_
  rw [List.mem_mapIdx]
  exact ⟨c.buffer, hc, rfl⟩

/-- C95: asking for the picture before the network is initialised reads through a null pointer. -/
theorem C95_before_initialize (g : Graph) (n : Nat) (hn : n ∈ g.nodes) (b : Buffer) (hb : b ∈ (g.heap n).buffers) (ht : b.tensor = none) :
    graphFile g = none := by
  have h1 : ∀ bs : List Buffer, ∀ i, b ∈ bs → bufferTexts i bs = none := by
    intro bs
    induction bs with
    | nil => intro i h; cases h
    | cons a bs ih =>
      intro i h
      rw [bufferTexts]
      rcases List.mem_cons.1 h with rfl | h
      · rw [ht]; rfl
      · rw [ih (i + 1) h]; cases a.tensor <;> rfl
  have h2 : nodeText (g.heap n) = none := by
    have hl : label (g.heap n) = none := by
      generalize g.heap n = m at hb
      unfold label
      cases hbs : m.buffers with
      | nil => rw [hbs] at hb; cases hb
      | cons a bs =>
        rw [hbs] at hb
        cases bs with
        | nil =>
          have : b = a := List.mem_singleton.1 hb
          subst this
          dsimp only
          rw [ht]
          rfl
        | cons c cs =>
          dsimp only
          rw [h1 _ 0 hb]
          rfl
    unfold nodeText
    rw [hl]
    rfl
  have h3 : ∀ ns : List Nat, n ∈ ns → texts g.heap ns = none := by
    intro ns
    induction ns with
    | nil => intro h; cases h
    | cons m ns ih =>
      intro h
      rw [texts]
      rcases List.mem_cons.1 h with rfl | h
      · rw [h2]; rfl
      · rw [ih h]; cases nodeText (g.heap m) <;> rfl
  unfold graphFile printGraph
  rw [if_neg, h3 _ hn]
  · rfl
  · intro e
    rw [List.length_eq_zero_iff.1 e] at hn
    cases hn

/-! ### Sizes -/

/-- The sizes of a tensor, as a person reads them: samples at width by height by maps. -/
structure Size where
  samples : Nat
  width : Nat
  height : Nat
  maps : Nat
  deriving DecidableEq, Repr

/-- A number at the beginning of a text, and the rest after `after`. -/
def numberThen (after s : Text) : Option (Nat × Text) :=
  let digits := s.takeWhile Char.isDigit
  let rest := s.dropWhile Char.isDigit
  if digits ≠ [] ∧ rest.take after.length = after then
    some (digits.foldl (fun n c => 10 * n + (c.toNat - 48)) 0, rest.drop after.length)
  else none

/-- Reading `(2s@8x6x3m)`. -/
def readSize : Text → Option Size
  | '(' :: s => do
    let (samples, s) ← numberThen "s@".toList s
    let (width, s) ← numberThen "x".toList s
    let (height, s) ← numberThen "x".toList s
    let (maps, s) ← numberThen "m)".toList s
    if s = [] then some ⟨samples, width, height, maps⟩ else none
  | _ => none

theorem numberThen_digits (n : Nat) (c : Char) (cs rest : Str) (hc : c.isDigit = false) :
    numberThen (c :: cs) (digitsOf n ++ (c :: cs) ++ rest) = some (n, rest) := by
  have hd : ∀ x ∈ digitsOf n, x.isDigit = true := fun x hx => digitsOf_isDigit hx
  unfold numberThen
  rw [List.append_assoc, List.takeWhile_append_of_pos hd, List.dropWhile_append_of_pos hd, List.cons_append,
    List.takeWhile_cons_of_neg (by simp [hc]), List.dropWhile_cons_of_neg (by simp [hc]), List.append_nil, ← List.cons_append]
  dsimp only
  rw [List.take_left, List.drop_left]
  rw [if_pos ⟨digitsOf_ne_nil n, rfl⟩]
  have := digitsValue_digitsOf n
  unfold digitsValue at this
  conv at this => lhs; arg 1; ext n c; rw [Nat.mul_comm]
  exact congrArg (fun m => some (m, rest)) this

theorem readSize_tensorText (t : Nat × Nat × Nat × Nat) : readSize (tensorText t) = some ⟨t.1, t.2.1, t.2.2.1, t.2.2.2⟩ := by
  have e : tensorText t = '(' :: (digitsOf t.1 ++ "s@".toList ++ (digitsOf t.2.1 ++ "x".toList ++ (digitsOf t.2.2.1 ++ "x".toList ++
      (digitsOf t.2.2.2 ++ "m)".toList ++ [])))) := by
    unfold tensorText
    simp only [List.append_assoc, List.append_nil]
    rfl
  rw [e]
  unfold readSize
  simp only [bind, Option.bind]
  rw [show "s@".toList = ['s', '@'] from rfl, show "x".toList = ['x'] from rfl, show "m)".toList = ['m', ')'] from rfl]
  rw [numberThen_digits _ 's' ['@'] _ (by decide)]
  dsimp only
  rw [numberThen_digits _ 'x' [] _ (by decide)]
  dsimp only
  rw [numberThen_digits _ 'x' [] _ (by decide)]
  dsimp only
  rw [numberThen_digits _ 'm' [')'] _ (by decide)]
  dsimp only
  rw [if_pos rfl]

/-- C95: the field of an output ends with a word that is read as the sizes of its tensor. -/
theorem C95_sizes (n : Node) (i : Nat) (b : Buffer) (hb : n.buffers[i]? = some b) (samples width height maps : Nat)
    (ht : b.tensor = some (samples, width, height, maps)) :
    ∃ f, (box n).fields[i + 1]? = some f ∧ f.port = "o".toList ++ digitsOf i ∧
      f.words.getLast?.bind readSize = some ⟨samples, width, height, maps⟩ := by
  refine ⟨outputField i b, ?_, rfl, ?_⟩
  · show (n.buffers.mapIdx _)[i]? = _
    rw [List.getElem?_mapIdx, hb]
    rfl
  · unfold outputField
    rw [ht]
    simp only [Option.map_some, Option.toList_some, List.getLast?_append, List.getLast?_singleton, Option.some_or, Option.bind_some]
    exact readSize_tensorText _

/-! ### Example -/

/-- An input layer with two outputs and a convolution. -/
def exampleHeap (n : Nat) : Node :=
  if n = 0 then
    { description := "Dataset Input Layer".toList, isInput := true,
      buffers := [⟨"Data Output".toList, some (2, 8, 8, 3)⟩, ⟨"Label Output".toList, some (2, 8, 8, 10)⟩] }
  else
    { description := "Convolutional Layer (4 kernels @ 3x3)".toList, isOutput := true,
      buffers := [⟨"Output".toList, some (2, 6, 6, 4)⟩], inputs := [⟨0, 0, false⟩] }

/-- Non-vacuity: the example meets the hypotheses of `C95_names_partial` and `C95_graph_file`, and this is its drawing. -/
example : ((∀ n ∈ [0, 1], (exampleHeap n).name = []) ∧
    ∀ n ∈ [0, 1], Printable ((addAll ⟨exampleHeap, [], 0⟩ [0, 1]).heap n)) ∧
    ((graphFile (addAll ⟨exampleHeap, [], 0⟩ [0, 1])).bind drawing).map (fun r => (r.1.map fun b => String.ofList b.name, r.2.length)) =
      some (["node0", "node1"], 1) := by
  refine ⟨⟨by decide, ?_⟩, by decide +kernel⟩
  intro n hn
  have : n = 0 ∨ n = 1 := by simpa using hn
  rcases this with rfl | rfl
  · exact ⟨by decide +kernel, by decide +kernel, by decide +kernel⟩
  · exact ⟨by decide +kernel, by decide +kernel, by decide +kernel⟩

/-- Sizes that are all different. -/
example : readSize (tensorText (12, 8, 6, 3)) = some ⟨12, 8, 6, 3⟩ ∧ tensorText (12, 8, 6, 3) = "(12s@8x6x3m)".toList := by
  decide +kernel

end CN24.GraphFile
