import Verif.Model.GraphFile
import Verif.Spec.Dot
import Verif.Proof.Config

/-
Lemmas for the graph files: reading what was printed.
-/

namespace CN24.Dot
open CN24.Config

/-- Reading `s` in mode `m` gives the tokens `ts` and leads to mode `m'`. -/
def Step (m : Mode) (s : Text) (ts : List Token) (m' : Mode) : Prop :=
  ∀ rest, tokens m (s ++ rest) = (tokens m' rest).map (ts ++ ·)

theorem Step.trans {m m' m'' : Mode} {s s' : Text} {ts ts' : List Token} (h : Step m s ts m') (h' : Step m' s' ts' m'') :
    Step m (s ++ s') (ts ++ ts') m'' := by
  intro rest
  rw [List.append_assoc, h, h', Option.map_map]
  congr 1
  funext x
  simp

theorem Step.nil (m : Mode) : Step m [] [] m := fun rest => by simp

/-- One character. -/
def scan1 : Mode → Char → Option (List Token × Mode)
  | .between, c => start c
  | .inWord w, c => if wordChar c then some ([], .inWord (c :: w)) else (start c).map fun r => (.word w.reverse :: r.1, r.2)
  | .inString s, c => if c = '"' then some ([.quoted s.reverse], .between) else if c = '\\' then none else some ([], .inString (c :: s))
  | .inArrow, c => if c = '>' then some ([.arrow], .between) else none

theorem tokens_cons (m : Mode) (c : Char) (cs : Text) :
    tokens m (c :: cs) = (scan1 m c).bind fun r => (tokens r.2 cs).map (r.1 ++ ·) := by
  cases m with
  | between => rfl
  | inWord w =>
    simp only [tokens, scan1]
    split
    · simp
    · cases start c <;> rfl
  | inString s =>
    simp only [tokens, scan1]
    split
    · rfl
    · split
      · rfl
      · simp
  | inArrow =>
    simp only [tokens, scan1]
    split <;> rfl

theorem Step.cons {m m' m'' : Mode} {c : Char} {s : Text} {ts ts' : List Token} (h : scan1 m c = some (ts, m'))
    (h' : Step m' s ts' m'') : Step m (c :: s) (ts ++ ts') m'' := by
  intro rest
  rw [List.cons_append, tokens_cons, h]
  show (tokens m' (s ++ rest)).map _ = _
  rw [h', Option.map_map]
  congr 1
  funext x
  simp

/-- Reading a text whose end is not known. -/
def scan : Mode → Text → Option (List Token × Mode)
  | m, [] => some ([], m)
  | m, c :: cs => (scan1 m c).bind fun r => (scan r.2 cs).map fun r' => (r.1 ++ r'.1, r'.2)

theorem step_of_scan {m m' : Mode} {s : Text} {ts : List Token} (h : scan m s = some (ts, m')) : Step m s ts m' := by
  induction s generalizing m ts with
  | nil =>
    cases h
    exact Step.nil _
  | cons c cs ih =>
    rw [scan] at h
    cases h1 : scan1 m c with
    | none => rw [h1] at h; cases h
    | some r =>
      rw [h1] at h
      simp only [Option.bind_some] at h
      cases h2 : scan r.2 cs with
      | none => rw [h2] at h; cases h
      | some r' =>
        rw [h2] at h
        simp only [Option.map_some, Option.some.injEq, Prod.mk.injEq] at h
        obtain ⟨rfl, rfl⟩ := h
        exact Step.cons h1 (ih h2)

theorem start_word {c : Char} (h : wordChar c = true) : start c = some ([], .inWord [c]) := by
  have ne : ∀ d, wordChar d = false → c ≠ d := fun d hd e => by rw [e, hd] at h; cases h
  unfold start
  rw [if_neg, if_neg (ne _ (by decide)), if_neg (ne _ (by decide)), if_neg (ne _ (by decide)), if_neg (ne _ (by decide)),
    if_neg (ne _ (by decide)), if_neg (ne _ (by decide)), if_neg (ne _ (by decide)), if_neg (ne _ (by decide)),
    if_neg (ne _ (by decide)), if_neg (ne _ (by decide)), if_pos h]
  rintro (e | e)
  · exact ne _ (by decide) e
  · exact ne _ (by decide) e

theorem step_inWord {w : Text} (h : ∀ c ∈ w, wordChar c = true) (acc : Text) : Step (.inWord acc) w [] (.inWord (w.reverse ++ acc)) := by
  induction w generalizing acc with
  | nil => exact Step.nil _
  | cons c cs ih =>
    have := Step.cons (m := .inWord acc) (c := c) (ts := []) (m' := .inWord (c :: acc))
      (by simp [scan1, h c (by simp)]) (ih (fun x hx => h x (by simp [hx])) (c :: acc))
    simpa using this

theorem step_word {w : Text} (hne : w ≠ []) (h : ∀ c ∈ w, wordChar c = true) : Step .between w [] (.inWord w.reverse) := by
  cases w with
  | nil => exact absurd rfl hne
  | cons c cs =>
    have := Step.cons (m := .between) (c := c) (ts := []) (m' := .inWord [c]) (start_word (h c (by simp)))
      (step_inWord (w := cs) (fun x hx => h x (by simp [hx])) [c])
    simpa using this

theorem step_string {s : Text} (h : ∀ c ∈ s, c ≠ '"' ∧ c ≠ '\\') (acc : Text) :
    Step (.inString acc) s [] (.inString (s.reverse ++ acc)) := by
  induction s generalizing acc with
  | nil => exact Step.nil _
  | cons c cs ih =>
    have hc := h c (by simp)
    have := Step.cons (m := .inString acc) (c := c) (ts := []) (m' := .inString (c :: acc))
      (by simp [scan1, hc.1, hc.2]) (ih (fun x hx => h x (by simp [hx])) (c :: acc))
    simpa using this

/-! ### Cutting -/

theorem cut_ne_nil (sep : Char → Bool) (s : Text) : cut sep s ≠ [] := by
  cases s with
  | nil => simp [cut]
  | cons c cs =>
    rw [cut]
    split
    · simp
    · split <;> simp

theorem cut_append (sep : Char → Bool) (a : Text) {c : Char} (hc : sep c = true) (b : Text) :
    cut sep (a ++ c :: b) = cut sep a ++ cut sep b := by
  induction a with
  | nil => simp [cut, hc]
  | cons d a ih =>
    rw [List.cons_append, cut, cut, ih]
    split
    · rfl
    · cases h : cut sep a with
      | nil => exact absurd h (cut_ne_nil _ _)
      | cons p ps => rfl

theorem cut_plain (sep : Char → Bool) {a : Text} (h : ∀ c ∈ a, sep c = false) : cut sep a = [a] := by
  induction a with
  | nil => rfl
  | cons c a ih => rw [cut, ih fun x hx => h x (by simp [hx]), h c (by simp)]; rfl

theorem words_append (a b : Text) : words (a ++ ' ' :: b) = words a ++ words b := by
  unfold words
  rw [cut_append _ _ (by decide), List.filter_append]

theorem words_nil : words [] = [] := rfl

theorem words_one {a : Text} (hne : a ≠ []) (h : ' ' ∉ a) : words a = [a] := by
  unfold words
  rw [cut_plain]
  · cases a with
    | nil => exact absurd rfl hne
    | cons c a => rfl
  · intro c hc
    simp only [decide_eq_false_iff_not]
    rintro rfl
    exact h hc

/-- A field with a port. -/
theorem field_port (k : Nat) {port text : Text} (hp : '>' ∉ port) :
    field (List.replicate k ' ' ++ '<' :: (port ++ '>' :: text)) = some (some ⟨port, words text⟩) := by
  have h1 : (List.replicate k ' ' ++ '<' :: (port ++ '>' :: text)).dropWhile (· = ' ') = '<' :: (port ++ '>' :: text) := by
    induction k with
    | zero => rfl
    | succ k ih => rw [List.replicate_succ, List.cons_append, List.dropWhile_cons_of_pos (by decide)]; exact ih
  have h2 : (port ++ '>' :: text).takeWhile (· ≠ '>') = port := by
    clear h1
    induction port with
    | nil => rfl
    | cons c port ih =>
      have hc : c ≠ '>' := fun e => hp (by simp [e])
      rw [List.cons_append, List.takeWhile_cons_of_pos (by simpa using hc), ih fun h => hp (by simp [h])]
  have h3 : (port ++ '>' :: text).dropWhile (· ≠ '>') = '>' :: text := by
    clear h1 h2
    induction port with
    | nil => rfl
    | cons c port ih =>
      have hc : c ≠ '>' := fun e => hp (by simp [e])
      rw [List.cons_append, List.dropWhile_cons_of_pos (by simpa using hc), ih fun h => hp (by simp [h])]
  unfold field
  rw [h1]
  simp only [h2, h3]
  rw [if_pos (by simp)]
  rfl

/-! ### Statements -/

/-- The tokens are these statements. -/
def Parses (ts : List Token) (ss : List Statement) : Prop :=
  ss.length ≤ ts.length ∧
    ∀ rest k, statements (k + ss.length) (ts ++ rest) = (statements k rest).map (ss ++ ·)

theorem Parses.nil : Parses [] [] := ⟨Nat.le_refl _, fun rest k => by simp⟩

theorem Parses.append {ts ts' : List Token} {ss ss' : List Statement} (h : Parses ts ss) (h' : Parses ts' ss') :
    Parses (ts ++ ts') (ss ++ ss') := by
  refine ⟨by simpa using Nat.add_le_add h.1 h'.1, fun rest k => ?_⟩
  rw [List.length_append, Nat.add_comm ss.length, ← Nat.add_assoc, List.append_assoc, h.2, h'.2, Option.map_map]
  congr 1
  funext x
  simp

theorem Parses.one {ts : List Token} {s : Statement} (hne : ts ≠ []) (hb : ts.head? ≠ some .rbrace)
    (h : ∀ rest, statement (ts ++ rest) = some (s, rest)) : Parses ts [s] := by
  refine ⟨?_, fun rest k => ?_⟩
  · cases ts with
    | nil => exact absurd rfl hne
    | cons _ _ => simp
  · show statements (k + 1) _ = _
    rw [statements, if_neg, h]
    · rfl
    · intro e
      cases ts with
      | nil => exact hne rfl
      | cons t ts =>
        rw [List.cons_append] at e
        injection e with e1 e2
        rw [e1] at hb
        exact hb rfl

/-- The text is these statements. -/
def Reads (s : Text) (ss : List Statement) : Prop := ∃ ts, Step .between s ts .between ∧ Parses ts ss

theorem Reads.nil : Reads [] [] := ⟨[], Step.nil _, Parses.nil⟩

theorem Reads.append {s s' : Text} {ss ss' : List Statement} (h : Reads s ss) (h' : Reads s' ss') : Reads (s ++ s') (ss ++ ss') := by
  obtain ⟨ts, h1, h2⟩ := h
  obtain ⟨ts', h1', h2'⟩ := h'
  exact ⟨_, h1.trans h1', h2.append h2'⟩

theorem Reads.flatMap {α : Type} (l : List α) (f : α → Text) (g : α → Statement) (h : ∀ a ∈ l, Reads (f a) [g a]) :
    Reads (l.flatMap f) (l.map g) := by
  induction l with
  | nil => exact Reads.nil
  | cons a l ih =>
    exact (h a (by simp)).append (ih fun b hb => h b (by simp [hb]))

theorem file_of_reads {s : Text} {ss : List Statement} (h : Reads s ss) :
    file ("digraph G {".toList ++ s ++ "}".toList) = some ss := by
  obtain ⟨ts, h1, h2⟩ := h
  have a1 : Step .between "digraph G {".toList [.word "digraph".toList, .word "G".toList, .lbrace] .between :=
    step_of_scan (by decide +kernel)
  have a2 : Step .between "}".toList [.rbrace] .between := step_of_scan (by decide +kernel)
  have a3 := ((a1.trans h1).trans a2) []
  rw [List.append_nil] at a3
  unfold file
  rw [a3]
  simp only [tokens, Option.map_some, Option.bind_some, List.append_nil, List.cons_append, List.nil_append, if_true]
  have hlen := h2.1
  obtain ⟨k, hk⟩ : ∃ k, (ts ++ [Token.rbrace]).length + 1 = (k + 1) + ss.length :=
    ⟨ts.length + 1 - ss.length, by simp; omega⟩
  rw [hk, h2.2, statements, if_pos rfl]
  simp

end CN24.Dot
