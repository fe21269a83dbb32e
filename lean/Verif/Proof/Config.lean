import Verif.Model.Config
import Verif.Spec.Config

/-
Lemmas about searching in strings and about the regular expressions of the layer factory.
-/

namespace CN24.Config
open CN24.RE

/-! ## Lists -/

theorem append_cons_inj_left {α : Type _} {x : α} {a b a' b' : List α} (ha : x ∉ a) (ha' : x ∉ a')
    (h : a ++ x :: b = a' ++ x :: b') : a = a' ∧ b = b' := by
  induction a generalizing a' with
  | nil =>
    cases a' with
    | nil => simpa using h
    | cons c a' =>
      simp only [List.nil_append, List.cons_append, List.cons.injEq] at h
      exact absurd (by rw [h.1]; simp) ha'
  | cons c a ih =>
    cases a' with
    | nil =>
      simp only [List.nil_append, List.cons_append, List.cons.injEq] at h
      exact absurd (by rw [h.1]; simp) ha
    | cons d a' =>
      simp only [List.cons_append, List.cons.injEq, List.mem_cons, not_or] at h ha ha'
      obtain ⟨h1, h2⟩ := ih ha.2 ha'.2 h.2
      exact ⟨by rw [h.1, h1], h2⟩

/-- A list with exactly one `x`. -/
theorem append_cons_inj_single {α : Type _} {x : α} {a b a' b' : List α} (ha' : x ∉ a')
    (hb' : x ∉ b') (h : a ++ x :: b = a' ++ x :: b') : a = a' ∧ b = b' := by
  by_cases ha : x ∈ a
  · obtain ⟨s, t, rfl⟩ := List.append_of_mem ha
    exfalso
    have hmem : ∀ (l : List α), x ∉ l → ∀ s m, s ++ x :: m = l ++ x :: b' → x ∉ m := by
      intro l
      induction l with
      | nil =>
        intro _ s m h
        cases s with
        | nil => simp only [List.nil_append, List.cons.injEq] at h; rw [h.2]; exact hb'
        | cons d s =>
          simp only [List.nil_append, List.cons_append, List.cons.injEq] at h
          intro hm; apply hb'; rw [← h.2]; simp
      | cons d l ih =>
        intro hl s m h
        simp only [List.mem_cons, not_or] at hl
        cases s with
        | nil =>
          simp only [List.nil_append, List.cons_append, List.cons.injEq] at h
          exact absurd h.1 hl.1
        | cons e s =>
          simp only [List.cons_append, List.cons.injEq] at h
          exact ih hl.2 s m h.2
    refine hmem a' ha' s (t ++ x :: b) ?_ (by simp)
    rw [← h]; simp
  · exact append_cons_inj_left ha ha' h

/-- A prefix without a separator does not reach beyond it. -/
theorem prefix_of_append_sep {x : Char} {pat w rest : Str} (hx : x ∉ pat) :
    pat <+: w ++ x :: rest ↔ pat <+: w := by
  constructor
  · intro h
    induction pat generalizing w with
    | nil => exact List.nil_prefix
    | cons c pat ih =>
      simp only [List.mem_cons, not_or] at hx
      cases w with
      | nil =>
        rw [List.nil_append, List.cons_prefix_cons] at h
        exact absurd h.1.symm hx.1
      | cons d w =>
        rw [List.cons_append, List.cons_prefix_cons] at h
        rw [List.cons_prefix_cons]
        exact ⟨h.1, ih hx.2 h.2⟩
  · intro h
    exact h.trans (List.prefix_append w (x :: rest))

/-! ## `find` -/

theorem find_nil_pat (s : Str) : find [] s = some 0 := by
  cases s <;> simp [find]

theorem find_prefix {pat s : Str} (h : pat <+: s) : find pat s = some 0 := by
  cases s with
  | nil => simp [List.prefix_nil.1 h, find]
  | cons c s => unfold find; rw [if_pos (List.isPrefixOf_iff_prefix.2 h)]

theorem find_not_prefix {pat : Str} {c : Char} {s : Str} (h : ¬ pat <+: c :: s) :
    find pat (c :: s) = (find pat s).map (· + 1) := by
  conv => lhs; unfold find
  rw [if_neg (fun e => h (List.isPrefixOf_iff_prefix.1 e))]

theorem find_none_of_not_infix {pat s : Str} (hp : pat ≠ []) (h : ¬ pat <:+: s) :
    find pat s = none := by
  induction s with
  | nil => simp [find, hp]
  | cons c s ih =>
    rw [find_not_prefix (fun e => h e.isInfix)]
    rw [ih (fun e => h (e.trans (List.suffix_cons c s).isInfix))]
    rfl

/-- Searching past a word that does not contain the pattern. -/
theorem find_skip_word {x : Char} {pat w rest : Str} (hx : x ∉ pat) (hp : pat ≠ [])
    (h : ¬ pat <:+: w) :
    find pat (w ++ x :: rest) = (find pat rest).map (· + (w.length + 1)) := by
  induction w with
  | nil =>
    rw [List.nil_append, find_not_prefix]
    · rfl
    · rw [← List.nil_append (x :: rest), prefix_of_append_sep hx, List.prefix_nil]; exact hp
  | cons c w ih =>
    rw [List.cons_append, find_not_prefix]
    · rw [ih (fun e => h (e.trans (List.suffix_cons c w).isInfix)), Option.map_map]
      congr 1
    · rw [← List.cons_append, prefix_of_append_sep hx]
      exact fun e => h e.isInfix

/-- The first separator after a word without one. -/
theorem find_sep {x : Char} {w rest : Str} (h : x ∉ w) : find [x] (w ++ x :: rest) = some w.length := by
  induction w with
  | nil => rw [List.nil_append, find_prefix (by simp)]; rfl
  | cons c w ih =>
    simp only [List.mem_cons, not_or] at h
    rw [List.cons_append, find_not_prefix (by rw [List.cons_prefix_cons]; exact fun e => h.1 e.1),
      ih h.2]
    rfl

theorem find_sep_none {x : Char} {w : Str} (h : x ∉ w) : find [x] w = none :=
  find_none_of_not_infix (by simp) (fun e => h (e.subset (by simp)))

theorem find_of_infix {pat s : Str} (h : pat <:+: s) : (find pat s).isSome = true := by
  induction s with
  | nil =>
    have : pat = [] := List.infix_nil.1 h
    subst this; rfl
  | cons c s ih =>
    by_cases hp : pat <+: c :: s
    · rw [find_prefix hp]; rfl
    · rw [find_not_prefix hp, Option.isSome_map]
      apply ih
      rcases List.infix_cons_iff.1 h with h | h
      · exact absurd h hp
      · exact h

/-! ## Words of a line -/

theorem joinSp_cons (w : Str) (ws : List Str) :
    joinSp (w :: ws) = w ++ ws.flatMap (fun v => ' ' :: v) := by
  induction ws generalizing w with
  | nil => simp [joinSp]
  | cons v ws ih => rw [joinSp, ih]; simp

theorem joinSp_middle (before : List Str) (w : Str) (after : List Str) :
    joinSp (before ++ w :: after) =
      before.flatMap (fun v => v ++ [' ']) ++ (w ++ after.flatMap (fun v => ' ' :: v)) := by
  induction before with
  | nil => rw [List.nil_append, joinSp_cons]; simp
  | cons b before ih =>
    cases hb : before ++ w :: after with
    | nil => simp at hb
    | cons x xs => rw [List.cons_append, hb, joinSp, ← hb, ih]; simp

theorem find_skip_words {pat : Str} (hx : ' ' ∉ pat) (hp : pat ≠ []) (before : List Str)
    (h : ∀ w ∈ before, ¬ pat <:+: w) (rest : Str) :
    find pat (before.flatMap (fun v => v ++ [' ']) ++ rest) =
      (find pat rest).map (· + (before.flatMap (fun v => v ++ [' '])).length) := by
  induction before with
  | nil => simp
  | cons b before ih =>
    have e : (b :: before).flatMap (fun v => v ++ [' ']) ++ rest =
        b ++ ' ' :: (before.flatMap (fun v => v ++ [' ']) ++ rest) := by simp
    rw [e, find_skip_word hx hp (h b (by simp)), ih (fun w hw => h w (by simp [hw])), Option.map_map]
    congr 1
    funext n
    simp only [Function.comp_apply, List.flatMap_cons, List.length_append, List.length_cons,
      List.length_nil]
    omega

theorem find_words_none {pat : Str} (hx : ' ' ∉ pat) (hp : pat ≠ []) (ws : List Str)
    (h : ∀ w ∈ ws, ¬ pat <:+: w) : find pat (joinSp ws) = none := by
  induction ws with
  | nil => simp [joinSp, find, hp]
  | cons w ws ih =>
    cases ws with
    | nil => exact find_none_of_not_infix hp (h w (by simp))
    | cons v ws =>
      rw [joinSp, find_skip_word hx hp (h w (by simp)), ih (fun w hw => h w (by simp [hw]))]
      rfl

/-- The tail of a line after a word: empty or starting with a space. -/
theorem tail_cases (after : List Str) : after.flatMap (fun v => ' ' :: v) = [] ∨
    ∃ r, after.flatMap (fun v => ' ' :: v) = ' ' :: r := by
  cases after with
  | nil => exact Or.inl rfl
  | cons v vs => exact Or.inr ⟨_, rfl⟩

theorem param_hit {identifier value : Str} (before after : List Str)
    (hid : ' ' ∉ identifier) (hval : ' ' ∉ value)
    (hbefore : ∀ w ∈ before, ¬ (identifier ++ ['=']) <:+: w) :
    param (joinSp (before ++ (identifier ++ '=' :: value) :: after)) identifier =
      some (some value) := by
  have hpat : ' ' ∉ identifier ++ ['='] := by simp [hid]
  rw [joinSp_middle]
  unfold param
  rw [find_skip_words hpat (by simp) before hbefore, find_prefix (by simp [List.append_assoc])]
  simp only [Option.map_some, Nat.zero_add]
  generalize before.flatMap (fun v => v ++ [' ']) = pre
  have hw : ' ' ∉ identifier ++ '=' :: value := by simp [hid, hval]
  have hdrop : (pre ++ (identifier ++ '=' :: value ++ after.flatMap (fun v => ' ' :: v))).drop
      pre.length = identifier ++ '=' :: value ++ after.flatMap (fun v => ' ' :: v) := by simp
  have hline : cut (pre ++ (identifier ++ '=' :: value ++ after.flatMap (fun v => ' ' :: v)))
      (findFrom [' '] (pre ++ (identifier ++ '=' :: value ++
        after.flatMap (fun v => ' ' :: v))) pre.length) =
      pre ++ (identifier ++ '=' :: value) := by
    unfold findFrom
    rw [hdrop]
    rcases tail_cases after with h | ⟨r, h⟩
    · rw [h, List.append_nil, find_sep_none hw]; rfl
    · rw [h, find_sep hw]
      simp only [Option.map_some, cut]
      rw [Nat.add_comm, List.take_length_add_append, List.take_left]
  rw [hline]
  unfold substr
  rw [if_pos (by simp)]
  rw [List.drop_length_add_append]
  have : (identifier ++ '=' :: value).drop (identifier.length + 1) = value := by
    rw [List.drop_length_add_append]; rfl
  rw [this]; rfl

/-! ## Numbers -/

theorem isDigit_not_space {c : Char} (h : c.isDigit = true) : isSpace c = false := by
  simp only [Char.isDigit, Bool.and_eq_true, decide_eq_true_eq] at h
  have h1 : '0'.val ≤ c.val := h.1
  simp only [isSpace, Bool.or_eq_false_iff, decide_eq_false_iff_not]
  refine ⟨⟨⟨⟨⟨?_, ?_⟩, ?_⟩, ?_⟩, ?_⟩, ?_⟩ <;> (rintro rfl; revert h1; decide)

theorem isDigit_ne {c d : Char} (h : c.isDigit = true) (hd : d.isDigit = false) : c ≠ d := by
  rintro rfl; rw [h] at hd; cases hd

/-- `atoi` of decimal digits followed by something else. -/
theorem atoi_digits {ds rest : Str} (hne : ds ≠ []) (hd : ∀ c ∈ ds, c.isDigit = true)
    (hr : ∀ c cs, rest = c :: cs → c.isDigit = false) :
    atoi (ds ++ rest) =
      if digitsValue ds ≤ 2147483647 then some (digitsValue ds : Int) else none := by
  cases ds with
  | nil => exact absurd rfl hne
  | cons d ds =>
    have hdd := hd d (by simp)
    unfold atoi
    have h1 : (d :: ds ++ rest).dropWhile isSpace = d :: ds ++ rest := by
      rw [List.cons_append, List.dropWhile_cons_of_neg (by simp [isDigit_not_space hdd])]
    simp only [h1]
    have h3 : sign (d :: ds ++ rest) = (false, d :: ds ++ rest) := by
      unfold sign
      rw [if_neg (by simpa using isDigit_ne hdd (by decide)),
        if_neg (by simpa using isDigit_ne hdd (by decide))]
    rw [h3]
    simp only [Bool.false_eq_true, if_false]
    have h4 : (d :: ds ++ rest).takeWhile Char.isDigit = d :: ds := by
      rw [List.takeWhile_append_of_pos hd]
      cases rest with
      | nil => simp
      | cons c cs => rw [List.takeWhile_cons_of_neg (by simp [hr c cs rfl])]; simp
    rw [h4]
    by_cases hc : digitsValue (d :: ds) ≤ 2147483647
    · rw [if_pos hc, if_pos (by omega)]
    · rw [if_neg hc, if_neg (by omega)]

theorem digitsValue_eq (s : Str) : digitsValue s = Nat.ofDigitChars 10 s 0 := by
  unfold digitsValue
  rw [Nat.ofDigitChars_eq_foldl]
  congr 1
  funext n c
  omega

theorem digitsValue_digitsOf (n : Nat) : digitsValue (digitsOf n) = n := by
  rw [digitsValue_eq, digitsOf, Nat.ofDigitChars_ten_toDigits]

theorem digitsOf_isDigit {n : Nat} {c : Char} (h : c ∈ digitsOf n) : c.isDigit = true :=
  Nat.isDigit_of_mem_toDigits (by omega) (by omega) h

theorem digitsOf_ne_nil (n : Nat) : digitsOf n ≠ [] := Nat.toDigits_ne_nil

theorem digit_iff {c : Char} : digit c = c.isDigit := by
  simp only [digit, Char.isDigit]
  rfl

end CN24.Config
