/-
Regular expressions over characters: syntax, the language they denote, a matcher by
derivatives, and the proof that the matcher decides the language.  This stands in for
`std::regex_match` (whole-string match) of the standard library.
-/

namespace CN24

/-- Regular expressions; `cls` is a bracket expression, a literal or the dot. -/
inductive RE
  | empty
  | eps
  | cls (p : Char → Bool)
  | seq (r s : RE)
  | alt (r s : RE)
  | star (r : RE)

namespace RE

/-- The language of a regular expression. -/
inductive Lang : RE → List Char → Prop
  | eps : Lang .eps []
  | cls {p : Char → Bool} {c : Char} : p c = true → Lang (.cls p) [c]
  | seq {r s : RE} {u v : List Char} : Lang r u → Lang s v → Lang (.seq r s) (u ++ v)
  | altl {r s : RE} {u : List Char} : Lang r u → Lang (.alt r s) u
  | altr {r s : RE} {u : List Char} : Lang s u → Lang (.alt r s) u
  | star0 {r : RE} : Lang (.star r) []
  | star1 {r : RE} {u v : List Char} : Lang r u → Lang (.star r) v → Lang (.star r) (u ++ v)

def nullable : RE → Bool
  | .empty => false
  | .eps => true
  | .cls _ => false
  | .seq r s => r.nullable && s.nullable
  | .alt r s => r.nullable || s.nullable
  | .star _ => true

/-- Brzozowski derivative. -/
def der (c : Char) : RE → RE
  | .empty => .empty
  | .eps => .empty
  | .cls p => if p c then .eps else .empty
  | .seq r s => if r.nullable then .alt (.seq (r.der c) s) (s.der c) else .seq (r.der c) s
  | .alt r s => .alt (r.der c) (s.der c)
  | .star r => .seq (r.der c) (.star r)

/-- Whole-string matching. -/
def isMatch (r : RE) : List Char → Bool
  | [] => r.nullable
  | c :: cs => (r.der c).isMatch cs

theorem nullable_iff (r : RE) : r.nullable = true ↔ Lang r [] := by
  induction r with
  | empty => simp [nullable]; intro h; cases h
  | eps => simp [nullable]; exact .eps
  | cls p => simp [nullable]; intro h; cases h
  | seq r s ihr ihs =>
    simp only [nullable, Bool.and_eq_true, ihr, ihs]
    constructor
    · rintro ⟨h1, h2⟩; exact Lang.seq h1 h2
    · intro h
      generalize hw : ([] : List Char) = w at h
      suffices h' : r.Lang [] ∧ s.Lang [] by simpa [hw] using h'
      cases h with
      | seq h1 h2 =>
        rw [eq_comm, List.append_eq_nil_iff] at hw
        obtain ⟨rfl, rfl⟩ := hw
        exact ⟨h1, h2⟩
  | alt r s ihr ihs =>
    simp only [nullable, Bool.or_eq_true, ihr, ihs]
    constructor
    · rintro (h | h); exact .altl h; exact .altr h
    · intro h; cases h with
      | altl h => exact Or.inl h
      | altr h => exact Or.inr h
  | star r _ => simp [nullable]; exact .star0

theorem star_cons {r : RE} {c : Char} {w : List Char} (h : Lang (.star r) (c :: w)) :
    ∃ u v, w = u ++ v ∧ Lang r (c :: u) ∧ Lang (.star r) v := by
  generalize hr : RE.star r = q at h
  generalize hw : c :: w = x at h
  induction h with
  | star0 => cases hw
  | @star1 r' u v h1 h2 _ ih2 =>
    cases hr
    cases u with
    | nil => exact ih2 rfl (by simpa using hw)
    | cons d u =>
      simp only [List.cons_append, List.cons.injEq] at hw
      obtain ⟨rfl, rfl⟩ := hw
      exact ⟨u, v, rfl, h1, h2⟩
  | _ => cases hr

theorem der_iff (r : RE) : ∀ (c : Char) (w : List Char), Lang (r.der c) w ↔ Lang r (c :: w) := by
  induction r with
  | empty => intro c w; constructor <;> (intro h; cases h)
  | eps => intro c w; constructor <;> (intro h; cases h)
  | cls p =>
    intro c w
    simp only [der]
    constructor
    · intro h
      split at h
      · cases h; exact .cls (by assumption)
      · cases h
    · intro h
      cases h with
      | cls h => rw [if_pos h]; exact .eps
  | seq r s ihr ihs =>
    intro c w
    have key : ∀ x, Lang (.seq r s) x → x = c :: w →
        (∃ u v, w = u ++ v ∧ Lang r (c :: u) ∧ Lang s v) ∨ (Lang r [] ∧ Lang s (c :: w)) := by
      intro x h hx
      cases h with
      | @seq _ _ u v h1 h2 =>
        cases u with
        | nil => simp only [List.nil_append] at hx; subst hx; exact Or.inr ⟨h1, h2⟩
        | cons d u =>
          simp only [List.cons_append, List.cons.injEq] at hx
          obtain ⟨rfl, rfl⟩ := hx
          exact Or.inl ⟨u, v, rfl, h1, h2⟩
    simp only [der]
    constructor
    · intro h
      have hl : Lang (.seq (r.der c) s) w → Lang (.seq r s) (c :: w) := by
        intro h
        cases h with
        | seq h1 h2 => rw [← List.cons_append]; exact .seq ((ihr _ _).1 h1) h2
      split at h
      · cases h with
        | altl h => exact hl h
        | altr h =>
          have := Lang.seq ((nullable_iff r).1 (by assumption)) ((ihs _ _).1 h)
          simpa using this
      · exact hl h
    · intro h
      rcases key _ h rfl with ⟨u, v, rfl, h1, h2⟩ | ⟨h1, h2⟩
      · have := Lang.seq ((ihr c u).2 h1) h2
        split
        · exact .altl this
        · exact this
      · rw [if_pos ((nullable_iff r).2 h1)]
        exact .altr ((ihs _ _).2 h2)
  | alt r s ihr ihs =>
    intro c w
    simp only [der]
    constructor
    · intro h
      cases h with
      | altl h => exact .altl ((ihr _ _).1 h)
      | altr h => exact .altr ((ihs _ _).1 h)
    · intro h
      cases h with
      | altl h => exact .altl ((ihr _ _).2 h)
      | altr h => exact .altr ((ihs _ _).2 h)
  | star r ih =>
    intro c w
    simp only [der]
    constructor
    · intro h
      cases h with
      | seq h1 h2 => rw [← List.cons_append]; exact .star1 ((ih _ _).1 h1) h2
    · intro h
      obtain ⟨u, v, rfl, h1, h2⟩ := star_cons h
      exact .seq ((ih _ _).2 h1) h2

/-- The matcher decides the language. -/
theorem isMatch_iff (r : RE) (w : List Char) : r.isMatch w = true ↔ Lang r w := by
  induction w generalizing r with
  | nil => exact nullable_iff r
  | cons c w ih => rw [isMatch, ih, der_iff]

/-! Shorthands for the notation of regular expressions. -/

def char (c : Char) : RE := .cls (fun d => d == c)
def lit : List Char → RE
  | [] => .eps
  | c :: cs => .seq (char c) (lit cs)
def plus (r : RE) : RE := .seq r (.star r)
def opt (r : RE) : RE := .alt r .eps
def any : RE := .cls (fun _ => true)

/-! Inversion lemmas. -/

theorem lang_seq {r s : RE} {w : List Char} :
    Lang (.seq r s) w ↔ ∃ u v, w = u ++ v ∧ Lang r u ∧ Lang s v := by
  constructor
  · intro h; cases h with | seq h1 h2 => exact ⟨_, _, rfl, h1, h2⟩
  · rintro ⟨u, v, rfl, h1, h2⟩; exact .seq h1 h2

theorem lang_alt {r s : RE} {w : List Char} : Lang (.alt r s) w ↔ Lang r w ∨ Lang s w := by
  constructor
  · intro h; cases h with
    | altl h => exact Or.inl h
    | altr h => exact Or.inr h
  · rintro (h | h); exact .altl h; exact .altr h

theorem lang_eps {w : List Char} : Lang .eps w ↔ w = [] := by
  constructor
  · intro h; cases h; rfl
  · rintro rfl; exact .eps

theorem lang_cls {p : Char → Bool} {w : List Char} :
    Lang (.cls p) w ↔ ∃ c, w = [c] ∧ p c = true := by
  constructor
  · intro h; cases h with | cls h => exact ⟨_, rfl, h⟩
  · rintro ⟨c, rfl, h⟩; exact .cls h

theorem lang_char {c : Char} {w : List Char} : Lang (char c) w ↔ w = [c] := by
  rw [char, lang_cls]
  constructor
  · rintro ⟨d, rfl, h⟩; simp at h; rw [h]
  · rintro rfl; exact ⟨c, rfl, by simp⟩

theorem lang_lit {l w : List Char} : Lang (lit l) w ↔ w = l := by
  induction l generalizing w with
  | nil => exact lang_eps
  | cons c l ih =>
    rw [lit, lang_seq]
    constructor
    · rintro ⟨u, v, rfl, h1, h2⟩
      rw [lang_char.1 h1, ih.1 h2]; rfl
    · rintro rfl
      exact ⟨[c], l, rfl, lang_char.2 rfl, ih.2 rfl⟩

theorem lang_star_cls {p : Char → Bool} {w : List Char} :
    Lang (.star (.cls p)) w ↔ ∀ c ∈ w, p c = true := by
  induction w with
  | nil => simp; exact .star0
  | cons c w ih =>
    constructor
    · intro h
      obtain ⟨u, v, rfl, h1, h2⟩ := star_cons h
      obtain ⟨d, hd, hp⟩ := lang_cls.1 h1
      simp only [List.cons.injEq] at hd
      obtain ⟨rfl, rfl⟩ := hd
      intro e he
      simp only [List.nil_append, List.mem_cons] at he
      rcases he with rfl | he
      · exact hp
      · exact (ih.1 (by simpa using h2)) e (by simpa using he)
    · intro h
      have := Lang.star1 (Lang.cls (h c (by simp))) (ih.2 (fun d hd => h d (by simp [hd])))
      simpa using this

theorem lang_plus_cls {p : Char → Bool} {w : List Char} :
    Lang (plus (.cls p)) w ↔ w ≠ [] ∧ ∀ c ∈ w, p c = true := by
  rw [plus, lang_seq]
  constructor
  · rintro ⟨u, v, rfl, h1, h2⟩
    obtain ⟨c, rfl, hc⟩ := lang_cls.1 h1
    refine ⟨by simp, ?_⟩
    intro d hd
    simp only [List.singleton_append, List.mem_cons] at hd
    rcases hd with rfl | hd
    · exact hc
    · exact lang_star_cls.1 h2 d hd
  · rintro ⟨h1, h2⟩
    cases w with
    | nil => exact absurd rfl h1
    | cons c w =>
      exact ⟨[c], w, rfl, .cls (h2 c (by simp)), lang_star_cls.2 (fun d hd => h2 d (by simp [hd]))⟩

theorem lang_star {r : RE} {w : List Char} :
    Lang (.star r) w ↔ ∃ ws : List (List Char), w = ws.flatten ∧ ∀ u ∈ ws, Lang r u := by
  constructor
  · intro h
    generalize hq : RE.star r = q at h
    induction h with
    | star0 => exact ⟨[], rfl, by simp⟩
    | @star1 r' u v h1 _ _ ih2 =>
      cases hq
      obtain ⟨ws, rfl, hws⟩ := ih2 rfl
      refine ⟨u :: ws, rfl, ?_⟩
      intro x hx
      rcases List.mem_cons.1 hx with rfl | hx
      · exact h1
      · exact hws x hx
    | _ => cases hq
  · rintro ⟨ws, rfl, hws⟩
    induction ws with
    | nil => exact .star0
    | cons u ws ih =>
      exact .star1 (hws u (by simp)) (ih (fun x hx => hws x (by simp [hx])))

/-- Leftmost search with longest matches: the length of the longest non-empty prefix that
matches. -/
def longestPrefix (r : RE) (s : List Char) : Option Nat :=
  ((List.range s.length).reverse.find? fun n => r.isMatch (s.take (n + 1))).map (· + 1)

/-- `std::regex_replace`: every leftmost-longest match is replaced, the rest is copied.
(Empty matches cannot occur for the expression used.)  `fuel` bounds the number of steps by the
length of the string. -/
def replaceAux (r : RE) (by_ : List Char) : Nat → List Char → List Char
  | 0, s => s
  | _ + 1, [] => []
  | fuel + 1, c :: cs =>
    match longestPrefix r (c :: cs) with
    | some n => by_ ++ replaceAux r by_ fuel ((c :: cs).drop n)
    | none => c :: replaceAux r by_ fuel cs

def replaceAll (r : RE) (by_ s : List Char) : List Char := replaceAux r by_ s.length s

/-- A whole-string match of `pre(cap)post` with the text captured by the group: among all ways to
split, the first group gets the longest text, then the second (POSIX rule). -/
def capture (pre cap post : RE) (s : List Char) : Option (List Char) :=
  let n := s.length
  ((List.range (n + 1)).reverse.flatMap fun i =>
    (List.range (n - i + 1)).reverse.filterMap fun j =>
      let u := s.take i
      let v := (s.drop i).take j
      let w := (s.drop i).drop j
      if pre.isMatch u && cap.isMatch v && post.isMatch w then some v else none).head?

/-- A capture exists exactly when the whole expression matches, and is a possible split. -/
theorem capture_some {pre cap post : RE} {s v : List Char} (h : capture pre cap post s = some v) :
    ∃ u w, s = u ++ v ++ w ∧ Lang pre u ∧ Lang cap v ∧ Lang post w := by
  unfold capture at h
  have hmem := List.mem_of_mem_head? h
  rw [List.mem_flatMap] at hmem
  obtain ⟨i, _, hi⟩ := hmem
  rw [List.mem_filterMap] at hi
  obtain ⟨j, _, hj⟩ := hi
  simp only at hj
  split at hj
  · rename_i hc
    simp only [Bool.and_eq_true, isMatch_iff] at hc
    cases hj
    refine ⟨s.take i, (s.drop i).drop j, ?_, hc.1.1, hc.1.2, hc.2⟩
    rw [List.append_assoc, List.take_append_drop, List.take_append_drop]
  · cases hj

theorem capture_isSome {pre cap post : RE} {u v w : List Char} (h1 : Lang pre u) (h2 : Lang cap v)
    (h3 : Lang post w) : ∃ v', capture pre cap post (u ++ v ++ w) = some v' := by
  unfold capture
  simp only
  rw [← Option.isSome_iff_exists, List.isSome_head?]
  apply List.ne_nil_of_mem (a := v)
  rw [List.mem_flatMap]
  refine ⟨u.length, by simp; omega, ?_⟩
  rw [List.mem_filterMap]
  refine ⟨v.length, by simp; omega, ?_⟩
  have e1 : (u ++ v ++ w).take u.length = u := by simp [List.append_assoc]
  have e2 : (u ++ v ++ w).drop u.length = v ++ w := by simp [List.append_assoc]
  rw [e1, e2]
  have e3 : (v ++ w).take v.length = v := by simp
  have e4 : (v ++ w).drop v.length = w := by simp
  rw [e3, e4, if_pos (by simp [isMatch_iff, h1, h2, h3])]

end RE
end CN24
