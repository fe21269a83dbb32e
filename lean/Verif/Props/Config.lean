import Verif.Proof.Factory

/-
Property theorems about layer descriptors (C15, C16, C17) and parameter reading (C18).
-/

namespace CN24.Props
open CN24.Config

/-! ## C15 -/

/-- C15: a string without backslashes is accepted exactly when it is the text of a descriptor
that follows the grammar (lower-case name, lower-case keys, values of letters, digits and dots,
single spaces between the pairs).  Missing for all strings: backslashes in values are accepted,
see `C15_backslash_accepted`. -/
theorem C15_grammar_partial (s : Str) (hs : '\\' ∉ s) :
    isValidDescriptor s = true ↔ ∃ d : Descr, d.Ok alnumDot ∧ s = d.text := by
  have hV : ∀ c, alnumDot c = true → valueChar c = true := by
    intro c h
    simp only [alnumDot, valueChar, Bool.or_eq_true] at h ⊢
    rcases h with ((h | h) | h) | h <;> simp [h]
  have hV' : ∀ c, valueChar c = true → c ≠ '\\' → alnumDot c = true := by
    intro c h hc
    simp only [alnumDot, valueChar, Bool.or_eq_true, decide_eq_true_eq] at h ⊢
    rcases h with (((h | h) | h) | h) | h
    · simp [h]
    · simp [h]
    · simp [h]
    · exact absurd h hc
    · simp [h]
  rw [isValid_iff]
  constructor
  · rintro ⟨d, hd, rfl⟩
    refine ⟨d, ⟨hd.name_ne, hd.name_lower, ?_⟩, rfl⟩
    intro ps hps p hp
    obtain ⟨h1, h2, h3, h4⟩ := hd.pairs ps hps p hp
    refine ⟨h1, h2, h3, fun c hc => hV' c (h4 c hc) ?_⟩
    rintro rfl
    apply hs
    obtain ⟨l, r, rfl⟩ := List.append_of_mem hp
    simp only [Descr.text, hps, List.map_append, List.map_cons, joinSp_middle]
    simp [pairText, hc]
  · rintro ⟨d, hd, rfl⟩
    refine ⟨d, ⟨hd.name_ne, hd.name_lower, ?_⟩, rfl⟩
    intro ps hps p hp
    obtain ⟨h1, h2, h3, h4⟩ := hd.pairs ps hps p hp
    exact ⟨h1, h2, h3, fun c hc => hV c (h4 c hc)⟩

/-- Exactly what is accepted, for all strings: the same grammar with the backslash as one more
value character. -/
theorem C15_accepted_exactly (s : Str) :
    isValidDescriptor s = true ↔
      ∃ d : Descr, d.Ok (fun c => alnumDot c || c = '\\') ∧ s = d.text := by
  have : (fun c => alnumDot c || c = '\\') = valueChar := by
    funext c
    simp only [alnumDot, valueChar]
    rw [Bool.or_assoc, Bool.or_assoc _ (decide (c = '\\')), Bool.or_comm (decide (c = '.'))]
  rw [this]
  exact isValid_iff s

/-- The full property fails: a value with a backslash is accepted although no descriptor of the
grammar has that text. -/
theorem C15_backslash_accepted :
    isValidDescriptor "tanh(a=\\)".toList = true ∧
    ¬ ∃ d : Descr, d.Ok alnumDot ∧ "tanh(a=\\)".toList = d.text := by
  refine ⟨by decide +kernel, ?_⟩
  rintro ⟨d, hd, he⟩
  have hmem : '\\' ∈ d.text := by rw [← he]; decide
  have hlow : ∀ {l : Str}, (∀ c ∈ l, lower c = true) → '\\' ∉ l := by
    intro l h hm; have := h _ hm; revert this; decide
  cases hp : d.params with
  | none =>
    simp only [Descr.text, hp] at hmem
    exact hlow hd.name_lower hmem
  | some ps =>
    simp only [Descr.text, hp, List.mem_append, List.mem_cons, List.not_mem_nil, or_false] at hmem
    rcases hmem with h | h | h | h
    · exact hlow hd.name_lower h
    · revert h; decide
    · have : ∀ qs : List (Str × Str), (∀ p ∈ qs, PairOk alnumDot p) → '\\' ∉ joinSp (qs.map pairText) := by
        intro qs hq
        induction qs with
        | nil => simp [joinSp]
        | cons q qs ih =>
          have hq1 := hq q (by simp)
          have hpt : '\\' ∉ pairText q := by
            simp only [pairText, List.mem_append, List.mem_cons, not_or]
            refine ⟨hlow hq1.2.1, by decide, ?_⟩
            intro hm
            have := hq1.2.2.2 _ hm
            revert this; decide
          have ih' := ih (fun p hp => hq p (by simp [hp]))
          cases qs with
          | nil => simpa [joinSp] using hpt
          | cons r rs =>
            simp only [List.map_cons, joinSp, List.mem_append, List.mem_cons, not_or] at ih' ⊢
            exact ⟨hpt, by decide, ih'⟩
      exact this ps (hd.pairs ps hp) h
    · revert h; decide

/-- Non-vacuity. -/
example : isValidDescriptor "convolution(size=3x3 pad=3x4)".toList = true ∧
    isValidDescriptor "convolution(size=3x3 )".toList = false ∧
    isValidDescriptor "convolution()".toList = true ∧
    isValidDescriptor "convolution(size=4x4, pad=2x2)".toList = false := by decide +kernel

/-! ## C16 -/

/-- C16: for every valid descriptor, the extracted layer type is the leading name and the
extracted configuration is the text between the parentheses, empty if there is none. -/
theorem C16_extraction (s : Str) (hs : isValidDescriptor s = true) :
    ∃ d : Descr, d.Ok valueChar ∧ s = d.text ∧
      extractLayerType s = d.name ∧
      extractConfiguration s = (match d.params with
        | none => []
        | some ps => joinSp (ps.map pairText)) := by
  obtain ⟨d, hd, rfl⟩ := (isValid_iff s).1 hs
  refine ⟨d, hd, rfl, extractLayerType_text hd, ?_⟩
  rw [extractConfiguration_text hd]
  cases hp : d.params <;> simp [Descr.config, hp, joinSp]

/-- C16, in terms of characters: name, parenthesis, configuration, parenthesis. -/
theorem C16_extraction_text (s : Str) (hs : isValidDescriptor s = true) :
    (s = extractLayerType s ∧ extractConfiguration s = []) ∨
      s = extractLayerType s ++ ['('] ++ extractConfiguration s ++ [')'] := by
  obtain ⟨d, hd, h1, h2, h3⟩ := C16_extraction s hs
  cases hp : d.params with
  | none =>
    left
    rw [hp] at h3
    exact ⟨by rw [h2, h1]; simp [Descr.text, hp], h3⟩
  | some ps =>
    right
    rw [hp] at h3
    rw [h2, h3, h1]; simp [Descr.text, hp]

/-- The nine layer types a user can name. -/
def knownTypes : List (String × LayerClass) :=
  [("convolution", .convolution), ("maxpooling", .maxPooling),
   ("amaxpooling", .advancedMaxPooling), ("tanh", .tanh), ("sigm", .sigmoid), ("relu", .relu),
   ("gradientaccumulation", .gradientAccumulation), ("resize", .resize), ("hmax", .hmax)]

/-- C16: a layer is constructed exactly for valid descriptors of a known type; its class is the
one of the type, and it gets the configuration text. -/
theorem C16_construct (s : Str) (c : LayerClass) (cfg : Str) :
    constructLayer s = some (c, cfg) ↔
      isValidDescriptor s = true ∧ cfg = extractConfiguration s ∧
        ∃ t, (t, c) ∈ knownTypes ∧ extractLayerType s = t.toList := by
  constructor
  · intro h
    unfold constructLayer at h
    split at h
    · cases h
    · rename_i hv
      refine ⟨by simpa using hv, ?_⟩
      simp only at h
      repeat' split at h
      all_goals (first | (cases h; done) | skip)
      all_goals
        rename_i heq
        cases h
        exact ⟨rfl, _, by simp [knownTypes], heq⟩
  · rintro ⟨hv, rfl, t, ht, hty⟩
    unfold constructLayer
    rw [hv]
    simp only [Bool.not_true, Bool.false_eq_true, if_false, hty]
    simp only [knownTypes, List.mem_cons, Prod.mk.injEq, List.not_mem_nil, or_false] at ht
    rcases ht with ⟨rfl, rfl⟩ | ⟨rfl, rfl⟩ | ⟨rfl, rfl⟩ | ⟨rfl, rfl⟩ | ⟨rfl, rfl⟩ | ⟨rfl, rfl⟩ |
      ⟨rfl, rfl⟩ | ⟨rfl, rfl⟩ | ⟨rfl, rfl⟩ <;> rfl

example : constructLayer "maxpooling(size=2x2)".toList = some (.maxPooling, "size=2x2".toList) ∧
    constructLayer "maxpooling(size=2x2".toList = none ∧
    constructLayer "unknown".toList = none := by decide +kernel

/-! ## C17 -/

/-- C17: invalid descriptors are returned unchanged. -/
theorem C17_invalid_unchanged (s : Str) (n : Nat) (h : isValidDescriptor s = false) :
    injectSeed s n = s := by
  unfold injectSeed; rw [h]; rfl

theorem injectSeed_text (d : Descr) (hd : d.Ok valueChar) (n : Nat) :
    injectSeed d.text n = Descr.text ⟨d.name, some
      (if ∃ p ∈ d.params.getD [], "seed".toList <:+ p.1 ∧ (p.2.head?.map digit) = some true then
        (d.params.getD []).map (reseed n)
      else d.params.getD [] ++ [("seed".toList, digitsOf n)])⟩ := by
  have hps : ∀ p ∈ d.params.getD [], PairOk valueChar p := by
    cases hp : d.params with
    | none => simp
    | some ps => simpa using hd.pairs ps hp
  unfold injectSeed
  rw [if_pos ((isValid_iff _).2 ⟨d, hd, rfl⟩), extractConfiguration_text hd, extractLayerType_text hd]
  simp only
  unfold Descr.config
  by_cases hseed : ∃ p ∈ d.params.getD [], "seed".toList <:+ p.1 ∧ (p.2.head?.map digit) = some true
  · rw [if_pos ((hasSeed_config _ hps).2 hseed), if_pos hseed]
    cases hp : d.params with
    | none => rw [hp] at hseed; simp at hseed
    | some ps =>
      rw [hp] at hps
      simp only [Descr.text, hp, Option.getD_some] at hps ⊢
      have hname : '=' ∉ d.name := fun hm => (lower_ne (hd.name_lower _ hm)).2.2.1 rfl
      rw [replaceAll_sep _ (by decide) (by decide) _ _ _ (Nat.le_refl _), replaceAll_no_eq _ hname,
        replaceAll_sep _ (by decide) (by decide) _ _ _ (Nat.le_refl _), replaceAll_config n ps hps,
        replaceAll_nil]
  · rw [if_neg (fun h => hseed ((hasSeed_config _ hps).1 h)), if_neg hseed]
    simp only [Descr.text, List.map_append, List.map_cons, List.map_nil]
    have e : pairText ("seed".toList, digitsOf n) = "seed=".toList ++ digitsOf n := rfl
    rw [e]
    generalize hq : (d.params.getD []).map pairText = ws
    have hj : joinSp (ws ++ ["seed=".toList ++ digitsOf n]) =
        (if (joinSp ws).length > 0 then joinSp ws ++ [' '] else []) ++ ("seed=".toList ++ digitsOf n) := by
      cases ws with
      | nil => simp [joinSp]
      | cons w ws =>
        have hne : w ≠ [] := by
          intro h
          have : w ∈ (d.params.getD []).map pairText := by rw [hq]; simp
          obtain ⟨p, _, rfl⟩ := List.mem_map.1 this
          simp [pairText] at h
        have hpos : (joinSp (w :: ws)).length > 0 := by
          rw [joinSp_cons, List.length_append]
          have := List.length_pos_iff.2 hne
          omega
        rw [if_pos hpos, joinSp_cons, List.cons_append, joinSp_cons]
        simp
    rw [hj]
    simp [List.append_assoc]

theorem digitsOf_valueChar {n : Nat} {c : Char} (h : c ∈ digitsOf n) : valueChar c = true := by
  have := digitsOf_isDigit h
  rw [← digit_iff] at this
  unfold digit at this
  unfold valueChar
  simp [this]

theorem reseed_ok (n : Nat) {p : Str × Str} (h : PairOk valueChar p) : PairOk valueChar (reseed n p) := by
  unfold reseed
  split
  · obtain ⟨h1, h2, h3, h4⟩ := h
    refine ⟨h1, h2, by simp [digitsOf_ne_nil], ?_⟩
    intro c hc
    rcases List.mem_append.1 hc with hc | hc
    · exact digitsOf_valueChar hc
    · exact h4 c ((List.dropWhile_sublist digit).subset hc)
  · exact h

theorem inject_descr_ok (d : Descr) (hd : d.Ok valueChar) (n : Nat) :
    (Descr.mk d.name (some
      (if ∃ p ∈ d.params.getD [], "seed".toList <:+ p.1 ∧ (p.2.head?.map digit) = some true then
        (d.params.getD []).map (reseed n)
      else d.params.getD [] ++ [("seed".toList, digitsOf n)]))).Ok valueChar := by
  have hps : ∀ p ∈ d.params.getD [], PairOk valueChar p := by
    cases hp : d.params with
    | none => simp
    | some ps => simpa using hd.pairs ps hp
  refine ⟨hd.name_ne, hd.name_lower, ?_⟩
  intro ps he p hp
  simp only [Option.some.injEq] at he
  subst he
  split at hp
  · obtain ⟨q, hq, rfl⟩ := List.mem_map.1 hp
    exact reseed_ok n (hps q hq)
  · rcases List.mem_append.1 hp with hp | hp
    · exact hps p hp
    · rw [List.mem_singleton] at hp
      subst hp
      refine ⟨by simp, ?_, digitsOf_ne_nil n, fun c hc => digitsOf_valueChar hc⟩
      show ∀ c ∈ "seed".toList, lower c = true
      decide

/-- C17: injecting a seed into a valid descriptor gives a valid descriptor of the same type. -/
theorem C17_result_valid (s : Str) (n : Nat) (hs : isValidDescriptor s = true) :
    isValidDescriptor (injectSeed s n) = true ∧
    extractLayerType (injectSeed s n) = extractLayerType s := by
  obtain ⟨d, hd, rfl⟩ := (isValid_iff s).1 hs
  have hok := inject_descr_ok d hd n
  rw [injectSeed_text d hd n]
  exact ⟨(isValid_iff _).2 ⟨_, hok, rfl⟩, by rw [extractLayerType_text hok, extractLayerType_text hd]⟩

theorem digitsOf_cons (n : Nat) : ∃ c cs, digitsOf n = c :: cs ∧ digit c = true := by
  cases h : digitsOf n with
  | nil => exact absurd h (digitsOf_ne_nil n)
  | cons c cs => exact ⟨c, cs, rfl, by rw [digit_iff]; exact digitsOf_isDigit (n := n) (by rw [h]; simp)⟩

theorem dropWhile_digits (n : Nat) (r : Str) (hr : ∀ c cs, r = c :: cs → digit c = false) :
    (digitsOf n ++ r).dropWhile digit = r := by
  rw [List.dropWhile_append_of_pos (fun c hc => by rw [digit_iff]; exact digitsOf_isDigit hc)]
  cases r with
  | nil => rfl
  | cons c cs => rw [List.dropWhile_cons_of_neg (by simp [hr c cs rfl])]

theorem dropWhile_head (v : Str) : ∀ c cs, v.dropWhile digit = c :: cs → digit c = false := by
  intro c cs h
  induction v with
  | nil => simp at h
  | cons x v ih =>
    by_cases hx : digit x = true
    · rw [List.dropWhile_cons_of_pos hx] at h; exact ih h
    · rw [List.dropWhile_cons_of_neg hx] at h
      cases h
      simpa using hx

theorem reseed_reseed (n m : Nat) (p : Str × Str) : reseed m (reseed n p) = reseed m p := by
  by_cases h : "seed".toList <:+ p.1 ∧ (p.2.head?.map digit) = some true
  · have h1 : reseed n p = (p.1, digitsOf n ++ p.2.dropWhile digit) := by unfold reseed; rw [if_pos h]
    have h2 : reseed m p = (p.1, digitsOf m ++ p.2.dropWhile digit) := by unfold reseed; rw [if_pos h]
    rw [h1, h2]
    unfold reseed
    obtain ⟨c, cs, hc, hd⟩ := digitsOf_cons n
    simp only
    rw [if_pos ⟨h.1, by rw [hc]; simp [hd]⟩, dropWhile_digits n _ (dropWhile_head p.2)]
  · have h1 : reseed n p = p := by unfold reseed; rw [if_neg h]
    rw [h1]

/-- C17: injecting again with another seed gives the same as injecting only that one. -/
theorem C17_inject_again (s : Str) (n m : Nat) :
    injectSeed (injectSeed s n) m = injectSeed s m := by
  by_cases hs : isValidDescriptor s = true
  · obtain ⟨d, hd, rfl⟩ := (isValid_iff s).1 hs
    have hok := inject_descr_ok d hd n
    rw [injectSeed_text d hd n, injectSeed_text _ hok m, injectSeed_text d hd m]
    simp only [Option.getD_some]
    congr 2
    by_cases hseed : ∃ p ∈ d.params.getD [], "seed".toList <:+ p.1 ∧ (p.2.head?.map digit) = some true
    · simp only [if_pos hseed]
      rw [if_pos, List.map_map]
      · congr 1
        apply List.map_congr_left
        intro p _
        exact reseed_reseed n m p
      · obtain ⟨p, hp, h1, h2⟩ := hseed
        refine ⟨reseed n p, List.mem_map.2 ⟨p, hp, rfl⟩, ?_⟩
        unfold reseed
        rw [if_pos ⟨h1, h2⟩]
        obtain ⟨c, cs, hc, hd'⟩ := digitsOf_cons n
        exact ⟨h1, by simp only; rw [hc]; simp [hd']⟩
    · simp only [if_neg hseed]
      obtain ⟨c, cs, hc, hd'⟩ := digitsOf_cons n
      rw [if_pos ⟨("seed".toList, digitsOf n), by simp, List.suffix_refl _, by simp only; rw [hc]; simp [hd']⟩]
      rw [List.map_append, List.map_cons, List.map_nil]
      congr 2
      · have : ∀ p ∈ d.params.getD [], reseed m p = p := by
          intro p hp
          unfold reseed
          rw [if_neg (fun h => hseed ⟨p, hp, h⟩)]
        rw [List.map_congr_left this, List.map_id']
      · unfold reseed
        simp only
        rw [if_pos ⟨List.suffix_refl _, by rw [hc]; simp [hd']⟩]
        have := dropWhile_digits n [] (by simp)
        rw [List.append_nil] at this
        rw [this, List.append_nil]
  · have h := C17_invalid_unchanged s n (by simpa using hs)
    rw [h]

theorem infix_pair_iff {k v idf : Str} (hk : '=' ∉ k) (hv : '=' ∉ v) :
    (idf ++ ['=']) <:+: pairText (k, v) ↔ idf <:+ k := by
  constructor
  · rintro ⟨a, b, he⟩
    have e : a ++ (idf ++ ['=']) ++ b = (a ++ idf) ++ '=' :: b := by simp
    rw [e] at he
    exact ⟨a, (append_cons_inj_single hk hv he).1⟩
  · rintro ⟨a, rfl⟩
    exact ⟨a, v, by simp [pairText]⟩

/-- Reading the parameter `k` from a list of pairs in which the first pair whose key ends with
`k` is `q`. -/
theorem param_pairs {ps qs : List (Str × Str)} {q : Str × Str} {idf : Str}
    (hps : ∀ p ∈ ps ++ q :: qs, PairOk valueChar p) (hid : ' ' ∉ idf)
    (hno : ∀ p ∈ ps, ¬ idf <:+ p.1) (hq : q.1 = idf) :
    param (joinSp ((ps ++ q :: qs).map pairText)) idf = some (some q.2) := by
  rw [List.map_append, List.map_cons]
  have : pairText q = idf ++ '=' :: q.2 := by unfold pairText; rw [hq]
  rw [this]
  apply param_hit
  · exact hid
  · exact ((hps q (by simp)).eq_not (fun _ h => h)).2.2.2
  · intro w hw
    obtain ⟨p, hp, rfl⟩ := List.mem_map.1 hw
    have hne := (hps p (by simp [hp])).eq_not (fun _ h => h)
    rw [infix_pair_iff hne.1 hne.2.1]
    exact hno p hp

/-- C17, for valid descriptors in which the name `seed` is not the end of another key and every
seed given is a number: reading the parameter `seed` from the result gives `n` (numbers up to
`INT_MAX`, what `atoi` can represent), and the other parameters are the same, in the same order.
Missing for the full property: the other descriptors, for which it is false, see
`C17_nonnumeric_seed_wins`, `C17_other_parameter_changed` and `C17_large_seed_undefined`. -/
theorem C17_seed_determined_partial (d : Descr) (hd : d.Ok valueChar) (n old : Nat)
    (hkeys : ∀ p ∈ d.params.getD [], "seed".toList <:+ p.1 →
      p.1 = "seed".toList ∧ ∀ c ∈ p.2, c.isDigit = true)
    (hn : n ≤ 2147483647) :
    parseCount (extractConfiguration (injectSeed d.text n)) "seed".toList old = some n ∧
    ∃ d' : Descr, d'.Ok valueChar ∧ injectSeed d.text n = d'.text ∧ d'.name = d.name ∧
      (d'.params.getD []).filter (fun p => p.1 ≠ "seed".toList) =
        (d.params.getD []).filter (fun p => p.1 ≠ "seed".toList) := by
  have hok := inject_descr_ok d hd n
  have htxt := injectSeed_text d hd n
  have hps : ∀ p ∈ d.params.getD [], PairOk valueChar p := by
    cases hp : d.params with
    | none => simp
    | some ps => simpa using hd.pairs ps hp
  have hatoi : atoi (digitsOf n) = some (n : Int) := by
    have := atoi_digits (rest := []) (digitsOf_ne_nil n) (fun c hc => digitsOf_isDigit hc) (by simp)
    rw [List.append_nil, digitsValue_digitsOf, if_pos hn] at this
    exact this
  have huint : toUInt (n : Int) = n := by unfold toUInt; omega
  constructor
  · rw [htxt, extractConfiguration_text hok]
    unfold Descr.config
    simp only [Option.getD_some]
    have hread : param (joinSp ((if ∃ p ∈ d.params.getD [], "seed".toList <:+ p.1 ∧
        (p.2.head?.map digit) = some true then (d.params.getD []).map (reseed n)
        else d.params.getD [] ++ [("seed".toList, digitsOf n)]).map pairText)) "seed".toList =
        some (some (digitsOf n)) := by
      by_cases hseed : ∃ p ∈ d.params.getD [], "seed".toList <:+ p.1 ∧ (p.2.head?.map digit) = some true
      · -- the first pair named seed
        rw [if_pos hseed]
        have hfirst : ∀ l : List (Str × Str), (∃ p ∈ l, "seed".toList <:+ p.1) →
            ∃ a q b, l = a ++ q :: b ∧ "seed".toList <:+ q.1 ∧ ∀ p ∈ a, ¬ "seed".toList <:+ p.1 := by
          intro l
          induction l with
          | nil => rintro ⟨p, hp, _⟩; simp at hp
          | cons x l ih =>
            intro hex
            by_cases hx : "seed".toList <:+ x.1
            · exact ⟨[], x, l, rfl, hx, by simp⟩
            · obtain ⟨p, hp, hp'⟩ := hex
              rcases List.mem_cons.1 hp with rfl | hp
              · exact absurd hp' hx
              · obtain ⟨a, q, b, rfl, hq, ha⟩ := ih ⟨p, hp, hp'⟩
                refine ⟨x :: a, q, b, rfl, hq, ?_⟩
                intro y hy
                rcases List.mem_cons.1 hy with rfl | hy
                · exact hx
                · exact ha y hy
        obtain ⟨p0, hp0, hp0', _⟩ := hseed
        obtain ⟨a, q, b, hl, hq, ha⟩ := hfirst _ ⟨p0, hp0, hp0'⟩
        rw [hl, List.map_append, List.map_cons]
        have hqmem : q ∈ d.params.getD [] := by rw [hl]; simp
        obtain ⟨hq1, hq2⟩ := hkeys q hqmem hq
        have hqok := hps q hqmem
        have hqr : reseed n q = ("seed".toList, digitsOf n) := by
          unfold reseed
          cases hv : q.2 with
          | nil => exact absurd hv hqok.2.2.1
          | cons c cs =>
            have hc : digit c = true := by rw [digit_iff]; exact hq2 c (by rw [hv]; simp)
            rw [if_pos ⟨hq, by simp [hc]⟩, hq1, ← hv]
            have : q.2.dropWhile digit = [] := by
              have h1 := List.dropWhile_append_of_pos (l₂ := []) (p := digit) (l₁ := q.2)
                (fun x hx => by rw [digit_iff]; exact hq2 x hx)
              rw [List.append_nil] at h1
              rw [h1]; rfl
            rw [this, List.append_nil]
        rw [hqr]
        have := param_pairs (ps := a.map (reseed n)) (q := ("seed".toList, digitsOf n))
          (qs := b.map (reseed n)) (idf := "seed".toList) ?_ (by decide) ?_ rfl
        · exact this
        · intro p hp
          rcases List.mem_append.1 hp with hp | hp
          · obtain ⟨x, hx, rfl⟩ := List.mem_map.1 hp
            exact reseed_ok n (hps x (by rw [hl]; simp [hx]))
          · rcases List.mem_cons.1 hp with rfl | hp
            · rw [← hqr]; exact reseed_ok n hqok
            · obtain ⟨x, hx, rfl⟩ := List.mem_map.1 hp
              exact reseed_ok n (hps x (by rw [hl]; simp [hx]))
        · intro p hp
          obtain ⟨x, hx, rfl⟩ := List.mem_map.1 hp
          have : (reseed n x).1 = x.1 := by unfold reseed; split <;> rfl
          rw [this]; exact ha x hx
      · rw [if_neg hseed]
        refine param_pairs (qs := []) ?_ (by decide) ?_ rfl
        · intro p hp
          rcases List.mem_append.1 hp with hp | hp
          · exact hps p hp
          · rw [List.mem_singleton] at hp
            subst hp
            refine ⟨by simp, ?_, digitsOf_ne_nil n, fun c hc => digitsOf_valueChar hc⟩
            show ∀ c ∈ "seed".toList, lower c = true
            decide
        · intro p hp hsf
          apply hseed
          refine ⟨p, hp, hsf, ?_⟩
          cases hv : p.2 with
          | nil => exact absurd hv (hps p hp).2.2.1
          | cons c cs =>
            simp only [List.head?_cons, Option.map_some, Option.some.injEq]
            rw [digit_iff]
            exact (hkeys p hp hsf).2 c (by rw [hv]; simp)
    unfold parseCount
    rw [hread]
    simp only [Option.bind_some]
    rw [hatoi, Option.map_some, huint]
  · refine ⟨_, hok, htxt, rfl, ?_⟩
    simp only [Option.getD_some]
    split
    · rw [List.filter_map]
      have h1 : ∀ p : Str × Str, ((fun p : Str × Str => decide (p.1 ≠ "seed".toList)) ∘ reseed n) p =
          decide (p.1 ≠ "seed".toList) := by
        intro p
        simp only [Function.comp]
        have : (reseed n p).1 = p.1 := by unfold reseed; split <;> rfl
        rw [this]
      rw [funext h1]
      have h2 : ∀ p ∈ (d.params.getD []).filter (fun p => decide (p.1 ≠ "seed".toList)), reseed n p = p := by
        intro p hp
        obtain ⟨hp1, hp2⟩ := List.mem_filter.1 hp
        unfold reseed
        rw [if_neg]
        rintro ⟨hsf, _⟩
        have := (hkeys p hp1 hsf).1
        simp [this] at hp2
      rw [List.map_congr_left h2, List.map_id']
    · rw [List.filter_append]
      have : [("seed".toList, digitsOf n)].filter (fun p => decide (p.1 ≠ "seed".toList)) = [] := by
        simp
      rw [this, List.append_nil]

/-- The full property fails: with a seed that is not a number, the injected one is ignored when
the parameter is read. -/
theorem C17_nonnumeric_seed_wins :
    injectSeed "convolution(seed=abc)".toList 7 = "convolution(seed=abc seed=7)".toList ∧
    parseCount (extractConfiguration (injectSeed "convolution(seed=abc)".toList 7)) "seed".toList 1
      = some 0 := by decide +kernel

/-- The full property fails: a parameter whose name ends in `seed` is overwritten. -/
theorem C17_other_parameter_changed :
    injectSeed "convolution(xseed=3)".toList 7 = "convolution(xseed=7)".toList := by decide +kernel

/-- The full property fails for seeds that do not fit an `int`: reading them back is undefined. -/
theorem C17_large_seed_undefined (n old : Nat) (hn : 2147483647 < n) :
    parseCount (extractConfiguration (injectSeed "convolution".toList n)) "seed".toList old = none := by
  have hd : (Descr.mk "convolution".toList none).Ok valueChar :=
    ⟨by decide, by decide, by simp⟩
  have htxt := injectSeed_text _ hd n
  have hok := inject_descr_ok _ hd n
  simp only [Option.getD_none, List.not_mem_nil, false_and, exists_false, if_false, List.nil_append] at htxt hok
  have e : Descr.text ⟨"convolution".toList, none⟩ = "convolution".toList := rfl
  rw [e] at htxt
  rw [htxt, extractConfiguration_text hok]
  have hread := param_pairs (ps := []) (q := ("seed".toList, digitsOf n)) (qs := []) (idf := "seed".toList)
    (by simpa using hok.pairs _ rfl) (by decide) (by simp) rfl
  unfold parseCount
  simp only [List.nil_append] at hread
  simp only [Descr.config, Option.getD_some]
  rw [hread]
  simp only [Option.bind_some]
  have := atoi_digits (rest := []) (digitsOf_ne_nil n) (fun c hc => digitsOf_isDigit hc) (by simp)
  rw [List.append_nil, digitsValue_digitsOf, if_neg (by omega)] at this
  rw [this]; rfl

/-- And in the code the seed read this way does not reach the generator of a convolution layer:
whatever the configuration, the generator keeps its default seed. -/
theorem C17_convolution_ignores_seed (cfg : Str) (c : ConvConfig)
    (h : convolutionFromConfig cfg = some c) : c.randSeed = 5489 := by
  unfold convolutionFromConfig at h
  simp only [Option.bind_eq_some_iff, Option.map_eq_some_iff] at h
  obtain ⟨_, _, _, _, _, _, _, _, _, _, _, _, rfl⟩ := h
  rfl

/-- Non-vacuity: a descriptor with a seed in the middle. -/
example : injectSeed "convolution(size=3x3 seed=0 pad=3x4)".toList 532 =
    "convolution(size=3x3 seed=532 pad=3x4)".toList := by decide +kernel
example : (Descr.mk "convolution".toList (some [("size".toList, "3x3".toList),
    ("seed".toList, "0".toList)])).Ok valueChar ∧
    ∀ p ∈ [("size".toList, "3x3".toList), ("seed".toList, "0".toList)], "seed".toList <:+ p.1 →
      p.1 = "seed".toList ∧ ∀ c ∈ p.2, c.isDigit = true := by
  refine ⟨⟨by decide, by decide, ?_⟩, by decide⟩
  intro ps h
  cases h
  unfold PairOk
  decide

/-! ## C18 -/

/-- C18: in a line of `key=value` pairs (after any words that do not mention the key), reading
`key` gives the value of the first pair with that key, whatever the other pairs are, provided no
earlier key ends in `key`.  Missing for the full property: lines with such keys, see
`C18_longer_name_read`. -/
theorem C18_read_partial (words : List Str) (ps qs : List (Str × Str)) (key value : Str)
    (hkey : ' ' ∉ key) (hval : ' ' ∉ value)
    (hwords : ∀ w ∈ words, ¬ (key ++ ['=']) <:+: w)
    (hps : ∀ p ∈ ps, '=' ∉ p.1 ∧ '=' ∉ p.2 ∧ ¬ key <:+ p.1) :
    param (joinSp (words ++ (ps ++ (key, value) :: qs).map pairText)) key = some (some value) := by
  have e : words ++ (ps ++ (key, value) :: qs).map pairText =
      (words ++ ps.map pairText) ++ (key ++ '=' :: value) :: qs.map pairText := by
    simp [pairText]
  rw [e]
  apply param_hit _ _ hkey hval
  intro w hw
  rcases List.mem_append.1 hw with hw | hw
  · exact hwords w hw
  · obtain ⟨⟨k, v⟩, hp, rfl⟩ := List.mem_map.1 hw
    rw [infix_pair_iff (hps _ hp).1 (hps _ hp).2.1]
    exact (hps _ hp).2.2

/-- C18: if no key ends in `key`, the variable keeps its value. -/
theorem C18_absent_partial (words : List Str) (ps : List (Str × Str)) (key : Str) (hkey : ' ' ∉ key)
    (hwords : ∀ w ∈ words, ¬ (key ++ ['=']) <:+: w)
    (hps : ∀ p ∈ ps, '=' ∉ p.1 ∧ '=' ∉ p.2 ∧ ¬ key <:+ p.1) (old : Nat) :
    param (joinSp (words ++ ps.map pairText)) key = some none ∧
    parseCount (joinSp (words ++ ps.map pairText)) key old = some old := by
  have h : param (joinSp (words ++ ps.map pairText)) key = some none := by
    unfold param
    rw [find_words_none (by simp [hkey]) (by simp)]
    intro w hw
    rcases List.mem_append.1 hw with hw | hw
    · exact hwords w hw
    · obtain ⟨⟨k, v⟩, hp, rfl⟩ := List.mem_map.1 hw
      rw [infix_pair_iff (hps _ hp).1 (hps _ hp).2.1]
      exact (hps _ hp).2.2
  exact ⟨h, by unfold parseCount; rw [h]; rfl⟩

/-- C18 for whole numbers. -/
theorem C18_count_partial (words : List Str) (ps qs : List (Str × Str)) (key : Str) (n old : Nat)
    (hkey : ' ' ∉ key) (hwords : ∀ w ∈ words, ¬ (key ++ ['=']) <:+: w)
    (hps : ∀ p ∈ ps, '=' ∉ p.1 ∧ '=' ∉ p.2 ∧ ¬ key <:+ p.1) (hn : n ≤ 2147483647) :
    parseCount (joinSp (words ++ (ps ++ (key, digitsOf n) :: qs).map pairText)) key old = some n := by
  have hsp : ' ' ∉ digitsOf n := fun hm => by have := digitsOf_isDigit hm; revert this; decide
  unfold parseCount
  rw [C18_read_partial words ps qs key (digitsOf n) hkey hsp hwords hps]
  have := atoi_digits (rest := []) (digitsOf_ne_nil n) (fun c hc => digitsOf_isDigit hc) (by simp)
  rw [List.append_nil, digitsValue_digitsOf, if_pos hn] at this
  simp only [Option.bind_some]
  rw [this, Option.map_some]
  unfold toUInt
  congr 1
  omega

theorem subSize_of_le {a b : Nat} (h : b ≤ a) (ha : a < 18446744073709551616) :
    subSize a b = a - b := by
  unfold subSize
  omega

theorem toUInt_natCast {n : Nat} (h : n ≤ 2147483647) : toUInt (n : Int) = n := by
  unfold toUInt; omega

/-- C18 for pairs of numbers `AxB`. -/
theorem C18_kernel_size_partial (words : List Str) (ps qs : List (Str × Str)) (key : Str)
    (a b : Nat) (old : Nat × Nat) (hkey : ' ' ∉ key) (hx : 'x' ∉ key)
    (hwords : ∀ w ∈ words, ¬ (key ++ ['=']) <:+: w)
    (hps : ∀ p ∈ ps, '=' ∉ p.1 ∧ '=' ∉ p.2 ∧ ¬ key <:+ p.1)
    (ha : a ≤ 2147483647) (hb : b ≤ 2147483647)
    (hlen : (joinSp (words ++ (ps ++ (key, digitsOf a ++ 'x' :: digitsOf b) :: qs).map pairText)).length
      < 18446744073709551616) :
    parseKernelSize (joinSp (words ++ (ps ++ (key, digitsOf a ++ 'x' :: digitsOf b) :: qs).map pairText))
      key old = some (a, b) := by
  have hdsp : ∀ m c, c.isDigit = false → c ∉ digitsOf m := fun m c hc hm => by
    have := digitsOf_isDigit hm; rw [hc] at this; cases this
  have e : words ++ (ps ++ (key, digitsOf a ++ 'x' :: digitsOf b) :: qs).map pairText =
      (words ++ ps.map pairText) ++ (key ++ '=' :: (digitsOf a ++ 'x' :: digitsOf b)) :: qs.map pairText := by
    simp [pairText]
  generalize hL : (joinSp (words ++ (ps ++ (key, digitsOf a ++ 'x' :: digitsOf b) :: qs).map
    pairText)).length = L at hlen
  rw [e] at hL ⊢
  rw [joinSp_middle] at hL ⊢
  unfold parseKernelSize
  rw [find_skip_words (by simp [hkey]) (by simp) (words ++ ps.map pairText) (by
    intro w hw
    rcases List.mem_append.1 hw with hw | hw
    · exact hwords w hw
    · obtain ⟨⟨k, v⟩, hp, rfl⟩ := List.mem_map.1 hw
      rw [infix_pair_iff (hps _ hp).1 (hps _ hp).2.1]
      exact (hps _ hp).2.2), find_prefix (by simp [List.append_assoc])]
  simp only [Option.map_some, Nat.zero_add]
  generalize (words ++ ps.map pairText).flatMap (fun v => v ++ [' ']) = pre at hL ⊢
  generalize htail : (qs.map pairText).flatMap (fun v => ' ' :: v) = tail at hL ⊢
  have htc : tail = [] ∨ ∃ r, tail = ' ' :: r := by rw [← htail]; exact tail_cases _
  -- position of the x
  have hxpos : findFrom ['x'] (pre ++ (key ++ '=' :: (digitsOf a ++ 'x' :: digitsOf b) ++ tail)) pre.length =
      some (pre.length + (key.length + 1 + (digitsOf a).length)) := by
    unfold findFrom
    rw [List.drop_left]
    have e2 : key ++ '=' :: (digitsOf a ++ 'x' :: digitsOf b) ++ tail =
        (key ++ '=' :: digitsOf a) ++ 'x' :: (digitsOf b ++ tail) := by simp
    rw [e2, find_sep (by simp [hx, hdsp a 'x' (by decide)])]
    simp only [Option.map_some, List.length_append, List.length_cons]
    congr 1; omega
  rw [hxpos]
  simp only
  -- the cut line
  have hcut : cut (pre ++ (key ++ '=' :: (digitsOf a ++ 'x' :: digitsOf b) ++ tail))
      (findFrom [' '] (pre ++ (key ++ '=' :: (digitsOf a ++ 'x' :: digitsOf b) ++ tail))
        (pre.length + (key.length + 1 + (digitsOf a).length))) =
      pre ++ (key ++ '=' :: (digitsOf a ++ 'x' :: digitsOf b)) := by
    unfold findFrom
    have hdrop : (pre ++ (key ++ '=' :: (digitsOf a ++ 'x' :: digitsOf b) ++ tail)).drop
        (pre.length + (key.length + 1 + (digitsOf a).length)) = 'x' :: digitsOf b ++ tail := by
      rw [List.drop_length_add_append]
      have e2 : key ++ '=' :: (digitsOf a ++ 'x' :: digitsOf b) ++ tail =
          (key ++ '=' :: digitsOf a) ++ ('x' :: digitsOf b ++ tail) := by simp
      rw [e2]
      have : key.length + 1 + (digitsOf a).length = (key ++ '=' :: digitsOf a).length := by
        simp only [List.length_append, List.length_cons]; omega
      rw [this, List.drop_left]
    rw [hdrop]
    have hns : ' ' ∉ 'x' :: digitsOf b := by simp [hdsp b ' ' (by decide)]
    rcases htc with rfl | ⟨r, rfl⟩
    · rw [List.append_nil, List.append_nil, find_sep_none hns]; simp [cut]
    · rw [find_sep hns]
      simp only [Option.map_some, cut]
      have e3 : pre ++ (key ++ '=' :: (digitsOf a ++ 'x' :: digitsOf b) ++ ' ' :: r) =
          (pre ++ (key ++ '=' :: (digitsOf a ++ 'x' :: digitsOf b))) ++ ' ' :: r := by simp
      rw [e3]
      have : ('x' :: digitsOf b).length + (pre.length + (key.length + 1 + (digitsOf a).length)) =
          (pre ++ (key ++ '=' :: (digitsOf a ++ 'x' :: digitsOf b))).length := by
        simp only [List.length_append, List.length_cons]; omega
      rw [this, List.take_left]
  rw [hcut]
  simp only [List.length_append, List.length_cons] at hL
  have hs1 : subSize (pre.length + (key.length + 1 + (digitsOf a).length)) (pre.length + (key.length + 1)) =
      (digitsOf a).length := by
    rw [subSize_of_le (by omega) (by omega)]; omega
  have hs2 : subSize (1 + (pre.length + (key.length + 1 + (digitsOf a).length)))
      (pre.length + (key.length + 1)) = (digitsOf a).length + 1 := by
    rw [subSize_of_le (by omega) (by omega)]; omega
  rw [hs1, hs2]
  unfold substr
  rw [if_pos (by simp)]
  rw [List.drop_length_add_append]
  have hsz : (key ++ '=' :: (digitsOf a ++ 'x' :: digitsOf b)).drop (key.length + 1) =
      digitsOf a ++ 'x' :: digitsOf b := by
    rw [List.drop_length_add_append]; rfl
  rw [hsz]
  simp only [Option.bind_some]
  rw [List.take_left, if_pos (by simp)]
  have hd2 : (digitsOf a ++ 'x' :: digitsOf b).drop ((digitsOf a).length + 1) = digitsOf b := by
    rw [List.drop_length_add_append]; rfl
  rw [hd2]
  have hat : ∀ m, m ≤ 2147483647 → atoi (digitsOf m) = some (m : Int) := by
    intro m hm
    have := atoi_digits (rest := []) (digitsOf_ne_nil m) (fun c hc => digitsOf_isDigit hc) (by simp)
    rw [List.append_nil, digitsValue_digitsOf, if_pos hm] at this
    exact this
  simp only [Option.bind_some, hat a ha, hat b hb, Option.map_some, toUInt_natCast ha, toUInt_natCast hb]

/-- The full property fails: a longer name that ends in the key is read instead. -/
theorem C18_longer_name_read :
    param (joinSp ([("oversize".toList, "9".toList), ("size".toList, "3".toList)].map pairText))
      "size".toList = some (some "9".toList) := by decide +kernel

/-- The full property fails for sizes: if the value has no `x`, the second number is taken from
another parameter. -/
theorem C18_size_taken_from_other_parameter :
    parseKernelSize (joinSp ([("size".toList, "3".toList), ("pad".toList, "1x2".toList)].map pairText))
      "size".toList (5, 5) = some (3, 2) := by decide +kernel

/-- Non-vacuity: a line as in the network files. -/
example : parseKernelSize "?convolutional kernels=16 size=7x5 stride=2x2".toList "size".toList (1, 1)
    = some (7, 5) := by decide +kernel
example : parseCount "?convolutional kernels=16 size=7x5 stride=2x2".toList "kernels".toList 0
    = some 16 := by decide +kernel
example : joinSp (["?convolutional".toList] ++ ([("kernels".toList, "16".toList)] ++
    ("size".toList, "7x5".toList) :: [("stride".toList, "2x2".toList)]).map pairText) =
    "?convolutional kernels=16 size=7x5 stride=2x2".toList := by decide

end CN24.Props
