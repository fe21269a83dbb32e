import Verif.Proof.Config

/-
Lemmas about the regular expressions of the layer factory: grammar, captures, replacement.
-/

namespace CN24.Config
open CN24.RE

theorem lang_pairRE {w : Str} : Lang pairRE w ↔ ∃ p, PairOk valueChar p ∧ w = pairText p := by
  unfold pairRE
  rw [lang_seq]
  constructor
  · rintro ⟨k, v, rfl, h1, h2⟩
    obtain ⟨e, v, rfl, he, hv⟩ := lang_seq.1 h2
    obtain ⟨k1, k2⟩ := lang_plus_cls.1 h1
    obtain ⟨v1, v2⟩ := lang_plus_cls.1 hv
    rw [lang_char.1 he]
    exact ⟨(k, v), ⟨k1, k2, v1, v2⟩, rfl⟩
  · rintro ⟨⟨k, v⟩, ⟨k1, k2, v1, v2⟩, rfl⟩
    exact ⟨k, '=' :: v, rfl, lang_plus_cls.2 ⟨k1, k2⟩,
      lang_seq.2 ⟨['='], v, rfl, lang_char.2 rfl, lang_plus_cls.2 ⟨v1, v2⟩⟩⟩

theorem lang_more {w : Str} : Lang (.star (.seq (char ' ') pairRE)) w ↔
    ∃ ps : List (Str × Str), (∀ p ∈ ps, PairOk valueChar p) ∧
      w = (ps.map pairText).flatMap (fun v => ' ' :: v) := by
  rw [lang_star]
  constructor
  · rintro ⟨ws, rfl, h⟩
    induction ws with
    | nil => exact ⟨[], by simp, rfl⟩
    | cons u ws ih =>
      obtain ⟨ps, hps, hw⟩ := ih (fun x hx => h x (by simp [hx]))
      obtain ⟨a, b, rfl, ha, hb⟩ := lang_seq.1 (h u (by simp))
      obtain ⟨p, hp, rfl⟩ := lang_pairRE.1 hb
      rw [lang_char.1 ha]
      refine ⟨p :: ps, ?_, ?_⟩
      · intro q hq
        rcases List.mem_cons.1 hq with rfl | hq
        · exact hp
        · exact hps q hq
      · rw [List.flatten_cons, hw]; simp
  · rintro ⟨ps, hps, rfl⟩
    refine ⟨ps.map (fun p => ' ' :: pairText p), ?_, ?_⟩
    · induction ps with
      | nil => rfl
      | cons p ps ih =>
        simp only [List.map_cons, List.flatMap_cons, List.flatten_cons]
        rw [ih (fun q hq => hps q (by simp [hq]))]
    · intro u hu
      obtain ⟨p, hp, rfl⟩ := List.mem_map.1 hu
      exact lang_seq.2 ⟨[' '], pairText p, rfl, lang_char.2 rfl, lang_pairRE.2 ⟨p, hps p hp, rfl⟩⟩

theorem lang_config {w : Str} :
    Lang (opt (.seq pairRE (.star (.seq (char ' ') pairRE)))) w ↔
    ∃ ps : List (Str × Str), (∀ p ∈ ps, PairOk valueChar p) ∧ w = joinSp (ps.map pairText) := by
  rw [opt, lang_alt, lang_eps, lang_seq]
  constructor
  · rintro (⟨u, v, rfl, hu, hv⟩ | rfl)
    · obtain ⟨p, hp, rfl⟩ := lang_pairRE.1 hu
      obtain ⟨ps, hps, rfl⟩ := lang_more.1 hv
      refine ⟨p :: ps, ?_, by rw [List.map_cons, joinSp_cons]⟩
      intro q hq
      rcases List.mem_cons.1 hq with rfl | hq
      · exact hp
      · exact hps q hq
    · exact ⟨[], by simp, rfl⟩
  · rintro ⟨ps, hps, rfl⟩
    cases ps with
    | nil => exact Or.inr rfl
    | cons p ps =>
      left
      refine ⟨pairText p, (ps.map pairText).flatMap (fun v => ' ' :: v),
        by rw [List.map_cons, joinSp_cons], lang_pairRE.2 ⟨p, hps p (by simp), rfl⟩,
        lang_more.2 ⟨ps, fun q hq => hps q (by simp [hq]), rfl⟩⟩

theorem isValid_iff (s : Str) :
    isValidDescriptor s = true ↔ ∃ d : Descr, d.Ok valueChar ∧ s = d.text := by
  unfold isValidDescriptor validRE
  rw [isMatch_iff, lang_seq]
  constructor
  · rintro ⟨n, r, rfl, hn, hr⟩
    obtain ⟨n1, n2⟩ := lang_plus_cls.1 hn
    rw [opt, lang_alt, lang_eps] at hr
    rcases hr with hr | rfl
    · obtain ⟨a, b, rfl, ha, hb⟩ := lang_seq.1 hr
      obtain ⟨c, e, rfl, hc, he⟩ := lang_seq.1 hb
      obtain ⟨ps, hps, rfl⟩ := lang_config.1 hc
      rw [lang_char.1 ha, lang_char.1 he]
      refine ⟨⟨n, some ps⟩, ⟨n1, n2, ?_⟩, rfl⟩
      intro qs hq; cases hq; exact hps
    · refine ⟨⟨n, none⟩, ⟨n1, n2, by simp⟩, by simp [Descr.text]⟩
  · rintro ⟨⟨n, ps⟩, ⟨n1, n2, hps⟩, rfl⟩
    cases ps with
    | none =>
      exact ⟨n, [], by simp [Descr.text], lang_plus_cls.2 ⟨n1, n2⟩,
        by rw [opt, lang_alt, lang_eps]; exact Or.inr rfl⟩
    | some ps =>
      refine ⟨n, '(' :: (joinSp (ps.map pairText) ++ [')']), rfl, lang_plus_cls.2 ⟨n1, n2⟩, ?_⟩
      rw [opt, lang_alt]
      left
      exact lang_seq.2 ⟨['('], _, rfl, lang_char.2 rfl,
        lang_seq.2 ⟨_, [')'], rfl, lang_config.2 ⟨ps, hps ps rfl, rfl⟩, lang_char.2 rfl⟩⟩

/-! ## Captures -/

theorem lower_ne {c : Char} (h : lower c = true) : c ≠ '(' ∧ c ≠ ')' ∧ c ≠ '=' ∧ c ≠ ' ' := by
  refine ⟨?_, ?_, ?_, ?_⟩ <;> (rintro rfl; revert h; decide)

theorem valueChar_ne {c : Char} (h : valueChar c = true) :
    c ≠ '(' ∧ c ≠ ')' ∧ c ≠ '=' ∧ c ≠ ' ' := by
  refine ⟨?_, ?_, ?_, ?_⟩ <;> (rintro rfl; revert h; decide)

theorem paren_not_lower {n : Str} (h : ∀ c ∈ n, lower c = true) : '(' ∉ n :=
  fun hm => (lower_ne (h _ hm)).1 rfl

theorem extractLayerType_text {d : Descr} (h : d.Ok valueChar) : extractLayerType d.text = d.name := by
  unfold extractLayerType
  -- a match exists
  have hex : ∃ v, capture .eps (plus (.cls lower))
      (opt (.seq (char '(') (.seq (.star any) (char ')')))) d.text = some v := by
    cases hp : d.params with
    | none =>
      have := capture_isSome (pre := .eps) (cap := plus (.cls lower))
        (post := opt (.seq (char '(') (.seq (.star any) (char ')')))) .eps
        (lang_plus_cls.2 ⟨h.name_ne, h.name_lower⟩) (by rw [opt, lang_alt]; exact Or.inr .eps)
      simpa [Descr.text, hp] using this
    | some ps =>
      have := capture_isSome (pre := .eps) (cap := plus (.cls lower))
        (post := opt (.seq (char '(') (.seq (.star any) (char ')')))) .eps
        (lang_plus_cls.2 ⟨h.name_ne, h.name_lower⟩)
        (w := '(' :: (joinSp (ps.map pairText) ++ [')']))
        (by
          rw [opt, lang_alt]; left
          exact lang_seq.2 ⟨['('], _, rfl, lang_char.2 rfl, lang_seq.2 ⟨_, [')'], rfl,
            lang_star_cls.2 (by simp), lang_char.2 rfl⟩⟩)
      simpa [Descr.text, hp] using this
  obtain ⟨v, hv⟩ := hex
  rw [hv, Option.getD_some]
  -- every match captures the name
  obtain ⟨u, w, hs, hu, hc, hw⟩ := capture_some hv
  rw [lang_eps.1 hu, List.nil_append] at hs
  obtain ⟨v1, v2⟩ := lang_plus_cls.1 hc
  rw [opt, lang_alt, lang_eps] at hw
  rcases hw with hw | rfl
  · obtain ⟨a, b, rfl, ha, _⟩ := lang_seq.1 hw
    rw [lang_char.1 ha] at hs
    cases hp : d.params with
    | none =>
      simp only [Descr.text, hp] at hs
      exact absurd (show '(' ∈ d.name by rw [hs]; simp) (paren_not_lower h.name_lower)
    | some ps =>
      simp only [Descr.text, hp] at hs
      exact (append_cons_inj_left (paren_not_lower h.name_lower) (paren_not_lower v2) hs).1.symm
  · rw [List.append_nil] at hs
    cases hp : d.params with
    | none => simp only [Descr.text, hp] at hs; exact hs.symm
    | some ps =>
      simp only [Descr.text, hp] at hs
      exact absurd (show '(' ∈ v by rw [← hs]; simp) (paren_not_lower v2)

theorem extractConfiguration_text {d : Descr} (h : d.Ok valueChar) :
    extractConfiguration d.text = d.config := by
  unfold extractConfiguration
  have huniq : ∀ v, capture (.seq (plus (.cls lower)) (char '(')) (plus any) (char ')') d.text = some v →
      v ≠ [] ∧ d.params ≠ none ∧ v = d.config := by
    intro v hv
    obtain ⟨u, w, hs, hu, hc, hw⟩ := capture_some hv
    obtain ⟨n, p, rfl, hn, hp'⟩ := lang_seq.1 hu
    rw [lang_char.1 hp', lang_char.1 hw] at hs
    have n2 := (lang_plus_cls.1 hn).2
    refine ⟨(lang_plus_cls.1 hc).1, ?_⟩
    cases hp : d.params with
    | none =>
      simp only [Descr.text, hp] at hs
      exact absurd (show '(' ∈ d.name by rw [hs]; simp) (paren_not_lower h.name_lower)
    | some ps =>
      refine ⟨by simp, ?_⟩
      simp only [Descr.text, hp, List.append_assoc, List.cons_append, List.nil_append] at hs
      have := (append_cons_inj_left (paren_not_lower h.name_lower) (paren_not_lower n2) hs).2
      have := List.append_cancel_right this
      simp only [Descr.config, hp, Option.getD_some]
      exact this.symm
  cases hc : capture (.seq (plus (.cls lower)) (char '(')) (plus any) (char ')') d.text with
  | some v => rw [Option.getD_some]; exact (huniq v hc).2.2
  | none =>
    rw [Option.getD_none]
    -- no match: then the configuration is empty
    by_cases he : d.config = []
    · exact he.symm
    · exfalso
      cases hp : d.params with
      | none => simp [Descr.config, hp, joinSp] at he
      | some ps =>
        obtain ⟨v, hv⟩ := capture_isSome (pre := .seq (plus (.cls lower)) (char '('))
          (cap := plus any) (post := char ')') (u := d.name ++ ['(']) (v := d.config) (w := [')'])
          (lang_seq.2 ⟨d.name, ['('], rfl, lang_plus_cls.2 ⟨h.name_ne, h.name_lower⟩, lang_char.2 rfl⟩)
          (lang_plus_cls.2 ⟨he, by simp⟩) (lang_char.2 rfl)
        have : d.name ++ ['('] ++ d.config ++ [')'] = d.text := by
          simp [Descr.text, hp, Descr.config]
        rw [this, hc] at hv
        cases hv

/-! ## Replacement -/

theorem find_reverse_range {p : Nat → Bool} {N n : Nat} :
    (List.range N).reverse.find? p = some n ↔
      n < N ∧ p n = true ∧ ∀ m, n < m → m < N → p m = false := by
  induction N with
  | zero => simp
  | succ N ih =>
    rw [List.range_succ, List.reverse_append, List.reverse_singleton, List.singleton_append,
      List.find?_cons]
    cases hp : p N with
    | true =>
      simp only [Option.some.injEq]
      constructor
      · rintro rfl; exact ⟨by omega, hp, fun m h1 h2 => by omega⟩
      · rintro ⟨h1, h2, h3⟩
        by_cases hn : n = N
        · exact hn.symm
        · have := h3 N (by omega) (by omega); rw [hp] at this; cases this
    | false =>
      simp only
      rw [ih]
      constructor
      · rintro ⟨h1, h2, h3⟩
        refine ⟨by omega, h2, fun m hm1 hm2 => ?_⟩
        by_cases hm : m = N
        · rw [hm, hp]
        · exact h3 m hm1 (by omega)
      · rintro ⟨h1, h2, h3⟩
        have : n ≠ N := by rintro rfl; rw [hp] at h2; cases h2
        exact ⟨by omega, h2, fun m hm1 hm2 => h3 m hm1 (by omega)⟩

theorem lang_newSeed {w : Str} : Lang newSeedRE w ↔
    ∃ ds, ds ≠ [] ∧ (∀ c ∈ ds, digit c = true) ∧ w = "seed=".toList ++ ds := by
  unfold newSeedRE
  rw [lang_seq]
  constructor
  · rintro ⟨u, v, rfl, h1, h2⟩
    rw [lang_lit.1 h1]
    exact ⟨v, (lang_plus_cls.1 h2).1, (lang_plus_cls.1 h2).2, rfl⟩
  · rintro ⟨ds, h1, h2, rfl⟩
    exact ⟨_, ds, rfl, lang_lit.2 rfl, lang_plus_cls.2 ⟨h1, h2⟩⟩

/-- Where the text starts with the number to be replaced. -/
def StartsSeed (s : Str) : Prop := ∃ d t, digit d = true ∧ s = "seed=".toList ++ d :: t

theorem longest_some {d : Char} {t : Str} (hd : digit d = true) :
    longestPrefix newSeedRE ("seed=".toList ++ d :: t) = some (6 + (t.takeWhile digit).length) := by
  unfold longestPrefix
  have hlen : (t.takeWhile digit).length ≤ t.length := (List.takeWhile_prefix digit).length_le
  have htk : ∀ m, ("seed=".toList ++ d :: t).take (5 + m + 1) = "seed=".toList ++ d :: t.take m := by
    intro m
    rw [show 5 + m + 1 = "seed=".toList.length + (m + 1) from by
      rw [show "seed=".toList.length = 5 from by decide]; omega]
    rw [List.take_length_add_append, List.take_succ_cons]
  have : (List.range ("seed=".toList ++ d :: t).length).reverse.find?
      (fun n => newSeedRE.isMatch (("seed=".toList ++ d :: t).take (n + 1))) =
      some (5 + (t.takeWhile digit).length) := by
    rw [find_reverse_range]
    refine ⟨by rw [List.length_append, show "seed=".toList.length = 5 from by decide, List.length_cons]; omega, ?_, ?_⟩
    · rw [htk, isMatch_iff, lang_newSeed]
      refine ⟨d :: t.take (t.takeWhile digit).length, by simp, ?_, rfl⟩
      have : t.take (t.takeWhile digit).length = t.takeWhile digit :=
        (List.prefix_iff_eq_take.1 (List.takeWhile_prefix digit)).symm
      rw [this]
      intro c hc
      rcases List.mem_cons.1 hc with rfl | hc
      · exact hd
      · exact List.all_eq_true.1 List.all_takeWhile c hc
    · intro m hm1 hm2
      rw [List.length_append, show "seed=".toList.length = 5 from by decide, List.length_cons] at hm2
      obtain ⟨k, rfl⟩ : ∃ k, m = 5 + k := ⟨m - 5, by omega⟩
      rw [htk, Bool.eq_false_iff]
      intro hmt
      rw [isMatch_iff, lang_newSeed] at hmt
      obtain ⟨ds, _, hds, he⟩ := hmt
      have he := (List.append_cancel_left he)
      subst he
      have hall : ∀ c ∈ t.take k, digit c = true := fun c hc => hds c (by simp [hc])
      have hk : k ≤ (t.takeWhile digit).length := by
        have hsplit : (t.take k ++ t.drop k).takeWhile digit = t.take k ++ (t.drop k).takeWhile digit :=
          List.takeWhile_append_of_pos hall
        rw [List.take_append_drop] at hsplit
        rw [hsplit, List.length_append, List.length_take]; omega
      omega
  rw [this]
  simp only [Option.map_some]; congr 1; omega

theorem longest_none {s : Str} (h : ¬ StartsSeed s) : longestPrefix newSeedRE s = none := by
  unfold longestPrefix
  rw [Option.map_eq_none_iff, List.find?_eq_none]
  intro n hn
  simp only [List.mem_reverse, List.mem_range] at hn
  intro hm
  rw [isMatch_iff, lang_newSeed] at hm
  obtain ⟨ds, h1, h2, h3⟩ := hm
  cases ds with
  | nil => exact h1 rfl
  | cons d ds =>
    apply h
    refine ⟨d, ds ++ s.drop (n + 1), h2 d (by simp), ?_⟩
    have := List.take_append_drop (n + 1) s
    rw [h3, List.append_assoc] at this
    exact this.symm

theorem replaceAux_fuel (by_ : Str) : ∀ (fuel : Nat) (s : Str), s.length ≤ fuel →
    replaceAux newSeedRE by_ fuel s = replaceAll newSeedRE by_ s := by
  have : ∀ (N : Nat) (s : Str), s.length ≤ N → ∀ f g, s.length ≤ f → s.length ≤ g →
      replaceAux newSeedRE by_ f s = replaceAux newSeedRE by_ g s := by
    intro N
    induction N with
    | zero =>
      intro s hs f g _ _
      have : s = [] := List.length_eq_zero_iff.1 (by omega)
      subst this
      cases f <;> cases g <;> rfl
    | succ N ih =>
      intro s hs f g hf hg
      cases s with
      | nil => cases f <;> cases g <;> rfl
      | cons c cs =>
        cases f with
        | zero => simp at hf
        | succ f =>
          cases g with
          | zero => simp at hg
          | succ g =>
            simp only [List.length_cons, Nat.add_le_add_iff_right] at hs hf hg
            simp only [replaceAux]
            split
            · rename_i n hn
              have hpos : 0 < n := by
                unfold longestPrefix at hn
                rw [Option.map_eq_some_iff] at hn
                obtain ⟨m, _, rfl⟩ := hn; omega
              have hdl : ((c :: cs).drop n).length ≤ cs.length := by
                rw [List.length_drop, List.length_cons]; omega
              rw [ih _ (by omega) f g (by omega) (by omega)]
            · rw [ih cs hs f g hf hg]
  intro fuel s h
  exact this s.length s (Nat.le_refl _) fuel s.length h (Nat.le_refl _)

theorem replaceAll_hit (by_ : Str) {d : Char} {t : Str} (hd : digit d = true) :
    replaceAll newSeedRE by_ ("seed=".toList ++ d :: t) =
      by_ ++ replaceAll newSeedRE by_ (t.dropWhile digit) := by
  have hs : "seed=".toList ++ d :: t = 's' :: ("eed=".toList ++ d :: t) := rfl
  conv => lhs; unfold replaceAll
  rw [hs, List.length_cons]
  simp only [replaceAux]
  rw [← hs, longest_some hd]
  simp only
  have hdrop : ("seed=".toList ++ d :: t).drop (6 + (t.takeWhile digit).length) = t.dropWhile digit := by
    rw [show 6 + (t.takeWhile digit).length = "seed=".toList.length + ((t.takeWhile digit).length + 1)
      from by rw [show "seed=".toList.length = 5 from by decide]; omega]
    rw [List.drop_length_add_append, List.drop_succ_cons]
    conv => lhs; arg 2; rw [← List.takeWhile_append_dropWhile (p := digit) (l := t)]
    rw [List.drop_left]
  rw [hdrop, replaceAux_fuel]
  have h1 : (t.dropWhile digit).length ≤ t.length := by
    have := congrArg List.length (List.takeWhile_append_dropWhile (p := digit) (l := t))
    rw [List.length_append] at this; omega
  rw [List.length_append, List.length_cons]; omega

theorem replaceAll_miss (by_ : Str) {c : Char} {s : Str} (h : ¬ StartsSeed (c :: s)) :
    replaceAll newSeedRE by_ (c :: s) = c :: replaceAll newSeedRE by_ s := by
  conv => lhs; unfold replaceAll
  rw [List.length_cons]
  simp only [replaceAux]
  rw [longest_none h]
  rfl

theorem replaceAll_nil (by_ : Str) : replaceAll newSeedRE by_ [] = [] := rfl

/-- Nothing to replace in text without `=`. -/
theorem replaceAll_no_eq (by_ : Str) {s : Str} (h : '=' ∉ s) : replaceAll newSeedRE by_ s = s := by
  induction s with
  | nil => rfl
  | cons c s ih =>
    rw [replaceAll_miss, ih (fun hm => h (by simp [hm]))]
    rintro ⟨d, t, _, he⟩
    exact h (by rw [he]; simp)

/-- A separator splits the work. -/
theorem replaceAll_sep (by_ : Str) {x : Char} (hx : x ∉ "seed=".toList) (hx' : digit x = false)
    (rest : Str) : ∀ (N : Nat) (w : Str), w.length ≤ N → replaceAll newSeedRE by_ (w ++ x :: rest) =
      replaceAll newSeedRE by_ w ++ x :: replaceAll newSeedRE by_ rest := by
  have hmiss : ∀ r, ¬ StartsSeed (x :: r) := by
    rintro r ⟨d, t, _, he⟩
    have : x = 's' := by
      have := congrArg List.head? he
      simpa using this
    exact hx (by rw [this]; decide)
  intro N
  induction N with
  | zero =>
    intro w hw
    have : w = [] := List.length_eq_zero_iff.1 (by omega)
    subst this
    rw [List.nil_append, replaceAll_miss by_ (hmiss rest)]; rfl
  | succ N ih =>
    intro w hw
    cases w with
    | nil => rw [List.nil_append, replaceAll_miss by_ (hmiss rest)]; rfl
    | cons c w =>
      simp only [List.length_cons, Nat.add_le_add_iff_right] at hw
      by_cases hs : StartsSeed (c :: w)
      · obtain ⟨d, t, hd, he⟩ := hs
        rw [he, replaceAll_hit by_ hd]
        have e2 : "seed=".toList ++ d :: t ++ x :: rest = "seed=".toList ++ d :: (t ++ x :: rest) := by
          rw [List.append_assoc]; rfl
        rw [e2, replaceAll_hit by_ hd]
        have e3 : (t ++ x :: rest).dropWhile digit = t.dropWhile digit ++ x :: rest := by
          rw [List.dropWhile_append]
          split
          · rename_i hemp
            rw [List.isEmpty_iff] at hemp
            rw [hemp, List.nil_append, List.dropWhile_cons_of_neg (by simp [hx'])]
          · rfl
        rw [e3, ih]
        · rw [List.append_assoc]
        · have h1 : (t.dropWhile digit).length ≤ t.length := by
            have := congrArg List.length (List.takeWhile_append_dropWhile (p := digit) (l := t))
            rw [List.length_append] at this; omega
          have h2 := congrArg List.length he
          rw [List.length_cons, List.length_append, List.length_cons] at h2
          omega
      · rw [replaceAll_miss by_ hs, List.cons_append, replaceAll_miss, ih w hw, List.cons_append]
        rintro ⟨d, t, hd, he⟩
        apply hs
        -- the six matched characters lie in `c :: w`
        have hpre : ("seed=".toList ++ [d]) <+: (c :: w) ++ x :: rest := by
          refine ⟨t, ?_⟩
          rw [List.cons_append, he]; simp
        rw [prefix_of_append_sep] at hpre
        · obtain ⟨t', ht'⟩ := hpre
          exact ⟨d, t', hd, by rw [← ht']; simp⟩
        · rw [List.mem_append, not_or]
          refine ⟨hx, ?_⟩
          intro hm
          rw [List.mem_singleton] at hm
          rw [← hm, hx'] at hd; cases hd

/-- The effect on one parameter. -/
def reseed (n : Nat) (p : Str × Str) : Str × Str :=
  if "seed".toList <:+ p.1 ∧ ((p.2.head?.map digit) = some true) then
    (p.1, digitsOf n ++ p.2.dropWhile digit)
  else p

theorem startsSeed_pair {k v : Str} (hk : '=' ∉ k) (hv : '=' ∉ v) :
    StartsSeed (k ++ '=' :: v) ↔ k = "seed".toList ∧ (v.head?.map digit) = some true := by
  constructor
  · rintro ⟨d, t, hd, he⟩
    have e2 : "seed=".toList ++ d :: t = "seed".toList ++ '=' :: (d :: t) := by rfl
    rw [e2] at he
    obtain ⟨h1, h2⟩ := append_cons_inj_left hk (by decide) he
    exact ⟨h1, by rw [h2]; simp [hd]⟩
  · rintro ⟨rfl, hh⟩
    cases v with
    | nil => simp at hh
    | cons d t => exact ⟨d, t, by simpa using hh, rfl⟩

theorem replaceAll_pair (n : Nat) {k v : Str} (hk : '=' ∉ k) (hv : '=' ∉ v) :
    replaceAll newSeedRE ("seed=".toList ++ digitsOf n) (pairText (k, v)) =
      pairText (reseed n (k, v)) := by
  have base : replaceAll newSeedRE ("seed=".toList ++ digitsOf n) ('=' :: v) = '=' :: v := by
    rw [replaceAll_miss, replaceAll_no_eq _ hv]
    rintro ⟨d, t, _, he⟩
    have := congrArg List.head? he
    simp at this
  induction k with
  | nil =>
    have : reseed n ([], v) = ([], v) := by
      unfold reseed
      rw [if_neg]
      rintro ⟨h, _⟩
      have := List.suffix_nil.1 h
      exact absurd this (by decide)
    rw [this]
    exact base
  | cons c k ih =>
    have hk' : '=' ∉ k := fun hm => hk (by simp [hm])
    by_cases hs : StartsSeed (pairText (c :: k, v))
    · obtain ⟨h1, h2⟩ := (startsSeed_pair hk hv).1 hs
      cases v with
      | nil => simp at h2
      | cons d t =>
        have hd : digit d = true := by simpa using h2
        have e : pairText (c :: k, d :: t) = "seed=".toList ++ d :: t := by
          unfold pairText; simp only; rw [h1]; rfl
        rw [e, replaceAll_hit _ hd]
        have ht : '=' ∉ t.dropWhile digit := by
          intro hm
          exact hv (List.mem_cons_of_mem _ ((List.dropWhile_sublist digit).subset hm))
        rw [replaceAll_no_eq _ ht]
        unfold reseed
        simp only
        rw [if_pos ⟨by rw [h1]; exact List.suffix_refl _, h2⟩, List.dropWhile_cons_of_pos hd, h1]
        unfold pairText
        simp only [List.append_assoc]; rfl
    · have e : pairText (c :: k, v) = c :: pairText (k, v) := rfl
      rw [e] at hs ⊢
      rw [replaceAll_miss _ hs, ih hk']
      -- `c :: k` ends with "seed" iff `k` does, since it is not equal to "seed"
      by_cases hv2 : (v.head?.map digit) = some true
      · have hne : c :: k ≠ "seed".toList := fun h => hs ((startsSeed_pair hk hv).2 ⟨h, hv2⟩)
        unfold reseed
        simp only
        by_cases hsf : "seed".toList <:+ k
        · rw [if_pos ⟨hsf, hv2⟩, if_pos ⟨hsf.trans (List.suffix_cons c k), hv2⟩]; rfl
        · rw [if_neg (fun h => hsf h.1), if_neg]
          · rfl
          · rintro ⟨h, _⟩
            rcases List.suffix_cons_iff.1 h with h | h
            · exact hne h.symm
            · exact hsf h
      · unfold reseed
        rw [if_neg (fun h => hv2 h.2), if_neg (fun h => hv2 h.2)]
        rfl

theorem PairOk.eq_not {V : Char → Bool} (hV : ∀ c, V c = true → valueChar c = true)
    {p : Str × Str} (h : PairOk V p) :
    '=' ∉ p.1 ∧ '=' ∉ p.2 ∧ ' ' ∉ p.1 ∧ ' ' ∉ p.2 :=
  ⟨fun hm => (lower_ne (h.2.1 _ hm)).2.2.1 rfl, fun hm => (valueChar_ne (hV _ (h.2.2.2 _ hm))).2.2.1 rfl,
    fun hm => (lower_ne (h.2.1 _ hm)).2.2.2 rfl, fun hm => (valueChar_ne (hV _ (h.2.2.2 _ hm))).2.2.2 rfl⟩

theorem replaceAll_config (n : Nat) (ps : List (Str × Str)) (h : ∀ p ∈ ps, PairOk valueChar p) :
    replaceAll newSeedRE ("seed=".toList ++ digitsOf n) (joinSp (ps.map pairText)) =
      joinSp ((ps.map (reseed n)).map pairText) := by
  induction ps with
  | nil => rfl
  | cons p ps ih =>
    have hp := (h p (by simp)).eq_not (fun _ h => h)
    have hps := ih (fun q hq => h q (by simp [hq]))
    cases ps with
    | nil =>
      simp only [List.map_cons, List.map_nil, joinSp]
      exact replaceAll_pair n hp.1 hp.2.1
    | cons q qs =>
      simp only [List.map_cons, joinSp] at hps ⊢
      rw [replaceAll_sep _ (by decide) (by decide) _ _ _ (Nat.le_refl _), hps,
        replaceAll_pair n hp.1 hp.2.1]

theorem hasSeed_config (ps : List (Str × Str)) (h : ∀ p ∈ ps, PairOk valueChar p) :
    hasSeedRE.isMatch (joinSp (ps.map pairText)) = true ↔
      ∃ p ∈ ps, "seed".toList <:+ p.1 ∧ (p.2.head?.map digit) = some true := by
  have hre : ∀ w, Lang hasSeedRE w ↔ ∃ d, digit d = true ∧ ("seed=".toList ++ [d]) <:+: w := by
    intro w
    unfold hasSeedRE
    rw [lang_seq]
    constructor
    · rintro ⟨a, b, rfl, _, hb⟩
      obtain ⟨u, v, rfl, hu, hv⟩ := lang_seq.1 hb
      obtain ⟨ds, r, rfl, hds, _⟩ := lang_seq.1 hv
      obtain ⟨h1, h2⟩ := lang_plus_cls.1 hds
      cases ds with
      | nil => exact absurd rfl h1
      | cons d ds =>
        refine ⟨d, h2 d (by simp), a, ds ++ r, ?_⟩
        rw [lang_lit.1 hu]; simp
    · rintro ⟨d, hd, a, b, rfl⟩
      refine ⟨a, "seed=".toList ++ ([d] ++ b), by simp, lang_star_cls.2 (by simp), ?_⟩
      exact lang_seq.2 ⟨_, _, rfl, lang_lit.2 rfl,
        lang_seq.2 ⟨[d], b, rfl, lang_plus_cls.2 ⟨by simp, by simpa using hd⟩, lang_star_cls.2 (by simp)⟩⟩
  have hpair : ∀ p, PairOk valueChar p → ∀ d, digit d = true →
      (("seed=".toList ++ [d]) <:+: pairText p → "seed".toList <:+ p.1 ∧ (p.2.head?.map digit) = some true) := by
    rintro ⟨k, v⟩ hp d hd ⟨a, b, he⟩
    have hne := hp.eq_not (fun _ h => h)
    have e : a ++ ("seed=".toList ++ [d]) ++ b = (a ++ "seed".toList) ++ '=' :: (d :: b) := by
      simp [List.append_assoc]
    rw [e] at he
    obtain ⟨h1, h2⟩ := append_cons_inj_single hne.1 hne.2.1 he
    exact ⟨⟨a, h1⟩, by rw [← h2]; simp [hd]⟩
  -- an occurrence without a space lies in one word
  have hsplit : ∀ {pat w rest : Str}, ' ' ∉ pat → pat <:+: w ++ ' ' :: rest → pat <:+: w ∨ pat <:+: rest := by
    intro pat w rest hx hin
    induction w with
    | nil =>
      rw [List.nil_append] at hin
      rcases List.infix_cons_iff.1 hin with h | h
      · left
        rw [← List.nil_append (' ' :: rest), prefix_of_append_sep hx] at h
        exact h.isInfix
      · exact Or.inr h
    | cons c w ih =>
      rw [List.cons_append] at hin
      rcases List.infix_cons_iff.1 hin with h | h
      · left
        rw [← List.cons_append, prefix_of_append_sep hx] at h
        exact h.isInfix
      · rcases ih h with h | h
        · exact Or.inl (h.trans (List.suffix_cons c w).isInfix)
        · exact Or.inr h
  rw [isMatch_iff, hre]
  constructor
  · rintro ⟨d, hd, hin⟩
    have hsp : ' ' ∉ "seed=".toList ++ [d] := by
      rw [List.mem_append, not_or]
      refine ⟨by decide, ?_⟩
      intro hm
      rw [List.mem_singleton] at hm
      rw [← hm] at hd; revert hd; decide
    induction ps with
    | nil =>
      simp only [List.map_nil, joinSp] at hin
      have := List.infix_nil.1 hin
      simp at this
    | cons p ps ih =>
      cases ps with
      | nil =>
        exact ⟨p, by simp, hpair p (h p (by simp)) d hd hin⟩
      | cons q qs =>
        simp only [List.map_cons, joinSp] at hin ih
        rcases hsplit hsp hin with h1 | h1
        · exact ⟨p, by simp, hpair p (h p (by simp)) d hd h1⟩
        · obtain ⟨r, hr, hr'⟩ := ih (fun x hx => h x (by simp at hx ⊢; exact Or.inr hx)) h1
          exact ⟨r, by simp at hr ⊢; exact Or.inr hr, hr'⟩
  · rintro ⟨⟨k, v⟩, hp, ⟨a, hk⟩, hv⟩
    simp only at hk hv
    cases v with
    | nil => simp at hv
    | cons d t =>
      have hd : digit d = true := by simpa using hv
      refine ⟨d, hd, ?_⟩
      have hw : ("seed=".toList ++ [d]) <:+: pairText (k, d :: t) :=
        ⟨a, t, by unfold pairText; simp only; rw [← hk]; simp⟩
      obtain ⟨l, r, hlr⟩ := List.append_of_mem hp
      rw [hlr, List.map_append, List.map_cons, joinSp_middle]
      exact hw.trans ⟨_, _, by rw [List.append_assoc]⟩

end CN24.Config
