import Verif.Model.Tool
import Verif.Proof.Config
import Verif.Proof.NetConfig
import Verif.Proof.ListStream
import Verif.Proof.Hybrid

/- Reading commands. -/

namespace CN24.Tool
open CN24 CN24.Config CN24.Net CN24.NetConfig

/-- A key is found in a pair only as the end of its key or in its value. -/
theorem key_infix {key k v : Str} (h1 : '=' ∉ key) (h2 : '=' ∉ k) (h : (key ++ ['=']) <:+: pairText (k, v)) :
    key <:+ k ∨ (key ++ ['=']) <:+: v := by
  obtain ⟨u, t, e⟩ := h
  unfold pairText at e
  dsimp only at e
  rw [List.append_assoc, List.append_assoc] at e
  rcases List.append_eq_append_iff.1 e with ⟨x, e1, e2⟩ | ⟨x, e1, e2⟩
  · -- `k = u ++ x`, `key ++ (= :: t) = x ++ = :: v`
    left
    rcases List.append_eq_append_iff.1 e2 with ⟨y, e3, e4⟩ | ⟨y, e3, e4⟩
    · cases y with
      | nil => rw [List.append_nil] at e3; exact ⟨u, by rw [e1, e3]⟩
      | cons d y =>
        simp only [List.singleton_append, List.cons_append, List.cons.injEq] at e4
        exact absurd (by rw [e1, e3, ← e4.1]; simp : '=' ∈ k) h2
    · cases y with
      | nil => rw [List.append_nil] at e3; exact ⟨u, by rw [e1, e3]⟩
      | cons d y =>
        simp only [List.cons_append, List.cons.injEq] at e4
        exact absurd (by rw [e3, ← e4.1]; simp : '=' ∈ key) h1
  · -- `u = k ++ x`, `= :: v = x ++ key ++ (= :: t)`
    cases x with
    | nil =>
      cases key with
      | nil => exact Or.inl (List.nil_suffix)
      | cons d key =>
        simp only [List.nil_append, List.cons_append, List.cons.injEq] at e2
        exact absurd (by rw [e2.1]; simp : '=' ∈ d :: key) h1
    | cons d x =>
      simp only [List.cons_append, List.cons.injEq] at e2
      exact Or.inr ⟨x, t, by rw [e2.2]; simp⟩

theorem equals_not_digit {n : Nat} : '=' ∉ decimal n := by
  intro h
  exact absurd (digitsOf_isDigit (n := n) h) (by decide)

theorem space_not_digit {n : Nat} : ' ' ∉ decimal n := by
  intro h
  exact absurd (digitsOf_isDigit (n := n) h) (by decide)

theorem newline_not_digit {n : Nat} : '\n' ∉ decimal n := by
  intro h
  exact absurd (digitsOf_isDigit (n := n) h) (by decide)

/-- A key that is not the end of the other key is not found in a pair with a number. -/
theorem key_number {key k : Str} {n : Nat} (h1 : '=' ∉ key) (h2 : '=' ∉ k) (h3 : ¬ key <:+ k) :
    ¬ (key ++ ['=']) <:+: pairText (k, decimal n) := by
  intro h
  rcases key_infix h1 h2 h with h | h
  · exact h3 h
  · exact equals_not_digit (h.subset (by simp))

theorem atoi_decimal {n : Nat} (h : n < 2147483648) : atoi (decimal n) = some (n : Int) := by
  have h2 := atoi_digits (ds := decimal n) (rest := []) (digitsOf_ne_nil n) (fun c hc => digitsOf_isDigit hc)
    (by intro c cs h; cases h)
  rw [List.append_nil, show digitsValue (decimal n) = n from digitsValue_digitsOf n, if_pos (by omega)] at h2
  exact h2

theorem toUInt_small {n : Nat} (h : n < 2147483648) : toUInt (n : Int) = n := by
  unfold toUInt; omega

/-- The parameter in a word. -/
theorem text_hit {key value : Str} (before after : List Str) (hk : ' ' ∉ key) (hv : ' ' ∉ value)
    (hb : ∀ w ∈ before, ¬ (key ++ ['=']) <:+: w) :
    text (joinSp (before ++ pairText (key, value) :: after)) key = .done value := by
  unfold text
  rw [show pairText (key, value) = key ++ '=' :: value from rfl, param_hit before after hk hv hb]
  rfl

theorem count_hit {key : Str} {n : Nat} (before after : List Str) (hk : ' ' ∉ key) (hn : n < 2147483648)
    (hb : ∀ w ∈ before, ¬ (key ++ ['=']) <:+: w) (d : Nat) :
    count (joinSp (before ++ pairText (key, decimal n) :: after)) key d = .done n := by
  unfold count parseCount
  rw [show pairText (key, decimal n) = key ++ '=' :: decimal n from rfl, param_hit before after hk space_not_digit hb]
  dsimp only [Option.bind_some]
  rw [atoi_decimal hn, Option.map_some, toUInt_small hn]
  rfl

theorem count_miss {key : Str} {ws : List Str} (hk : ' ' ∉ key) (hw : ∀ w ∈ ws, ¬ (key ++ ['=']) <:+: w) (d : Nat) :
    count (joinSp ws) key d = .done d := by
  unfold count
  rw [absent_count (find_words_none (by simp [hk]) (by simp) ws hw)]
  rfl

theorem option_key (o : TrainOption) :
    o.key = "epochs".toList ∨ o.key = "view".toList ∨ o.key = "no_snapshots".toList := by
  cases o
  · exact Or.inl rfl
  · exact Or.inr (Or.inr rfl)
  · exact Or.inr (Or.inl rfl)

theorem key_plain {key : Str} (hk : key = "epochs".toList ∨ key = "view".toList ∨ key = "no_snapshots".toList) :
    ' ' ∉ key ∧ '=' ∉ key ∧ '\n' ∉ key := by
  rcases hk with rfl | rfl | rfl <;> decide

theorem keys_differ {key k : Str} (hk : key = "epochs".toList ∨ key = "view".toList ∨ key = "no_snapshots".toList)
    (hk' : k = "epochs".toList ∨ k = "view".toList ∨ k = "no_snapshots".toList) (h : ¬ k = key) : ¬ key <:+ k := by
  rcases hk with rfl | rfl | rfl <;> rcases hk' with rfl | rfl | rfl <;> first | exact absurd rfl h | decide

/-- The options of `train`. -/
theorem count_options {key : Str} (hk : key = "epochs".toList ∨ key = "view".toList ∨ key = "no_snapshots".toList)
    (os : List TrainOption) (hn : ∀ o ∈ os, o.number < 2147483648) (d : Nat) (before : List Str)
    (hb : ∀ w ∈ before, ¬ (key ++ ['=']) <:+: w) :
    count (joinSp (before ++ os.map fun o => pairText (o.key, decimal o.number))) key d =
      .done (firstOption key d os) := by
  have hsp : ' ' ∉ key := by rcases hk with rfl | rfl | rfl <;> decide
  induction os generalizing before with
  | nil =>
    rw [List.map_nil, List.append_nil, firstOption]
    exact count_miss hsp hb d
  | cons o os ih =>
    rw [firstOption, List.map_cons]
    split
    · rename_i he
      rw [he]
      exact count_hit before _ hsp (hn o (by simp)) hb d
    · rename_i he
      have h := ih (fun o ho => hn o (by simp [ho])) (before ++ [pairText (o.key, decimal o.number)]) (by
        intro w hw
        rcases List.mem_append.1 hw with hw | hw
        · exact hb w hw
        · rw [List.mem_singleton.1 hw]
          exact key_number (key_plain hk).2.1 (key_plain (option_key o)).2.1 (keys_differ hk (option_key o) he))
      rw [List.append_assoc] at h
      exact h

theorem not_infix_pair {pat k v : Str} (h1 : '=' ∉ pat) (h2 : ¬ pat <:+: k) (h3 : ¬ pat <:+: v) :
    ¬ pat <:+: pairText (k, v) := by
  intro h
  rcases Hybrid.infix_split h1 h with h | h
  · exact h2 h
  · exact h3 h

theorem starts_append {p a b : Str} (h : p.isPrefixOf a = true) : startsWithIdentifier (a ++ b) p = true := by
  unfold startsWithIdentifier
  exact List.isPrefixOf_iff_prefix.2 ((List.isPrefixOf_iff_prefix.1 h).trans (List.prefix_append _ _))

/-- Identifiers that differ from the known beginning of the text. -/
theorem starts_not {p a : Str} (b : Str) (h : p.isPrefixOf a = false) (h' : a.isPrefixOf p = false) :
    ¬ startsWithIdentifier (a ++ b) p = true := by
  unfold startsWithIdentifier
  rw [Bool.eq_false_iff] at h h'
  intro e
  rw [List.isPrefixOf_iff_prefix] at e
  rcases List.prefix_or_prefix_of_prefix e (List.prefix_append a b) with h1 | h1
  · exact h (List.isPrefixOf_iff_prefix.2 h1)
  · exact h' (List.isPrefixOf_iff_prefix.2 h1)

theorem not_quit {a : Str} (b : Str) (h : a.isPrefixOf "q".toList = false) (h' : a.isPrefixOf "quit".toList = false) :
    ¬ (a ++ b = "q".toList ∨ a ++ b = "quit".toList) := by
  rw [Bool.eq_false_iff] at h h'
  rintro (e | e)
  · exact h (List.isPrefixOf_iff_prefix.2 ⟨b, e⟩)
  · exact h' (List.isPrefixOf_iff_prefix.2 ⟨b, e⟩)

/-- The commands and what they begin with. -/
theorem parse_train (b : Str) : parse ("train".toList ++ b) =
    ((count ("train".toList ++ b) "view".toList 0).bind fun view =>
    (count ("train".toList ++ b) "epochs".toList 1).bind fun epochs =>
    (count ("train".toList ++ b) "no_snapshots".toList 0).bind fun no =>
    .done (.train epochs (decide (view = 1)) (decide (no ≠ 1)))) := by
  unfold parse
  rw [if_neg (not_quit b (by decide) (by decide)), if_pos (starts_append (by decide))]

theorem parse_load (b : Str) : parse ("load".toList ++ b) =
    ((text ("load".toList ++ b) "file".toList).bind fun file =>
    (count ("load".toList ++ b) "last_layer".toList 0).bind fun last => .done (named file (.load file last))) := by
  unfold parse
  rw [if_neg (not_quit b (by decide) (by decide)), if_neg (starts_not b (by decide) (by decide)),
    if_neg (starts_not b (by decide) (by decide)), if_pos (starts_append (by decide))]

theorem parse_save (b : Str) : parse ("save".toList ++ b) =
    ((text ("save".toList ++ b) "file".toList).bind fun file => .done (named file (.save file))) := by
  unfold parse
  rw [if_neg (not_quit b (by decide) (by decide)), if_neg (starts_not b (by decide) (by decide)),
    if_neg (starts_not b (by decide) (by decide)), if_neg (starts_not b (by decide) (by decide)),
    if_pos (starts_append (by decide))]

theorem parse_experiment (b : Str) : parse ("set experiment".toList ++ b) =
    ((text ("set experiment".toList ++ b) "name".toList).bind fun name => .done (named name (.experiment name))) := by
  unfold parse
  rw [if_neg (not_quit b (by decide) (by decide)), if_neg (starts_not b (by decide) (by decide)),
    if_neg (starts_not b (by decide) (by decide)), if_neg (starts_not b (by decide) (by decide)),
    if_neg (starts_not b (by decide) (by decide)), if_pos (starts_append (by decide))]

theorem parse_setEpoch (b : Str) : parse ("set epoch".toList ++ b) =
    ((count ("set epoch".toList ++ b) "epoch".toList 0).bind fun epoch => .done (.setEpoch epoch)) := by
  unfold parse
  rw [if_neg (not_quit b (by decide) (by decide)), if_neg (starts_not b (by decide) (by decide)),
    if_neg (starts_not b (by decide) (by decide)), if_neg (starts_not b (by decide) (by decide)),
    if_neg (starts_not b (by decide) (by decide)), if_neg (starts_not b (by decide) (by decide)),
    if_pos (starts_append (by decide))]

theorem parse_graph (b : Str) : parse ("graph".toList ++ b) =
    ((text ("graph".toList ++ b) "file".toList).bind fun file =>
    .done (named file (.graph file (find "test".toList ("graph".toList ++ b)).isSome))) := by
  unfold parse
  rw [if_neg (not_quit b (by decide) (by decide)), if_neg (starts_not b (by decide) (by decide)),
    if_neg (starts_not b (by decide) (by decide)), if_neg (starts_not b (by decide) (by decide)),
    if_neg (starts_not b (by decide) (by decide)), if_neg (starts_not b (by decide) (by decide)),
    if_neg (starts_not b (by decide) (by decide)), if_neg (starts_not b (by decide) (by decide)),
    if_neg (starts_not b (by decide) (by decide)), if_pos (starts_append (by decide))]

theorem named_ok {s : Str} (h : s ≠ []) (a : Action) : named s a = a := by
  unfold named
  rw [if_neg]
  intro e
  exact h (List.length_eq_zero_iff.1 e)

/-- Documented commands are read as documented. -/
theorem parse_said (s : Said) (hok : s.Ok) (hc : s.Clear) : parse s.text = .done s.action := by
  cases s with
  | quit short => cases short <;> decide
  | test => decide
  | reset => decide
  | help => decide
  | trainingStats on => cases on <;> decide
  | train os =>
    have e : (Said.train os).text = joinSp (["train".toList] ++ os.map fun o => pairText (o.key, decimal o.number)) := rfl
    have hw : ∀ {k : Str}, ¬ (k ++ ['=']) <:+: "train".toList → ∀ w ∈ ["train".toList], ¬ (k ++ ['=']) <:+: w := by
      intro k h w hw; rw [List.mem_singleton.1 hw]; exact h
    have h1 := count_options (key := "view".toList) (by simp) os hok 0 ["train".toList] (hw (by decide))
    have h2 := count_options (key := "epochs".toList) (by simp) os hok 1 ["train".toList] (hw (by decide))
    have h3 := count_options (key := "no_snapshots".toList) (by simp) os hok 0 ["train".toList] (hw (by decide))
    rw [← e] at h1 h2 h3
    have e' : (Said.train os).text = "train".toList ++ (os.map fun o => pairText (o.key, decimal o.number)).flatMap
        (fun v => ' ' :: v) := by rw [e, List.singleton_append, joinSp_cons]
    rw [e'] at h1 h2 h3 ⊢
    rw [parse_train, h1, Outcome.bind_done, h2, Outcome.bind_done, h3, Outcome.bind_done]
    rfl
  | setEpoch n =>
    have h := count_hit (key := "epoch".toList) (n := n) ["set".toList] [] (by decide) hok (by decide) 0
    have e : (Said.setEpoch n).text = "set epoch".toList ++ ('=' :: decimal n) := rfl
    have e' : joinSp (["set".toList] ++ [pairText ("epoch".toList, decimal n)]) = "set epoch".toList ++ ('=' :: decimal n) := rfl
    rw [e'] at h
    rw [e, parse_setEpoch, h]
    rfl
  | experiment name =>
    obtain ⟨k1, k2, k3⟩ := hok
    have h := text_hit (key := "name".toList) (value := name) ["set".toList, "experiment".toList] [] (by decide) k2 (by decide)
    have e' : joinSp (["set".toList, "experiment".toList] ++ [pairText ("name".toList, name)]) =
      "set experiment".toList ++ (" name=".toList ++ name) := rfl
    rw [e'] at h
    rw [show (Said.experiment name).text = "set experiment".toList ++ (" name=".toList ++ name) from rfl, parse_experiment, h,
      Outcome.bind_done, named_ok k1]
    rfl
  | save f =>
    obtain ⟨k1, k2, k3⟩ := hok
    have h := text_hit (key := "file".toList) (value := f) ["save".toList] [] (by decide) k2 (by decide)
    have e' : joinSp (["save".toList] ++ [pairText ("file".toList, f)]) = "save".toList ++ (" file=".toList ++ f) := rfl
    rw [e'] at h
    rw [show (Said.save f).text = "save".toList ++ (" file=".toList ++ f) from rfl, parse_save, h,
      Outcome.bind_done, named_ok k1]
    rfl
  | load f n =>
    obtain ⟨⟨k1, k2, k3⟩, k4⟩ := hok
    have miss : ∀ w ∈ ["load".toList, pairText ("file".toList, f)], ¬ ("last_layer".toList ++ ['=']) <:+: w := by
      intro w hw
      rcases List.mem_cons.1 hw with rfl | hw
      · decide
      · rw [List.mem_singleton.1 hw]
        intro h
        rcases key_infix (by decide) (by decide) h with h | h
        · exact absurd h (by decide)
        · exact hc h
    cases n with
    | none =>
      have h := text_hit (key := "file".toList) (value := f) ["load".toList] [] (by decide) k2 (by decide)
      have h' := count_miss (key := "last_layer".toList) (by decide) miss 0
      have e' : joinSp (["load".toList] ++ [pairText ("file".toList, f)]) = "load".toList ++ (" file=".toList ++ f) := rfl
      rw [e'] at h
      rw [show joinSp ["load".toList, pairText ("file".toList, f)] = "load".toList ++ (" file=".toList ++ f) from rfl] at h'
      rw [show (Said.load f none).text = "load".toList ++ (" file=".toList ++ f) from rfl, parse_load, h,
        Outcome.bind_done, h', Outcome.bind_done, named_ok k1]
      rfl
    | some n =>
      have hn := k4 n rfl
      have h := text_hit (key := "file".toList) (value := f) ["load".toList] [pairText ("last_layer".toList, decimal n)]
        (by decide) k2 (by decide)
      have h' := count_hit (key := "last_layer".toList) (n := n) ["load".toList, pairText ("file".toList, f)] []
        (by decide) hn miss 0
      have e : (Said.load f (some n)).text = joinSp (["load".toList] ++ pairText ("file".toList, f) ::
        [pairText ("last_layer".toList, decimal n)]) := rfl
      rw [← e] at h
      have e'' : joinSp (["load".toList, pairText ("file".toList, f)] ++ [pairText ("last_layer".toList, decimal n)]) =
        (Said.load f (some n)).text := rfl
      rw [e''] at h'
      have e' : (Said.load f (some n)).text = "load".toList ++ ([pairText ("file".toList, f),
        pairText ("last_layer".toList, decimal n)].flatMap fun v => ' ' :: v) := by
        rw [Said.text, Said.words, joinSp_cons]
      rw [e'] at h h' ⊢
      rw [parse_load, h, Outcome.bind_done, h', Outcome.bind_done, named_ok k1]
      rfl
  | loadUpTo n f =>
    obtain ⟨⟨k1, k2, k3⟩, hn⟩ := hok
    have h := text_hit (key := "file".toList) (value := f) ["load".toList, pairText ("last_layer".toList, decimal n)] []
      (by decide) k2 (by
        intro w hw
        rcases List.mem_cons.1 hw with rfl | hw
        · decide
        · rw [List.mem_singleton.1 hw]
          exact key_number (by decide) (by decide) (by decide))
    have h' := count_hit (key := "last_layer".toList) (n := n) ["load".toList] [pairText ("file".toList, f)]
      (by decide) hn (by decide) 0
    have e : (Said.loadUpTo n f).text = joinSp (["load".toList, pairText ("last_layer".toList, decimal n)] ++
      [pairText ("file".toList, f)]) := rfl
    rw [← e] at h
    have e'' : joinSp (["load".toList] ++ pairText ("last_layer".toList, decimal n) :: [pairText ("file".toList, f)]) =
      (Said.loadUpTo n f).text := rfl
    rw [e''] at h'
    have e' : (Said.loadUpTo n f).text = "load".toList ++ ([pairText ("last_layer".toList, decimal n),
      pairText ("file".toList, f)].flatMap fun v => ' ' :: v) := by
      rw [Said.text, Said.words, joinSp_cons]
    rw [e'] at h h' ⊢
    rw [parse_load, h, Outcome.bind_done, h', Outcome.bind_done, named_ok k1]
    rfl
  | graph f t =>
    obtain ⟨k1, k2, k3⟩ := hok
    have h := text_hit (key := "file".toList) (value := f) ["graph".toList] [if t then "test".toList else "train".toList]
      (by decide) k2 (by decide)
    have e : joinSp (["graph".toList] ++ pairText ("file".toList, f) :: [if t then "test".toList else "train".toList]) =
      (Said.graph f t).text := rfl
    rw [e] at h
    have hf : (find "test".toList (Said.graph f t).text).isSome = t := by
      cases t with
      | true =>
        apply find_of_infix
        have e1 : (Said.graph f true).text = joinSp ([("graph".toList), pairText ("file".toList, f)] ++ "test".toList :: []) := rfl
        rw [e1]
        exact ⟨"graph".toList ++ ' ' :: (pairText ("file".toList, f) ++ [' ']), [], by
          simp [joinSp_cons]⟩
      | false =>
        have : find "test".toList (Said.graph f false).text = none := by
          refine find_words_none (by decide) (by decide) _ ?_
          intro w hw
          simp only [Said.words, Bool.false_eq_true, if_false, List.mem_cons, List.not_mem_nil, or_false] at hw
          rcases hw with rfl | rfl | rfl
          · decide
          · exact not_infix_pair (by decide) (by decide) hc
          · decide
        rw [this]; rfl
    have e' : (Said.graph f t).text = "graph".toList ++ ([pairText ("file".toList, f),
      if t then "test".toList else "train".toList].flatMap fun v => ' ' :: v) := by
      rw [Said.text, Said.words, joinSp_cons]
    rw [e'] at h hf ⊢
    rw [parse_graph, h, Outcome.bind_done, hf, named_ok k1]
    rfl

theorem newline_joinSp {ws : List Str} (h : ∀ w ∈ ws, '\n' ∉ w) : '\n' ∉ joinSp ws := by
  cases ws with
  | nil => simp [joinSp]
  | cons w ws =>
    rw [joinSp_cons, List.mem_append, not_or]
    refine ⟨h w (by simp), ?_⟩
    intro hm
    obtain ⟨v, hv, hm⟩ := List.mem_flatMap.1 hm
    rcases List.mem_cons.1 hm with hm | hm
    · exact absurd hm (by decide)
    · exact h v (by simp [hv]) hm

theorem newline_pair {k v : Str} (hk : '\n' ∉ k) (hv : '\n' ∉ v) : '\n' ∉ pairText (k, v) := by
  unfold pairText
  simp only [List.mem_append, List.mem_cons, not_or]
  exact ⟨hk, by decide, hv⟩

theorem newline_said (s : Said) (hok : s.Ok) : '\n' ∉ s.text := by
  apply newline_joinSp
  intro w hw
  cases s with
  | quit short => cases short <;> (rw [Said.words, List.mem_singleton] at hw; subst hw; decide)
  | test => rw [Said.words, List.mem_singleton] at hw; subst hw; decide
  | reset => rw [Said.words, List.mem_singleton] at hw; subst hw; decide
  | help => rw [Said.words, List.mem_singleton] at hw; subst hw; decide
  | trainingStats on =>
    cases on <;> (simp only [Said.words, List.mem_cons, List.not_mem_nil, or_false] at hw; rcases hw with rfl | rfl <;> decide)
  | train os =>
    rcases List.mem_cons.1 hw with rfl | hw
    · decide
    · obtain ⟨o, _, rfl⟩ := List.mem_map.1 hw
      exact newline_pair (key_plain (option_key o)).2.2 newline_not_digit
  | setEpoch n =>
    simp only [Said.words, List.mem_cons, List.not_mem_nil, or_false] at hw
    rcases hw with rfl | rfl
    · decide
    · exact newline_pair (by decide) newline_not_digit
  | experiment name =>
    simp only [Said.words, List.mem_cons, List.not_mem_nil, or_false] at hw
    rcases hw with rfl | rfl | rfl
    · decide
    · decide
    · exact newline_pair (by decide) hok.2.2
  | save f =>
    simp only [Said.words, List.mem_cons, List.not_mem_nil, or_false] at hw
    rcases hw with rfl | rfl
    · decide
    · exact newline_pair (by decide) hok.2.2
  | load f n =>
    cases n with
    | none =>
      simp only [Said.words, List.mem_cons, List.not_mem_nil, or_false] at hw
      rcases hw with rfl | rfl
      · decide
      · exact newline_pair (by decide) hok.1.2.2
    | some n =>
      simp only [Said.words, List.mem_cons, List.not_mem_nil, or_false] at hw
      rcases hw with rfl | rfl | rfl
      · decide
      · exact newline_pair (by decide) hok.1.2.2
      · exact newline_pair (by decide) newline_not_digit
  | loadUpTo n f =>
    simp only [Said.words, List.mem_cons, List.not_mem_nil, or_false] at hw
    rcases hw with rfl | rfl | rfl
    · decide
    · exact newline_pair (by decide) newline_not_digit
    · exact newline_pair (by decide) hok.1.2.2
  | graph f t =>
    simp only [Said.words, List.mem_cons, List.not_mem_nil, or_false] at hw
    rcases hw with rfl | rfl | rfl
    · decide
    · exact newline_pair (by decide) hok.2.2
    · cases t <;> decide

end CN24.Tool
