import Verif.Model.TrainSettings
import Verif.Proof.NetConfig

/-! C71: the settings of the training. -/

namespace CN24.Props
open CN24 CN24.Config CN24.TrainSettings

variable {D : Type _}

/-- The lines of a description as far as the training is concerned: settings, and lines of other parts. -/
inductive SetLine where
  | real (k : RealKey) (value : Str)
  | count (k : CountKey) (n : Nat)
  | method (quickprop : Bool)
  | other (text : Str)

def SetLine.text : SetLine → Str
  | .real k v => k.name ++ '=' :: v
  | .count k n => k.name ++ '=' :: NetConfig.num n
  | .method q => "optimization=".toList ++ if q then "quickprop".toList else "gradient_descent".toList
  | .other t => t

/-- The words that settings begin with. -/
def settingWords : List Str := realKeys.map RealKey.name ++ countKeys.map CountKey.name ++ ["optimization".toList]

def SetLine.Ok : SetLine → Prop
  | .real _ v => '\n' ∉ v ∧ ∃ c ∈ v, isSpace c = false
  | .count _ n => n ≤ 2147483647
  | .method _ => True
  | .other t => '\n' ∉ t ∧ ∀ w ∈ settingWords, ¬ w <+: t

/-- What the lines say about a number, and about the method. -/
def SetLine.real? (k : RealKey) : SetLine → Option Str
  | .real j v => if j = k then some v else none
  | _ => none

def SetLine.count? (k : CountKey) : SetLine → Option Nat
  | .count j n => if j = k then some n else none
  | _ => none

def SetLine.method? : SetLine → Option Bool
  | .method q => some q
  | _ => none

theorem prefix_eq {m n v : Str} (hm : '=' ∉ m) (h : m <+: n ++ '=' :: v) : m <+: n := by
  obtain ⟨r, hr⟩ := h
  rcases List.append_eq_append_iff.1 hr with ⟨a, h1, h2⟩ | ⟨a, h1, h2⟩
  · exact ⟨a, h1.symm⟩
  · cases a with
    | nil => rw [List.append_nil] at h1; rw [h1]
    | cons c a =>
      rw [List.cons_append, List.cons.injEq] at h2
      rw [h1, ← h2.1] at hm
      simp at hm

theorem words_apart' : ∀ m ∈ settingWords, ∀ n ∈ settingWords, m <+: n → m = n := by
  intro m hm n hn h
  rw [← List.isPrefixOf_iff_prefix] at h
  revert m n
  decide +kernel

theorem words_plain : ∀ m ∈ settingWords, '=' ∉ m := by decide +kernel

theorem real_word (k : RealKey) : k.name ∈ settingWords := by cases k <;> decide
theorem count_word (k : CountKey) : k.name ∈ settingWords := by cases k <;> decide
theorem method_word : "optimization".toList ∈ settingWords := by decide
theorem real_inj : ∀ j k : RealKey, j.name = k.name → j = k := by intro j k; cases j <;> cases k <;> decide
theorem count_inj : ∀ j k : CountKey, j.name = k.name → j = k := by intro j k; cases j <;> cases k <;> decide
theorem real_ne_count (j : RealKey) (k : CountKey) : j.name ≠ k.name := by cases j <;> cases k <;> decide
theorem real_ne_method (j : RealKey) : j.name ≠ "optimization".toList := by cases j <;> decide
theorem count_ne_method (j : CountKey) : j.name ≠ "optimization".toList := by cases j <;> decide

theorem setting_other {t w : Str} (h : ¬ w <+: t) : setting t w = some none := by
  unfold setting startsWithIdentifier
  rw [if_neg]
  rw [List.isPrefixOf_iff_prefix]
  exact h

theorem setting_apart {m n v : Str} (hm : m ∈ settingWords) (hn : n ∈ settingWords) (h : m ≠ n) :
    setting (n ++ '=' :: v) m = some none :=
  setting_other fun hp => h (words_apart' m hm n hn (prefix_eq (words_plain m hm) hp))

theorem setting_self (n v : Str) : setting (n ++ '=' :: v) n = some (some v) := by
  unfold setting startsWithIdentifier substr
  rw [if_pos (by rw [List.isPrefixOf_iff_prefix]; exact List.prefix_append _ _), if_pos (by simp)]
  rw [show n ++ '=' :: v = (n ++ ['=']) ++ v by simp, show n.length + 1 = (n ++ ['=']).length by simp, List.drop_left]
  rfl

theorem eachKey_skip {K : Type} {f : K → Settings D → Outcome (Settings D)} {ks : List K}
    (h : ∀ k ∈ ks, ∀ s, f k s = .done s) (s : Settings D) : eachKey f ks s = .done s := by
  induction ks with
  | nil => rfl
  | cons k ks ih =>
    rw [eachKey, h k (by simp), Outcome.bind_done, ih fun k hk => h k (by simp [hk])]

theorem eachKey_one {K : Type} {f : K → Settings D → Outcome (Settings D)} {ks : List K} {k : K} (g : Settings D → Settings D)
    (hk : k ∈ ks) (hnd : ks.Nodup) (hg : ∀ s, f k s = .done (g s)) (h : ∀ j, j ≠ k → ∀ s, f j s = .done s)
    (s : Settings D) : eachKey f ks s = .done (g s) := by
  induction ks with
  | nil => cases hk
  | cons j ks ih =>
    rw [List.nodup_cons] at hnd
    by_cases hj : j = k
    · subst hj
      rw [eachKey, hg, Outcome.bind_done]
      exact eachKey_skip (fun i hi => h i (by rintro rfl; exact hnd.1 hi)) _
    · rw [eachKey, h j hj, Outcome.bind_done]
      rcases List.mem_cons.1 hk with hk | hk
      · exact absurd hk.symm hj
      · exact ih hk hnd.2

theorem num_digits (n : Nat) : NetConfig.num n ≠ [] ∧ (∀ c ∈ NetConfig.num n, c.isDigit = true) := by
  refine ⟨?_, fun c hc => ?_⟩
  · unfold NetConfig.num
    exact Nat.toDigits_ne_nil
  · by_contra h
    exact NetConfig.num_not (by simpa using h) hc

/-- What a line does. -/
def SetLine.apply (conv : Str → D) (s : Settings D) : SetLine → Settings D
  | .real k v => s.setReal k (conv v)
  | .count k n => s.setCount k n
  | .method q => { s with quickprop := q }
  | .other _ => s

theorem not_comment {n v : Str} (hn : n ∈ settingWords) : (['#'].isPrefixOf (n ++ v)) = false := by
  have : ∀ n ∈ settingWords, n.head? ≠ some '#' ∧ n ≠ [] := by decide +kernel
  have h := this n hn
  cases n with
  | nil => exact absurd rfl h.2
  | cons c n =>
    simp only [List.head?_cons, ne_eq, Option.some.injEq] at h
    simp [List.isPrefixOf, Ne.symm h.1]

theorem atoi_num {n : Nat} (h : n ≤ 2147483647) : atoi (NetConfig.num n) = some (n : Int) := by
  have := atoi_digits (rest := []) (num_digits n).1 (num_digits n).2 (by simp)
  rw [List.append_nil] at this
  rw [this]
  have hv : digitsValue (NetConfig.num n) = n := digitsValue_digitsOf n
  rw [hv, if_pos h]

theorem readLine_ok (conv : Str → D) (i : SetLine) (hi : i.Ok) (s : Settings D) :
    readLine conv i.text s = .done (i.apply conv s) := by
  have nd1 : realKeys.Nodup := by decide
  have nd2 : countKeys.Nodup := by decide
  have m1 : ∀ k, k ∈ realKeys := by intro k; cases k <;> decide
  have m2 : ∀ k, k ∈ countKeys := by intro k; cases k <;> decide
  cases i with
  | real k v =>
    show readLine conv (k.name ++ '=' :: v) s = _
    unfold readLine
    rw [if_neg (by rw [not_comment (real_word k)]; simp)]
    rw [eachKey_one (fun s => s.setReal k (conv v)) (m1 k) nd1 ?_ ?_, Outcome.bind_done, eachKey_skip, Outcome.bind_done]
    · unfold readMethod
      rw [setting_apart method_word (real_word k) (real_ne_method k).symm]
      rfl
    · intro j _ s
      unfold readCount
      rw [setting_apart (count_word j) (real_word k) (real_ne_count k j).symm]
    · intro s
      unfold readReal
      rw [setting_self]
      obtain ⟨c, hc, hs⟩ := hi.2
      show (if v.all isSpace = true then _ else _) = _
      rw [if_neg]
      intro hall
      rw [List.all_eq_true] at hall
      rw [hall c hc] at hs
      cases hs
    · intro j hj s
      unfold readReal
      rw [setting_apart (real_word j) (real_word k) (fun e => hj (real_inj j k e))]
  | count k n =>
    show readLine conv (k.name ++ '=' :: NetConfig.num n) s = _
    unfold readLine
    rw [if_neg (by rw [not_comment (count_word k)]; simp)]
    rw [eachKey_skip, Outcome.bind_done, eachKey_one (fun s => s.setCount k n) (m2 k) nd2 ?_ ?_, Outcome.bind_done]
    · unfold readMethod
      rw [setting_apart method_word (count_word k) (count_ne_method k).symm]
      rfl
    · intro s
      unfold readCount
      rw [setting_self]
      show (Outcome.ofOption (atoi (NetConfig.num n))).bind _ = _
      rw [atoi_num hi, Outcome.ofOption_some, Outcome.bind_done]
      have : toUInt (n : Int) = n := by
        have : n ≤ 2147483647 := hi
        unfold toUInt
        omega
      rw [this]
    · intro j hj s
      unfold readCount
      rw [setting_apart (count_word j) (count_word k) (fun e => hj (count_inj j k e))]
    · intro j _ s
      unfold readReal
      rw [setting_apart (real_word j) (count_word k) (real_ne_count j k)]
  | method q =>
    show readLine conv ("optimization=".toList ++ _) s = _
    generalize hv : (if q then "quickprop".toList else "gradient_descent".toList) = v
    have e : "optimization=".toList ++ v = "optimization".toList ++ '=' :: v := rfl
    rw [e]
    unfold readLine
    rw [if_neg (by rw [not_comment method_word]; simp)]
    rw [eachKey_skip, Outcome.bind_done, eachKey_skip, Outcome.bind_done]
    · unfold readMethod
      rw [setting_self]
      cases q
      · rw [← hv]; rfl
      · rw [← hv]; rfl
    · intro j _ s
      unfold readCount
      rw [setting_apart (count_word j) method_word (count_ne_method j)]
    · intro j _ s
      unfold readReal
      rw [setting_apart (real_word j) method_word (real_ne_method j)]
  | other t =>
    show readLine conv t s = .done s
    unfold readLine
    split
    · rfl
    · rw [eachKey_skip, Outcome.bind_done, eachKey_skip, Outcome.bind_done]
      · unfold readMethod
        rw [setting_other (hi.2 _ method_word)]
      · intro j _ s
        unfold readCount
        rw [setting_other (hi.2 _ (count_word j))]
      · intro j _ s
        unfold readReal
        rw [setting_other (hi.2 _ (real_word j))]

theorem setLine_oneLine {i : SetLine} (hi : i.Ok) : '\n' ∉ i.text := by
  cases i with
  | real k v =>
    show '\n' ∉ k.name ++ '=' :: v
    rw [List.mem_append, List.mem_cons]
    rintro (h | h | h)
    · revert h; cases k <;> decide
    · cases h
    · exact hi.1 h
  | count k n =>
    show '\n' ∉ k.name ++ '=' :: NetConfig.num n
    rw [List.mem_append, List.mem_cons]
    rintro (h | h | h)
    · revert h; cases k <;> decide
    · cases h
    · exact NetConfig.num_not (by decide) h
  | method q => cases q <;> decide
  | other t => exact hi.1

theorem readLines_ok (conv : Str → D) : ∀ (is : List SetLine), (∀ i ∈ is, i.Ok) → ∀ s : Settings D,
    readLines conv (is.map SetLine.text) s = .done (is.foldl (SetLine.apply conv) s)
  | [], _, s => rfl
  | i :: is, h, s => by
    rw [List.map_cons, readLines, readLine_ok conv i (h i (by simp)), Outcome.bind_done, List.foldl_cons]
    exact readLines_ok conv is (fun i hi => h i (by simp [hi])) _

theorem getLast_cons {α : Type _} (o : Option α) (l : List α) (a : α) :
    ((o.toList ++ l).getLast?).getD a = l.getLast?.getD (o.getD a) := by
  cases o with
  | none => rfl
  | some b =>
    cases l with
    | nil => rfl
    | cons c l => simp [List.getLast?_cons]

theorem fold_set (conv : Str → D) (is : List SetLine) (s : Settings D) :
    (∀ k, (is.foldl (SetLine.apply conv) s).real k =
      (((is.filterMap (SetLine.real? k)).map conv).getLast?).getD (s.real k)) ∧
    (∀ k, (is.foldl (SetLine.apply conv) s).count k = ((is.filterMap (SetLine.count? k)).getLast?).getD (s.count k)) ∧
    (is.foldl (SetLine.apply conv) s).quickprop = ((is.filterMap SetLine.method?).getLast?).getD s.quickprop := by
  induction is generalizing s with
  | nil => exact ⟨fun _ => rfl, fun _ => rfl, rfl⟩
  | cons i is ih =>
    obtain ⟨h1, h2, h3⟩ := ih (i.apply conv s)
    have fm : ∀ {β : Type} (f : SetLine → Option β), (i :: is).filterMap f = (f i).toList ++ is.filterMap f := by
      intro β f
      rw [List.filterMap_cons]
      cases f i <;> rfl
    refine ⟨fun k => ?_, fun k => ?_, ?_⟩
    · rw [List.foldl_cons, h1, fm, List.map_append,
        show ((SetLine.real? k i).toList.map conv) = ((SetLine.real? k i).map conv).toList by
          cases SetLine.real? k i <;> rfl, getLast_cons]
      congr 1
      cases i with
      | real j v =>
        show (if k = j then conv v else s.real k) = _
        show _ = (Option.map conv (if j = k then some v else none)).getD (s.real k)
        by_cases h : k = j
        · rw [if_pos h, if_pos h.symm]; rfl
        · rw [if_neg h, if_neg (Ne.symm h)]; rfl
      | count j n => rfl
      | method q => rfl
      | other t => rfl
    · rw [List.foldl_cons, h2, fm, getLast_cons]
      congr 1
      cases i with
      | count j v =>
        show (if k = j then v else s.count k) = _
        show _ = (if j = k then some v else none).getD (s.count k)
        by_cases h : k = j
        · rw [if_pos h, if_pos h.symm]; rfl
        · rw [if_neg h, if_neg (Ne.symm h)]; rfl
      | real j n => rfl
      | method q => rfl
      | other t => rfl
    · rw [List.foldl_cons, h3, fm, getLast_cons]
      congr 1
      cases i <;> rfl

/-- C71: every setting has the value of the last line that sets it, and its default if there is none, wherever the
lines are and whatever the other lines of the description are. -/
theorem C71_settings (conv : Str → D) (lines : List SetLine) (hne : lines ≠ []) (hok : ∀ i ∈ lines, i.Ok)
    (s : Settings D) :
    ∃ r, initSettings conv (NetConfig.joinLines (lines.map SetLine.text)) s = .done r ∧
      (∀ k, r.real k = (((lines.filterMap (SetLine.real? k)).map conv).getLast?).getD (s.real k)) ∧
      (∀ k, r.count k = ((lines.filterMap (SetLine.count? k)).getLast?).getD (s.count k)) ∧
      r.quickprop = ((lines.filterMap SetLine.method?).getLast?).getD s.quickprop := by
  refine ⟨lines.foldl (SetLine.apply conv) s, ?_, fold_set conv lines s⟩
  unfold initSettings
  rw [NetConfig.linesOf_joinLines (by simpa using hne), readLines_ok conv lines hok]
  intro l hl
  obtain ⟨i, hi, rfl⟩ := List.mem_map.1 hl
  exact setLine_oneLine (hok i hi)

/-- C71: the lines that describe layers, comments and the method do not change the settings... -/
theorem C71_layers_are_other (i : NetConfig.Item) (h : ∀ t, i ≠ .other t) : ∀ w ∈ settingWords, ¬ w <+: i.text := by
  have key : ∀ w ∈ settingWords, ∃ c w', w = c :: w' ∧ c ∉ ['?', '#'] ∧ ¬ w <+: "method=patch".toList := by
    intro w hw
    have : ∀ w ∈ settingWords, (w.head?.all fun c => !(['?', '#'].contains c)) ∧ w ≠ [] ∧
        ¬ w.isPrefixOf "method=patch".toList := by decide +kernel
    obtain ⟨h1, h2, h3⟩ := this w hw
    cases w with
    | nil => exact absurd rfl h2
    | cons c w' =>
      refine ⟨c, w', rfl, ?_, ?_⟩
      · simpa using h1
      · rw [← List.isPrefixOf_iff_prefix]; exact h3
  intro w hw hp
  obtain ⟨c, w', rfl, hc, hm⟩ := key w hw
  have hcons : ∀ d t, c :: w' <+: d :: t → d ∈ ['?', '#'] → False := by
    intro d t hp hd
    rw [List.cons_prefix_cons] at hp
    rw [hp.1] at hc
    exact hc hd
  cases i with
  | other t => exact h t rfl
  | comment t => exact hcons _ _ hp (by simp)
  | patches => exact hm hp
  | conv a b c d => exact hcons _ _ hp (by simp)
  | full n => exact hcons _ _ hp (by simp)
  | maxPool k => exact hcons _ _ hp (by simp)
  | down k => exact hcons _ _ hp (by simp)
  | stridedPool k s => exact hcons _ _ hp (by simp)
  | act a => exact hcons _ _ hp (by simp)

/-- C71: ... and the settings do not change the network: they are lines of another part (C56). -/
theorem C71_settings_are_foreign (i : SetLine) (h : ∀ t, i ≠ .other t) (hv : ∀ k v, i = .real k v →
      '(' ∉ v ∧ 'm' ∉ v ∧ 'f' ∉ v) : NetConfig.Foreign i.text := by
  have hb : ∀ w ∈ settingWords, ¬ ['?'] <+: w ∧ ∀ s ∈ ["pusha".toList, "pushb".toList, "popa".toList, "popb".toList,
      "manual".toList], ¬ s <+: w := by
    intro w hw
    have : ∀ w ∈ settingWords, ¬ ['?'].isPrefixOf w ∧ ∀ s ∈ ["pusha".toList, "pushb".toList, "popa".toList,
        "popb".toList, "manual".toList], ¬ s.isPrefixOf w := by decide +kernel
    obtain ⟨h1, h2⟩ := this w hw
    exact ⟨by rw [← List.isPrefixOf_iff_prefix]; exact h1, fun s hs => by
      rw [← List.isPrefixOf_iff_prefix]; exact h2 s hs⟩
  have main : ∀ (w v : Str), w ∈ settingWords → '(' ∉ v → 'm' ∉ v → 'f' ∉ v → NetConfig.Foreign (w ++ '=' :: v) := by
    intro w v hw h1 h2 h3
    have hw2 : ∀ w ∈ settingWords, '(' ∉ w ∧ 'f' ∉ w ∧ 'd' ∉ w := by decide +kernel
    obtain ⟨a1, a2, a3⟩ := hw2 w hw
    refine ⟨fun hp => (hb w hw).1 (prefix_eq (by decide) hp), fun s hs hp => (hb w hw).2 s hs (prefix_eq ?_ hp), ?_⟩
    · clear hp; revert s hs; decide
    · intro s hs hin
      simp only [List.mem_cons, List.not_mem_nil, or_false] at hs
      rcases hs with rfl | rfl | rfl
      · -- "method=" would begin in the word
        obtain ⟨p, q, e⟩ := hin
        have e' : p ++ ("method=".toList ++ q) = w ++ '=' :: v := by rw [← e, List.append_assoc]
        rcases List.append_eq_append_iff.1 e' with ⟨a, b1, b2⟩ | ⟨a, b1, b2⟩
        · have b3 : "method".toList ++ '=' :: q = a ++ '=' :: v := b2
          rcases List.append_eq_append_iff.1 b3 with ⟨x, c1, c2⟩ | ⟨x, c1, c2⟩
          · apply a3
            rw [b1, c1]
            simp
          · cases x with
            | nil =>
              apply a3
              rw [List.append_nil] at c1
              rw [b1, ← c1]
              simp
            | cons d x =>
              rw [List.cons_append, List.cons.injEq] at c2
              have : '=' ∈ "method".toList := by rw [c1, c2.1]; simp
              exact absurd this (by decide)
        · cases a with
          | nil =>
            rw [List.nil_append] at b2
            have := congrArg List.head? b2
            simp at this
          | cons d a =>
            rw [List.cons_append, List.cons.injEq] at b2
            apply h2
            rw [b2.2]
            simp
      · have : 'f' ∈ w ++ '=' :: v := hin.subset (by decide)
        rw [List.mem_append, List.mem_cons] at this
        rcases this with h | h | h
        · exact a2 h
        · cases h
        · exact h3 h
      · have : '(' ∈ w ++ '=' :: v := hin.subset (by decide)
        rw [List.mem_append, List.mem_cons] at this
        rcases this with h | h | h
        · exact a1 h
        · cases h
        · exact h1 h
  cases i with
  | other t => exact absurd rfl (h t)
  | real k v => exact main _ _ (real_word k) (hv k v rfl).1 (hv k v rfl).2.1 (hv k v rfl).2.2
  | count k n =>
    exact main _ _ (count_word k) (NetConfig.num_not (by decide)) (NetConfig.num_not (by decide))
      (NetConfig.num_not (by decide))
  | method q => cases q <;> exact main "optimization".toList _ method_word (by decide) (by decide) (by decide)

/-- C71, refuted: a word without a value ends the program; longer words set the setting they begin with, to what is
left of them; unknown methods are ignored, and so is `optimization_method`. -/
theorem C71_prefix_words (conv : Str → D) (s : Settings D) :
    initSettings conv "lr".toList s = .fatal ∧ initSettings conv "lr=".toList s = .undefined ∧
    initSettings conv "l1_weight=0.1".toList s = .done (s.setReal .l1 (conv "weight=0.1".toList)) ∧
    initSettings conv "iterations=many".toList s = .done (s.setCount .iterations 0) ∧
    initSettings conv "pbatchsize=-1".toList s = .done (s.setCount .pbatchsize 4294967295) ∧
    initSettings conv "optimization=adam".toList s = .done s ∧
    initSettings conv "optimization=quickpropagation".toList s = .done { s with quickprop := true } ∧
    initSettings conv "optimization=gradient_descent_momentum".toList s = .done { s with quickprop := false } ∧
    initSettings conv "optimization_method=quickprop".toList s = .done s := ⟨rfl, rfl, rfl, rfl, rfl, rfl, rfl, rfl, rfl⟩

/-- A description with settings in several places. -/
example : ∃ r, initSettings (fun t => t.length) "?convolutional kernels=1 size=3x3\nlr=0.01\n# lr=5\nmu=2\nlr=0.001\npbatchsize=4\noptimization=quickprop\n?output".toList
      ⟨fun _ => 0, fun _ => 1, false⟩ = .done r ∧ r.real .lr = 5 ∧ r.real .mu = 1 ∧ r.real .l1 = 0 ∧
      r.count .pbatchsize = 4 ∧ r.count .sbatchsize = 1 ∧ r.quickprop = true := ⟨_, rfl, rfl, rfl, rfl, rfl, rfl, rfl⟩

end CN24.Props
