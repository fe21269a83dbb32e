import Verif.Model.DatasetConfig
import Verif.Spec.DatasetConfig
import Verif.Proof.Config
import Verif.Proof.ListStream

namespace CN24.DatasetConfig
open CN24 CN24.Config

variable {D : Type _}

/-! ## Lines -/

theorem nextLines_append (xs more : List Str) : nextLines xs.length (xs ++ more) = (xs, more) := by
  induction xs with
  | nil => rfl
  | cons x xs ih =>
    rw [List.length_cons, nextLines, List.cons_append, List.headD_cons, List.tail_cons, ih]

theorem nextLines_length (n : Nat) (rest : List Str) : (nextLines n rest).1.length = n := by
  induction n generalizing rest with
  | zero => rfl
  | succ n ih => rw [nextLines, List.length_cons, ih]

theorem nextLines_rest (n : Nat) (rest : List Str) : (nextLines n rest).2.length ≤ rest.length := by
  induction n generalizing rest with
  | zero => exact Nat.le_refl _
  | succ n ih =>
    rw [nextLines]
    exact Nat.le_trans (ih _) (by simp)

/-- Lines beyond the end are empty. -/
theorem nextLines_short (xs : List Str) (n : Nat) :
    nextLines (xs.length + n) (xs ++ [[]]) = (xs ++ List.replicate n [], if n = 0 then [[]] else []) := by
  induction xs with
  | nil =>
    rw [List.length_nil, Nat.zero_add, List.nil_append, List.nil_append]
    cases n with
    | zero => rfl
    | succ n =>
      rw [if_neg (by omega), nextLines, List.headD_cons, List.tail_cons]
      have : ∀ k, nextLines k [] = (List.replicate k [], []) := by
        intro k
        induction k with
        | zero => rfl
        | succ k ih => rw [nextLines, List.tail_nil, ih]; rfl
      rw [this]
      rfl
  | cons x xs ih =>
    rw [List.length_cons, show xs.length + 1 + n = xs.length + n + 1 by omega, nextLines, List.cons_append,
      List.headD_cons, List.tail_cons, ih]
    rfl

/-! ## Colours -/

theorem hexChar_ok : ∀ u : Bool, ∀ d < 16, isHex (hexChar u d) = true ∧ hexVal (hexChar u d) = d := by decide

theorem hexValue_six (u : Bool) {a b c d e f : Nat} (ha : a < 16) (hb : b < 16) (hc : c < 16) (hd : d < 16)
    (he : e < 16) (hf : f < 16) : hexValue [hexChar u a, hexChar u b, hexChar u c, hexChar u d, hexChar u e, hexChar u f] =
      ((((a * 16 + b) * 16 + c) * 16 + d) * 16 + e) * 16 + f := by
  simp only [hexValue, List.foldl_cons, List.foldl_nil, (hexChar_ok u a ha).2, (hexChar_ok u b hb).2,
    (hexChar_ok u c hc).2, (hexChar_ok u d hd).2, (hexChar_ok u e he).2, (hexChar_ok u f hf).2]
  omega

theorem strtoul16_colorText (u : Bool) {k : Nat} (hk : k < 16777216) : strtoul16 (colorText u k) = k := by
  have hm : ∀ n, n % 16 < 16 := fun n => Nat.mod_lt _ (by omega)
  have h1 : (colorText u k).dropWhile isSpace = colorText u k := by
    unfold colorText
    rw [List.dropWhile_cons_of_neg (by decide)]
  have h2 : sign (colorText u k) = (false, colorText u k) := by
    unfold sign colorText
    rw [if_neg (by simp), if_neg (by simp)]
  have h3 : ((colorText u k).drop 2).takeWhile isHex = (colorText u k).drop 2 := by
    have : ∀ c ∈ (colorText u k).drop 2, isHex c = true := by
     intro c hc
     unfold colorText at hc
     simp only [List.drop_succ_cons, List.drop_zero, List.mem_cons, List.not_mem_nil, or_false] at hc
     rcases hc with rfl | rfl | rfl | rfl | rfl | rfl <;> exact (hexChar_ok u _ (hm _)).1
    have h5 := List.takeWhile_append_of_pos (l₂ := []) this
    rw [List.append_nil, List.takeWhile_nil, List.append_nil] at h5
    exact h5
  unfold strtoul16
  simp only [h1, h2]
  have h5 : List.take 2 (colorText u k) = ['0', 'x'] := rfl
  rw [if_pos (Or.inl h5), h3]
  have h4 : hexValue ((colorText u k).drop 2) = k := by
    unfold colorText
    rw [List.drop_succ_cons, List.drop_succ_cons, List.drop_zero,
      hexValue_six u (hm _) (hm _) (hm _) (hm _) (hm _) (hm _)]
    omega
  rw [h4, if_neg (by omega), if_neg (by simp)]

theorem readColors_texts (u : Bool) : ∀ {cs : List Nat}, (∀ c ∈ cs, c < 16777216) →
    readColors (cs.map (colorText u)) = .done cs
  | [], _ => rfl
  | c :: cs, h => by
    have hc := h c List.mem_cons_self
    rw [List.map_cons, readColors, strtoul16_colorText u hc, if_pos (by omega),
      readColors_texts u fun c hc => h c (List.mem_cons_of_mem _ hc)]
    rfl

theorem readColors_append {xs ys : List Str} {cs ds : List Nat} (h1 : readColors xs = .done cs)
    (h2 : readColors ys = .done ds) : readColors (xs ++ ys) = .done (cs ++ ds) := by
  induction xs generalizing cs with
  | nil => rw [readColors] at h1; cases h1; exact h2
  | cons x xs ih =>
    rw [readColors] at h1
    split at h1
    · next hx =>
      cases hr : readColors xs with
      | fatal => rw [hr] at h1; cases h1
      | undefined => rw [hr] at h1; cases h1
      | done es =>
        rw [hr, Outcome.bind_done] at h1
        cases h1
        rw [List.cons_append, readColors, if_pos hx, ih hr]
        rfl
    · cases h1

theorem readColors_blank (n : Nat) : readColors (List.replicate n []) = .done (List.replicate n 0) := by
  induction n with
  | zero => rfl
  | succ n ih =>
    rw [List.replicate_succ, readColors, ih]
    rfl

theorem readColors_bound {xs : List Str} {cs : List Nat} (h : readColors xs = .done cs) :
    cs.length = xs.length ∧ ∀ c ∈ cs, c < 4294967296 := by
  induction xs generalizing cs with
  | nil => rw [readColors] at h; cases h; simp
  | cons x xs ih =>
    rw [readColors] at h
    split at h
    · next hx =>
      cases hr : readColors xs with
      | fatal => rw [hr] at h; cases h
      | undefined => rw [hr] at h; cases h
      | done es =>
        rw [hr, Outcome.bind_done] at h
        cases h
        obtain ⟨h1, h2⟩ := ih hr
        refine ⟨by rw [List.length_cons, List.length_cons, h1], fun c hc => ?_⟩
        rcases List.mem_cons.1 hc with rfl | hc
        · exact hx
        · exact h2 c hc
    · cases h

theorem readWeights_ok (conv : Str → D) : ∀ {ws : List Str}, (∀ w ∈ ws, w.all isSpace = false) →
    readWeights conv ws = .done (ws.map conv)
  | [], _ => rfl
  | w :: ws, h => by
    rw [readWeights, h w List.mem_cons_self, if_neg (by simp),
      readWeights_ok conv fun w hw => h w (List.mem_cons_of_mem _ hw)]
    rfl

/-! ## One part -/

/-- Effect of a part. -/
def apply (conv : Str → D) (c : Cfg D) : Item → Cfg D
  | .comment _ => c
  | .training f => { c with training := f }
  | .testing f => { c with testing := f }
  | .error k => { c with kitti := k || c.kitti }
  | .classes names => { c with classes := names.length, names := c.names ++ names }
  | .colors _ cs => { c with colors := c.colors ++ cs }
  | .weights ws => { c with weights := c.weights ++ ws.map conv }

theorem sw_false {line k : Str} (h : ¬ k <+: line) : startsWithIdentifier line k = false := by
  unfold startsWithIdentifier
  rw [Bool.eq_false_iff]
  exact fun h' => h (List.isPrefixOf_iff_prefix.1 h')

theorem setting_false {line k : Str} (h : startsWithIdentifier line k = false) : setting line k = some none := by
  unfold setting
  rw [h, if_neg (by simp)]

theorem step_comment (conv : Str → D) (s : Str) (rest : List Str) (c : Cfg D) (h : ∀ k ∈ keywords, ¬ k <+: s) :
    step conv s rest c = .done (rest, c) := by
  have h1 := sw_false (h "nommap".toList (by decide))
  have h2 := sw_false (h "classes".toList (by decide))
  have h3 := sw_false (h "colors".toList (by decide))
  have h4 := sw_false (h "weights".toList (by decide))
  have h5 := setting_false (sw_false (h "localized_error".toList (by decide)))
  have h6 := setting_false (sw_false (h "training".toList (by decide)))
  have h7 := setting_false (sw_false (h "testing".toList (by decide)))
  unfold step readClasses readColorSection readWeightSection readError readFiles
  simp only [h1, h2, h3, h4, h5, h6, h7, Bool.false_eq_true, if_false, Outcome.bind_done, Bool.or_false,
    Option.getD_none]

theorem step_training (conv : Str → D) (f : Str) (rest : List Str) (c : Cfg D) :
    step conv ("training=".toList ++ f) rest c = .done (rest, { c with training := f }) := by
  generalize hl : "training=".toList ++ f = line
  have h1 : startsWithIdentifier line "nommap".toList = false := by rw [← hl]; rfl
  have h2 : startsWithIdentifier line "classes".toList = false := by rw [← hl]; rfl
  have h3 : startsWithIdentifier line "colors".toList = false := by rw [← hl]; rfl
  have h4 : startsWithIdentifier line "weights".toList = false := by rw [← hl]; rfl
  have h5 : setting line "localized_error".toList = some none := by rw [← hl]; rfl
  have h6 : setting line "training".toList = some (some f) := by
    have h6 : startsWithIdentifier line "training".toList = true := by rw [← hl]; rfl
    unfold setting substr
    rw [h6, if_pos rfl, if_pos (by rw [← hl]; simp), ← hl]
    rfl
  have h7 : setting line "testing".toList = some none := by rw [← hl]; rfl
  unfold step readClasses readColorSection readWeightSection readError readFiles
  simp only [h1, h2, h3, h4, h5, h6, h7, Bool.false_eq_true, if_false, Outcome.bind_done, Bool.or_false, Option.getD_some,
    Option.getD_none]

theorem step_testing (conv : Str → D) (f : Str) (rest : List Str) (c : Cfg D) :
    step conv ("testing=".toList ++ f) rest c = .done (rest, { c with testing := f }) := by
  generalize hl : "testing=".toList ++ f = line
  have h1 : startsWithIdentifier line "nommap".toList = false := by rw [← hl]; rfl
  have h2 : startsWithIdentifier line "classes".toList = false := by rw [← hl]; rfl
  have h3 : startsWithIdentifier line "colors".toList = false := by rw [← hl]; rfl
  have h4 : startsWithIdentifier line "weights".toList = false := by rw [← hl]; rfl
  have h5 : setting line "localized_error".toList = some none := by rw [← hl]; rfl
  have h6 : setting line "testing".toList = some (some f) := by
    have h6 : startsWithIdentifier line "testing".toList = true := by rw [← hl]; rfl
    unfold setting substr
    rw [h6, if_pos rfl, if_pos (by rw [← hl]; simp), ← hl]
    rfl
  have h7 : setting line "training".toList = some none := by rw [← hl]; rfl
  unfold step readClasses readColorSection readWeightSection readError readFiles
  simp only [h1, h2, h3, h4, h5, h6, h7, Bool.false_eq_true, if_false, Outcome.bind_done, Bool.or_false, Option.getD_some,
    Option.getD_none]

theorem step_error (conv : Str → D) (k : Bool) (rest : List Str) (c : Cfg D) :
    step conv (if k then "localized_error=kitti".toList else "localized_error=default".toList) rest c =
      .done (rest, { c with kitti := k || c.kitti }) := by
  have key : ∀ line : Str, startsWithIdentifier line "nommap".toList = false →
      startsWithIdentifier line "classes".toList = false → startsWithIdentifier line "colors".toList = false →
      startsWithIdentifier line "weights".toList = false → setting line "training".toList = some none →
      setting line "testing".toList = some none →
      step conv line rest c = (readError line c).bind fun c => .done (rest, c) := by
    intro line h1 h2 h3 h4 h6 h7
    unfold step readClasses readColorSection readWeightSection readFiles
    simp only [h1, h2, h3, h4, h6, h7, Bool.false_eq_true, if_false, Outcome.bind_done, Bool.or_false,
      Option.getD_none]
  cases k with
  | true => exact key _ rfl rfl rfl rfl rfl rfl
  | false => exact key _ rfl rfl rfl rfl rfl rfl

theorem parseCount_classes (n : Nat) (hn : n < 2147483648) (old : Nat) :
    parseCount ("classes=".toList ++ Nat.toDigits 10 n) "classes".toList old = some n := by
  have hsp : ' ' ∉ Nat.toDigits 10 n := by
    intro h
    have : (' ').isDigit = true := digitsOf_isDigit (n := n) h
    exact absurd this (by decide)
  have := param_hit (identifier := "classes".toList) (value := Nat.toDigits 10 n) [] [] (by decide) hsp (by simp)
  have e : joinSp ([] ++ ("classes".toList ++ '=' :: Nat.toDigits 10 n) :: []) = "classes=".toList ++ Nat.toDigits 10 n := rfl
  rw [e] at this
  unfold parseCount
  rw [this, Option.bind_some]
  dsimp only
  have h2 := atoi_digits (ds := Nat.toDigits 10 n) (rest := []) (digitsOf_ne_nil n) (fun c hc => digitsOf_isDigit hc)
    (by intro c cs h; cases h)
  rw [List.append_nil, show digitsValue (Nat.toDigits 10 n) = n from digitsValue_digitsOf n, if_pos (by omega)] at h2
  rw [h2, Option.map_some]
  unfold toUInt
  congr 1
  omega

theorem step_classes (conv : Str → D) (names more : List Str) (c : Cfg D) (hn : names.length < 2147483648) :
    step conv ("classes=".toList ++ Nat.toDigits 10 names.length) (names ++ more) c =
      .done (more, { c with classes := names.length, names := c.names ++ names }) := by
  generalize hl : "classes=".toList ++ Nat.toDigits 10 names.length = line
  have hp : ∀ old, parseCount line "classes".toList old = some names.length := by
    intro old; rw [← hl]; exact parseCount_classes _ hn old
  have h0 : startsWithIdentifier line "nommap".toList = false := by rw [← hl]; rfl
  have h1 : startsWithIdentifier line "classes".toList = true := by rw [← hl]; rfl
  have h3 : startsWithIdentifier line "colors".toList = false := by rw [← hl]; rfl
  have h4 : startsWithIdentifier line "weights".toList = false := by rw [← hl]; rfl
  have h5 : setting line "localized_error".toList = some none := by rw [← hl]; rfl
  have h6 : setting line "training".toList = some none := by rw [← hl]; rfl
  have h7 : setting line "testing".toList = some none := by rw [← hl]; rfl
  unfold step readClasses readColorSection readWeightSection readError readFiles sectionLines
  simp only [h0, h1, h3, h4, h5, h6, h7, hp, if_pos hn, nextLines_append, Bool.false_eq_true, if_false, if_true,
    Outcome.bind_done, Outcome.ofOption_some, Bool.or_false, Option.getD_none]

/-- The section of the colours with the lines that are read for it. -/
theorem step_colors_lines (conv : Str → D) (rest lines more : List Str) (cs : List Nat) (c : Cfg D)
    (hn : c.classes < 2147483648) (h : nextLines c.classes rest = (lines, more)) (hr : readColors lines = .done cs) :
    step conv "colors".toList rest c = .done (more, { c with colors := c.colors ++ cs }) := by
  have h0 : startsWithIdentifier "colors".toList "nommap".toList = false := rfl
  have h1 : startsWithIdentifier "colors".toList "classes".toList = false := rfl
  have h3 : startsWithIdentifier "colors".toList "colors".toList = true := rfl
  have h4 : startsWithIdentifier "colors".toList "weights".toList = false := rfl
  have h5 : setting "colors".toList "localized_error".toList = some none := rfl
  have h6 : setting "colors".toList "training".toList = some none := rfl
  have h7 : setting "colors".toList "testing".toList = some none := rfl
  unfold step readClasses readColorSection readWeightSection readError readFiles sectionLines
  simp only [h0, h1, h3, h4, h5, h6, h7, if_pos hn, h, hr, Bool.false_eq_true, if_false, if_true,
    Outcome.bind_done, Bool.or_false, Option.getD_none]

theorem step_weights (conv : Str → D) (ws more : List Str) (c : Cfg D) (hn : c.classes < 2147483648)
    (hl : ws.length = c.classes) (hw : ∀ w ∈ ws, w.all isSpace = false) :
    step conv "weights".toList (ws ++ more) c = .done (more, { c with weights := c.weights ++ ws.map conv }) := by
  have h0 : startsWithIdentifier "weights".toList "nommap".toList = false := rfl
  have h1 : startsWithIdentifier "weights".toList "classes".toList = false := rfl
  have h3 : startsWithIdentifier "weights".toList "colors".toList = false := rfl
  have h4 : startsWithIdentifier "weights".toList "weights".toList = true := rfl
  have h5 : setting "weights".toList "localized_error".toList = some none := rfl
  have h6 : setting "weights".toList "training".toList = some none := rfl
  have h7 : setting "weights".toList "testing".toList = some none := rfl
  have hnl : nextLines c.classes (ws ++ more) = (ws, more) := by rw [← hl]; exact nextLines_append ws more
  unfold step readClasses readColorSection readWeightSection readError readFiles sectionLines
  simp only [h0, h1, h3, h4, h5, h6, h7, if_pos hn, hnl, readWeights_ok conv hw, Bool.false_eq_true, if_false, if_true,
    Outcome.bind_done, Bool.or_false, Option.getD_none]

/-! ## The whole file -/

/-- The sections of colours and weights have one line per class known so far. -/
def Fits : Nat → List Item → Prop
  | _, [] => True
  | _, .classes names :: r => Fits names.length r
  | n, .colors _ cs :: r => cs.length = n ∧ Fits n r
  | n, .weights ws :: r => ws.length = n ∧ Fits n r
  | n, _ :: r => Fits n r

theorem weight_not_blank {w : Str}
    (h : ∃ c ∈ w, c ≠ ' ' ∧ c ≠ '\t' ∧ c ≠ '\r' ∧ c ≠ '\x0b' ∧ c ≠ '\x0c') (hn : '\n' ∉ w) : w.all isSpace = false := by
  obtain ⟨c, hc, h1, h2, h3, h4, h5⟩ := h
  rw [Bool.eq_false_iff]
  intro hall
  have := List.all_eq_true.1 hall c hc
  unfold isSpace at this
  have h6 : c ≠ '\n' := fun e => hn (e ▸ hc)
  simp [h1, h2, h3, h4, h5, h6] at this

theorem readLoop_items (conv : Str → D) : ∀ (items : List Item) (tail : List Str) (n : Nat) (c : Cfg D),
    (∀ i ∈ items, i.Ok) → Fits c.classes items → c.classes < 2147483648 →
    (items.flatMap Item.lines).length ≤ n →
    ∃ m, readLoop conv n (items.flatMap Item.lines ++ tail) c = readLoop conv m tail (items.foldl (apply conv) c) ∧
      n ≤ m + (items.flatMap Item.lines).length := by
  intro items
  induction items with
  | nil => intro tail n c _ _ _ _; exact ⟨n, rfl, by simp⟩
  | cons item items ih =>
    intro tail n c hok hfit hcl hlen
    rw [List.flatMap_cons, List.length_append] at hlen
    have hok' := fun i hi => hok i (List.mem_cons_of_mem _ hi)
    have hitem := hok item List.mem_cons_self
    have key : ∀ (line : Str) (more : List Str), item.lines = line :: more →
        step conv line (more ++ (items.flatMap Item.lines ++ tail)) c =
          .done (items.flatMap Item.lines ++ tail, apply conv c item) →
        Fits (apply conv c item).classes items → (apply conv c item).classes < 2147483648 →
        ∃ m, readLoop conv n ((item :: items).flatMap Item.lines ++ tail) c =
          readLoop conv m tail ((item :: items).foldl (apply conv) c) ∧
          n ≤ m + ((item :: items).flatMap Item.lines).length := by
      intro line more hl hstep hf hc'
      rw [hl, List.length_cons] at hlen
      obtain ⟨n', rfl⟩ : ∃ n', n = n' + 1 := ⟨n - 1, by omega⟩
      obtain ⟨m, hm, hle⟩ := ih tail n' (apply conv c item) hok' hf hc' (by omega)
      refine ⟨m, ?_, ?_⟩
      · rw [List.flatMap_cons, hl, List.cons_append, List.cons_append, List.append_assoc, readLoop, hstep,
          Outcome.bind_done, hm]
        rfl
      · rw [List.flatMap_cons, hl, List.length_append, List.length_cons]
        omega
    cases item with
    | comment s => exact key s [] rfl (step_comment conv s _ c hitem.2) hfit hcl
    | training f => exact key _ [] rfl (step_training conv f _ c) hfit hcl
    | testing f => exact key _ [] rfl (step_testing conv f _ c) hfit hcl
    | error k => exact key _ [] rfl (step_error conv k _ c) hfit hcl
    | classes names => exact key _ names rfl (step_classes conv names _ c hitem.1) hfit hitem.1
    | colors u cs =>
      refine key _ (cs.map (colorText u)) rfl ?_ hfit.2 hcl
      refine step_colors_lines conv _ (cs.map (colorText u)) _ cs c hcl ?_ (readColors_texts u hitem)
      have := nextLines_append (cs.map (colorText u)) (items.flatMap Item.lines ++ tail)
      rw [List.length_map, hfit.1] at this
      exact this
    | weights ws =>
      exact key _ ws rfl (step_weights conv ws _ c hcl hfit.1 fun w hw => weight_not_blank (hitem w hw).2 (hitem w hw).1)
        hfit.2 hcl

theorem linesOk {items : List Item} (h : ∀ i ∈ items, i.Ok) : ∀ l ∈ items.flatMap Item.lines, '\n' ∉ l := by
  intro l hl
  rw [List.mem_flatMap] at hl
  obtain ⟨i, hi, hl⟩ := hl
  have hi := h i hi
  cases i with
  | comment s => rw [Item.lines, List.mem_singleton] at hl; rw [hl]; exact hi.1
  | training f =>
    rw [Item.lines, List.mem_singleton] at hl
    rw [hl, List.mem_append]
    exact not_or.2 ⟨by decide, hi⟩
  | testing f =>
    rw [Item.lines, List.mem_singleton] at hl
    rw [hl, List.mem_append]
    exact not_or.2 ⟨by decide, hi⟩
  | error k => rw [Item.lines, List.mem_singleton] at hl; rw [hl]; cases k <;> decide
  | classes names =>
    rw [Item.lines, List.mem_cons] at hl
    rcases hl with rfl | hl
    · rw [List.mem_append]
      refine not_or.2 ⟨by decide, fun h' => ?_⟩
      have : ('\n').isDigit = true := digitsOf_isDigit (n := names.length) h'
      exact absurd this (by decide)
    · exact hi.2 l hl
  | colors u cs =>
    rw [Item.lines, List.mem_cons] at hl
    rcases hl with rfl | hl
    · decide
    · obtain ⟨k, -, rfl⟩ := List.mem_map.1 hl
      have hne : ∀ u : Bool, ∀ d < 16, hexChar u d ≠ '\n' := by decide
      have hm : ∀ n, n % 16 < 16 := fun n => Nat.mod_lt _ (by omega)
      unfold colorText
      simp only [List.mem_cons, List.not_mem_nil, or_false, not_or]
      exact ⟨by decide, by decide, (hne u _ (hm _)).symm, (hne u _ (hm _)).symm, (hne u _ (hm _)).symm,
        (hne u _ (hm _)).symm, (hne u _ (hm _)).symm, (hne u _ (hm _)).symm⟩
  | weights ws =>
    rw [Item.lines, List.mem_cons] at hl
    rcases hl with rfl | hl
    · decide
    · exact (hi l hl).1

theorem fold_fields (conv : Str → D) (items : List Item) (c : Cfg D) :
    (items.foldl (apply conv) c).names = c.names ++ (items.filterMap Item.names?).flatten ∧
    (items.foldl (apply conv) c).colors = c.colors ++ (items.filterMap Item.colors?).flatten ∧
    (items.foldl (apply conv) c).weights = c.weights ++ (items.filterMap Item.weights?).flatten.map conv ∧
    (items.foldl (apply conv) c).classes = ((items.filterMap Item.names?).getLast?.map List.length).getD c.classes ∧
    (items.foldl (apply conv) c).training = (items.filterMap Item.training?).getLast?.getD c.training ∧
    (items.foldl (apply conv) c).testing = (items.filterMap Item.testing?).getLast?.getD c.testing ∧
    (items.foldl (apply conv) c).kitti = (c.kitti || (items.filterMap Item.error?).any id) ∧
    (items.foldl (apply conv) c).noMmap = c.noMmap := by
  induction items generalizing c with
  | nil => simp
  | cons i items ih =>
    obtain ⟨h1, h2, h3, h4, h5, h6, h7, h8⟩ := ih (apply conv c i)
    rw [List.foldl_cons, h1, h2, h3, h4, h5, h6, h7, h8]
    cases i with
    | comment s => exact ⟨rfl, rfl, rfl, rfl, rfl, rfl, rfl, rfl⟩
    | training f =>
      refine ⟨rfl, rfl, rfl, rfl, ?_, rfl, rfl, rfl⟩
      show _ = (f :: items.filterMap Item.training?).getLast?.getD _
      rw [List.getLast?_cons]; rfl
    | testing f =>
      refine ⟨rfl, rfl, rfl, rfl, rfl, ?_, rfl, rfl⟩
      show _ = (f :: items.filterMap Item.testing?).getLast?.getD _
      rw [List.getLast?_cons]; rfl
    | error k =>
      refine ⟨rfl, rfl, rfl, rfl, rfl, rfl, ?_, rfl⟩
      show (k || c.kitti || _) = (c.kitti || (k || _))
      rw [Bool.or_comm k, Bool.or_assoc]
    | classes names =>
      refine ⟨?_, rfl, rfl, ?_, rfl, rfl, rfl, rfl⟩
      · show c.names ++ names ++ _ = c.names ++ (names :: items.filterMap Item.names?).flatten
        rw [List.flatten_cons, List.append_assoc]
      · show _ = ((names :: items.filterMap Item.names?).getLast?.map List.length).getD _
        rw [List.getLast?_cons]
        cases (List.filterMap Item.names? items).getLast? <;> rfl
    | colors u cs =>
      refine ⟨rfl, ?_, rfl, rfl, rfl, rfl, rfl, rfl⟩
      show c.colors ++ cs ++ _ = c.colors ++ (cs :: items.filterMap Item.colors?).flatten
      rw [List.flatten_cons, List.append_assoc]
    | weights ws =>
      refine ⟨rfl, rfl, ?_, rfl, rfl, rfl, rfl, rfl⟩
      show c.weights ++ ws.map conv ++ _ = c.weights ++ (ws :: items.filterMap Item.weights?).flatten.map conv
      rw [List.flatten_cons, List.map_append, List.append_assoc]

theorem step_blank (conv : Str → D) (c : Cfg D) : step conv [] [] c = .done ([], c) :=
  step_comment conv [] [] c (by decide)

theorem readLoop_blank (conv : Str → D) (m : Nat) (c : Cfg D) : readLoop conv m [[]] c = .done c := by
  cases m with
  | zero => rfl
  | succ m =>
    rw [readLoop, step_blank, Outcome.bind_done]
    cases m <;> rfl

end CN24.DatasetConfig
