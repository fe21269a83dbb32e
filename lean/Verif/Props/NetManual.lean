import Verif.Props.Config
import Verif.Props.NetConfig

/-
C56, the line `manual`: the receptive field set by hand.
-/

namespace CN24.Props
open CN24 CN24.Config CN24.Net CN24.NetConfig

section
variable {D : Type _}

/-- The line the constructor recommends in its log for a receptive field and a step. -/
def manualText (rx ry fx fy : Nat) : Str :=
  joinSp ("manual".toList :: [("rfx".toList, digitsOf rx), ("rfy".toList, digitsOf ry),
    ("factorx".toList, digitsOf fx), ("factory".toList, digitsOf fy)].map pairText)

theorem digits_no_eq (n : Nat) : '=' ∉ digitsOf n := fun hm => by
  have := digitsOf_isDigit hm; revert this; decide

theorem name_no_eq (k : Str) (h : k ∈ ["rfx".toList, "rfy".toList, "factorx".toList, "factory".toList]) :
    '=' ∉ k := by
  revert k; decide +kernel

theorem manual_params {rx ry fx fy : Nat} (h1 : rx ≤ 2147483647) (h2 : ry ≤ 2147483647)
    (h3 : fx ≤ 2147483647) (h4 : fy ≤ 2147483647) :
    parseCount (manualText rx ry fx fy) "rfx".toList 0 = some rx ∧
    parseCount (manualText rx ry fx fy) "rfy".toList 0 = some ry ∧
    parseCount (manualText rx ry fx fy) "factorx".toList 0 = some fx ∧
    parseCount (manualText rx ry fx fy) "factory".toList 0 = some fy := by
  have key : ∀ k ∈ ["rfx".toList, "rfy".toList, "factorx".toList, "factory".toList],
      ' ' ∉ k ∧ ∀ w ∈ ["manual".toList], ¬ (k ++ ['=']) <:+: w := by decide +kernel
  refine ⟨?_, ?_, ?_, ?_⟩
  · exact C18_count_partial ["manual".toList] [] _ _ _ _ (key _ (by simp)).1 (key _ (by simp)).2 (by simp) h1
  · refine C18_count_partial ["manual".toList] [("rfx".toList, digitsOf rx)] _ _ _ _ (key _ (by simp)).1
      (key _ (by simp)).2 ?_ h2
    intro p hp
    rw [List.mem_singleton] at hp; subst hp
    exact ⟨name_no_eq _ (by simp), digits_no_eq _, (by simp only []; clear key h1 h2 h3 h4; decide +kernel +revert)⟩
  · refine C18_count_partial ["manual".toList] [("rfx".toList, digitsOf rx), ("rfy".toList, digitsOf ry)] _ _ _ _
      (key _ (by simp)).1 (key _ (by simp)).2 ?_ h3
    intro p hp
    simp only [List.mem_cons, List.not_mem_nil, or_false] at hp
    rcases hp with rfl | rfl <;> exact ⟨name_no_eq _ (by simp), digits_no_eq _, (by simp only []; clear key h1 h2 h3 h4; decide +kernel +revert)⟩
  · refine C18_count_partial ["manual".toList] [("rfx".toList, digitsOf rx), ("rfy".toList, digitsOf ry),
      ("factorx".toList, digitsOf fx)] [] _ _ _ (key _ (by simp)).1 (key _ (by simp)).2 ?_ h4
    intro p hp
    simp only [List.mem_cons, List.not_mem_nil, or_false] at hp
    rcases hp with rfl | rfl | rfl <;> exact ⟨name_no_eq _ (by simp), digits_no_eq _, (by simp only []; clear key h1 h2 h3 h4; decide +kernel +revert)⟩

/-- The letters of the line. -/
theorem manual_letters {rx ry fx fy : Nat} {c : Char} (h : c ∈ manualText rx ry fx fy) :
    c ∈ " manulrfxycto=".toList ∨ c.isDigit = true := by
  rcases mem_joinSp h with h | ⟨w, hw, hc⟩
  · exact Or.inl (by subst h; decide +kernel)
  · have dig : ∀ n, c ∈ digitsOf n → c.isDigit = true := fun n hn => digitsOf_isDigit hn
    simp only [List.map_cons, List.map_nil, List.mem_cons, List.not_mem_nil, or_false] at hw
    rcases hw with rfl | rfl | rfl | rfl | rfl
    · left; clear h dig; revert c; decide +kernel +revert
    all_goals
      clear h
      unfold pairText at hc
      rw [List.mem_append, List.mem_cons] at hc
      rcases hc with hc | hc | hc
      · left; clear dig; simp only [] at hc; revert c; decide +kernel
      · left; subst hc; decide +kernel
      · exact Or.inr (dig _ hc)

theorem manual_no_infix {rx ry fx fy : Nat} {pat : Str} {c : Char} (hc : c ∈ pat)
    (h1 : c ∉ " manulrfxycto=".toList) (h2 : c.isDigit = false) :
    ¬ pat <:+: manualText rx ry fx fy := fun h => by
  rcases manual_letters (h.subset hc) with h | h
  · exact h1 h
  · rw [h2] at h; exact Bool.false_ne_true h

theorem measureLine_manual {rx ry fx fy : Nat} (h1 : rx ≤ 2147483647) (h2 : ry ≤ 2147483647)
    (h3 : fx ≤ 2147483647) (h4 : fy ≤ 2147483647) (training : Bool) (f : Fields) :
    measureLine training (manualText rx ry fx fy) f =
      if 0 < rx ∧ 0 < ry then .done ⟨f.method, rx, ry, fx, fy, true⟩ else .done f := by
  have hfirst : ∃ t, manualText rx ry fx fy = "manual".toList ++ t := ⟨_, joinSp_cons _ _⟩
  obtain ⟨p1, p2, p3, p4⟩ := manual_params h1 h2 h3 h4
  have hm : find ("method".toList ++ ['=']) (manualText rx ry fx fy) = none :=
    find_none_of_not_infix (by simp) (manual_no_infix (c := 'e') (by decide +kernel) (by decide +kernel) rfl)
  generalize manualText rx ry fx fy = line at *
  obtain ⟨t, rfl⟩ := hfirst
  unfold measureLine
  rw [if_neg (by simp [startsWithIdentifier])]
  unfold readMethod
  rw [absent_param hm, Outcome.ofOption_some, Outcome.bind_done, if_neg (by simp [startsWithIdentifier]),
    Outcome.bind_done]
  unfold manual
  rw [if_pos (by simp [startsWithIdentifier]), p1, p2, p3, p4]
  simp only [Outcome.ofOption_some, Outcome.bind_done]
  rw [wrap_of (by omega) (by omega), wrap_of (by omega) (by omega), wrap_of (by omega) (by omega),
    wrap_of (by omega) (by omega)]
  split <;> rfl

/-- Once the size is set by hand a line of a description changes the method at most. -/
theorem measureLine_ignored {i : Item} (hok : i.Ok) (training : Bool) (f : Fields) (hf : f.ignore = true) :
    measureLine training i.text f = .done { f with method := i.method training f.method } := by
  have hlayer : ∀ {name : Str} {ps : List (Str × Str)}, NetConfig.Params ps →
      name ∈ ["convolutional".toList, "fullyconnected".toList, "maxpooling".toList,
        "downsampling".toList, "amaxpooling".toList, "sigm".toList, "relu".toList, "tanh".toList] →
      measureLine training (layerText name ps) f = .done f := by
    intro name ps hp hn
    unfold measureLine
    rw [if_neg (by unfold layerText startsWithIdentifier; simp)]
    have hm : readMethod training (layerText name ps) f = .done f := by
      unfold readMethod
      rw [absent_param (param_nil hp (by simp) hn).2]
      simp [startsWithIdentifier]
    have hM : manual (layerText name ps) f = .done f := by
      unfold manual
      rw [if_neg (by unfold layerText startsWithIdentifier; simp)]
    rw [hm, Outcome.bind_done, hM, Outcome.bind_done]
    unfold growField layerText
    simp only [hf, if_true]
  cases i with
  | comment t =>
    change measureLine training ('#' :: t) _ = _
    rw [measureLine_comment]
    simp [Item.method]
  | other t =>
    obtain ⟨h1, h2, h3⟩ := hok.1 t rfl
    change measureLine training t _ = _
    unfold measureLine
    split
    · simp [Item.method]
    · have hm : find ("method".toList ++ ['=']) t = none :=
        find_none_of_not_infix (by simp) (h3 _ (by simp))
      unfold readMethod
      rw [absent_param hm, Outcome.ofOption_some, Outcome.bind_done]
      rw [if_neg (by simp [startsWithIdentifier]), Outcome.bind_done]
      unfold manual
      rw [if_neg (by
        have := h2 "manual".toList (by simp)
        simpa [startsWithIdentifier] using this), Outcome.bind_done]
      unfold growField
      split
      · exact absurd ⟨_, rfl⟩ h1
      · simp [Item.method]
  | patches =>
    change measureLine training "method=patch".toList _ = _
    rw [measureLine_patches]
    cases training <;> simp [Item.method]
  | conv n k s p =>
    refine (hlayer (convPairs_params n k s p) (by simp)).trans ?_
    simp [Item.method]
  | full n =>
    refine (hlayer (full_params n) (by simp)).trans ?_
    simp [Item.method]
  | maxPool k =>
    refine (hlayer (poolPairs_params k none) (name := "maxpooling".toList) (by simp)).trans ?_
    simp [Item.method]
  | down k =>
    refine (hlayer (poolPairs_params k none) (name := "downsampling".toList) (by simp)).trans ?_
    simp [Item.method]
  | stridedPool k s =>
    refine (hlayer (poolPairs_params k s) (name := "amaxpooling".toList) (by simp)).trans ?_
    simp [Item.method]
  | act a =>
    refine (hlayer no_params (name := a.name) (by cases a <;> simp [Act.name])).trans ?_
    simp [Item.method]

theorem methodOf_cons (training : Bool) (i : Item) (is : List Item) (m : Method) :
    methodOf training is (i.method training m) = methodOf training (i :: is) m := by
  unfold methodOf Item.method
  by_cases h1 : training = true <;> by_cases h2 : i = Item.patches <;>
    by_cases h3 : Item.patches ∈ is <;> simp [h1, h2, h3, eq_comm]

theorem methodOf_append (training : Bool) (is js : List Item) (m : Method) :
    methodOf training js (methodOf training is m) = methodOf training (is ++ js) m := by
  unfold methodOf
  by_cases h1 : training = true <;> by_cases h2 : Item.patches ∈ is <;>
    by_cases h3 : Item.patches ∈ js <;> simp [h1, h2, h3]

theorem measure_ignored (training : Bool) : ∀ (items : List Item), (∀ i ∈ items, i.Ok) →
    ∀ f : Fields, f.ignore = true →
    NetConfig.measure training (items.map Item.text ++ ["?output".toList]) f =
      .done { f with method := methodOf training items f.method }
  | [], _, f, hf => by
    have hp : param "?output".toList "method".toList = some none := by decide +kernel
    have hg : growField "?output".toList f = .done f := by
      change (if f.ignore = true then Outcome.done f else (readEffect "output".toList).bind (applyEffect f)) = _
      rw [if_pos hf]
    show NetConfig.measure training ["?output".toList] f = _
    unfold NetConfig.measure measureLine readMethod manual
    rw [if_neg (by decide +kernel), hp, Outcome.ofOption_some, Outcome.bind_done,
      if_neg (by simp [startsWithIdentifier]), Outcome.bind_done, if_neg (by decide +kernel),
      Outcome.bind_done, hg]
    simp [methodOf, NetConfig.measure]
  | i :: is, hok, f, hf => by
    rw [List.map_cons, List.cons_append, NetConfig.measure, measureLine_ignored (hok i (by simp)) _ _ hf,
      Outcome.bind_done]
    refine (measure_ignored training is (fun j hj => hok j (List.mem_cons_of_mem _ hj))
      { f with method := i.method training f.method } hf).trans ?_
    rw [methodOf_cons]

theorem measure_append (training : Bool) : ∀ (ls ms : List Str) (f : Fields),
    NetConfig.measure training (ls ++ ms) f = (NetConfig.measure training ls f).bind (NetConfig.measure training ms)
  | [], _, _ => rfl
  | l :: ls, ms, f => by
    rw [List.cons_append, NetConfig.measure, NetConfig.measure]
    cases measureLine training l f with
    | done g => simp only [Outcome.bind_done]; exact measure_append training ls ms g
    | fatal => rfl
    | undefined => rfl

/-- C56, size by hand: wherever the line is, the receptive field and the step are what it says, whatever
the layers say, and the method is the one the description asks for. -/
theorem C56_manual (training : Bool) (before after : List Item) (rx ry fx fy : Nat)
    (hb : ∀ i ∈ before, i.Ok) (ha : ∀ i ∈ after, i.Ok)
    (hx : field (geoX before) + total (geoX before) ≤ 2147483647)
    (hy : field (geoY before) + total (geoY before) ≤ 2147483647)
    (h1 : 0 < rx) (h2 : 0 < ry) (h3 : rx + fx ≤ 2147483647) (h4 : ry + fy ≤ 2147483647) :
    construct (before.map Item.text ++ manualText rx ry fx fy :: after.map Item.text ++ ["?output".toList])
        training =
      let m := methodOf training (before ++ after) .fcn
      .done ⟨m, ((if m = .patch then rx + fx else rx : Nat) : Int),
        ((if m = .patch then ry + fy else ry : Nat) : Int), fx, fy, true⟩ := by
  unfold construct
  have h := measure_items training (manualText rx ry fx fy :: after.map Item.text ++ ["?output".toList])
    before hb (m := .fcn) (R := 0) (R' := 0) (F := 1) (F' := 1) (by omega) (by omega) (by omega) (by omega)
  rw [List.append_assoc, show ({} : Fields) =
    ⟨.fcn, ((0 : Nat) : Int), ((0 : Nat) : Int), ((1 : Nat) : Int), ((1 : Nat) : Int), false⟩ from rfl, h,
    List.cons_append, NetConfig.measure, measureLine_manual (by omega) (by omega) (by omega) (by omega),
    if_pos ⟨h1, h2⟩, Outcome.bind_done, measure_ignored training after ha _ rfl, Outcome.bind_done,
    methodOf_append]
  cases methodOf training (before ++ after) .fcn with
  | fcn => rfl
  | patch =>
    simp only [if_true]
    rw [← Int.natCast_add, ← Int.natCast_add, int_of (by omega) (by omega), Outcome.bind_done,
      int_of (by omega) (by omega), Outcome.bind_done]

/-- C56, the hint in the log: starting a description with the line the constructor recommends changes
nothing but the flag that the layers are not measured, which nothing reads later. -/
theorem C56_manual_hint (training : Bool) (items : List Item) (hok : ∀ i ∈ items, i.Ok)
    (hx : field (geoX items) + total (geoX items) ≤ 2147483647)
    (hy : field (geoY items) + total (geoY items) ≤ 2147483647)
    (h1 : 0 < field (geoX items)) (h2 : 0 < field (geoY items)) :
    ∃ f, construct (items.map Item.text ++ ["?output".toList]) training = .done f ∧
      construct (manualText (field (geoX items)) (field (geoY items)) (total (geoX items))
        (total (geoY items)) :: (items.map Item.text ++ ["?output".toList])) training =
        .done { f with ignore := true } := by
  refine ⟨_, construct_items training items hok hx hy, ?_⟩
  have := C56_manual training [] items _ _ _ _ (by simp) hok (by simp [geoX, field, total])
    (by simp [geoY, field, total]) h1 h2 hx hy
  rw [List.map_nil, List.nil_append, List.nil_append] at this
  exact this

/-- C56, a size of zero: the line is then ignored and the layers are measured. -/
theorem C56_manual_zero (training : Bool) (lines : List Str) (rx ry fx fy : Nat) (h : rx = 0 ∨ ry = 0)
    (h1 : rx ≤ 2147483647) (h2 : ry ≤ 2147483647) (h3 : fx ≤ 2147483647) (h4 : fy ≤ 2147483647)
    (before : List Str) :
    construct (before ++ manualText rx ry fx fy :: lines) training = construct (before ++ lines) training := by
  unfold construct
  rw [measure_append, measure_append]
  congr 2
  funext f
  rw [NetConfig.measure, measureLine_manual h1 h2 h3 h4, if_neg (by omega), Outcome.bind_done]

/-- C56, size by hand: the line adds no layer, and the layers do not depend on how the size was found. -/
theorem C56_manual_adds_nothing (conv : Str → D) (zero one : D) (f : Fields) (data : Conn) (classes : Nat)
    (loss : Bool) (rx ry fx fy : Nat) (lines : List Str) (st : State D) :
    addLines conv zero one f data classes loss (manualText rx ry fx fy :: lines) st =
      addLines conv zero one { f with ignore := false } data classes loss lines st := by
  rw [addLines, addLine_plain conv zero one f data classes loss st, Outcome.bind_done]
  · clear rx ry fx fy
    induction lines generalizing st with
    | nil => rfl
    | cons l ls ih =>
      rw [addLines, addLines]
      have : addLine conv zero one f data classes loss l st =
        addLine conv zero one { f with ignore := false } data classes loss l st := rfl
      rw [this]
      cases addLine conv zero one { f with ignore := false } data classes loss l st with
      | done st => simp only [Outcome.bind_done]; exact ih st
      | fatal => rfl
      | undefined => rfl
  · exact fun h => manual_no_infix (c := '?') (by decide +kernel) (by decide +kernel) rfl h.isInfix
  · intro s hs h
    have : manualText rx ry fx fy = 'm' :: ("anual".toList ++ _) := joinSp_cons _ _
    rw [this] at h
    simp only [List.mem_cons, List.not_mem_nil, or_false] at hs
    rcases hs with rfl | rfl | rfl | rfl <;> exact absurd (List.cons_prefix_cons.1 h).1 (by decide)
  · intro s hs
    simp only [List.mem_cons, List.not_mem_nil, or_false] at hs
    rcases hs with rfl | rfl
    · exact manual_no_infix (c := 'e') (by decide +kernel) (by decide +kernel) rfl
    · exact manual_no_infix (c := '(') (by decide +kernel) (by decide +kernel) rfl

/-- C56, one size zero is not half a size: nothing of the line is used. -/
example : construct ["manual rfx=10 rfy=0 factorx=2 factory=2".toList, "?convolutional kernels=2 size=3x3".toList,
    "?output".toList] true = construct ["?convolutional kernels=2 size=3x3".toList, "?output".toList] true := by
  decide +kernel

/-- Training with patches and a size by hand between two layers. -/
example : construct ["method=patch".toList, "?convolutional kernels=2 size=3x3".toList,
    "manual rfx=10 rfy=12 factorx=2 factory=4".toList, "?maxpooling size=2x2".toList, "?output".toList] true =
    .done ⟨.patch, 12, 16, 2, 4, true⟩ := by decide +kernel

example : manualText 10 12 2 4 = "manual rfx=10 rfy=12 factorx=2 factory=4".toList := by decide +kernel

example : ∃ f, construct (exampleItems.map Item.text ++ ["?output".toList]) true = .done f ∧
    construct (manualText (field (geoX exampleItems)) (field (geoY exampleItems)) (total (geoX exampleItems))
      (total (geoY exampleItems)) :: (exampleItems.map Item.text ++ ["?output".toList])) true =
      .done { f with ignore := true } :=
  C56_manual_hint true exampleItems exampleItems_ok (by decide +kernel) (by decide +kernel) (by decide +kernel)
    (by decide +kernel)

end

end CN24.Props
