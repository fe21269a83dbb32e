import Verif.Proof.MatrixReport
import Verif.Props.StatLayers
import Mathlib.Data.Rat.Floor

/-
Property theorems about the printed confusion matrix: C96.
-/

namespace CN24.MatrixReport
open CN24 CN24.Config CN24.ConfusionMatrix CN24.Props

section
variable {R : Type _} [Field R] [LinearOrder R]

/-- Intersection over union of a class: the weight of the pixels with this class predicted and labelled as a part of that of the
pixels with it predicted or labelled. -/
def overlap (obs : List (Obs R)) (t : Nat) : R :=
  if 0 < eitherWeight obs t then entry obs t t / eitherWeight obs t else 0

/-- A name from a file: no line feed and no blank in front. -/
def NameOk (s : Str) : Prop := '\n' ∉ s ∧ s.head? ≠ some ' '

/-- The text of a percentage: one word without a percent sign. -/
def NumOk (num : R → Str) : Prop := ∀ v, '\n' ∉ num v ∧ '%' ∉ num v ∧ (num v).head? ≠ some ' '

/-- What the report should tell about the pixels `obs`. -/
def expected [FloorRing R] (num : R → Str) (name : Nat → Str) (n : Nat) (obs : List (Obs R)) : ReadReport.Report :=
  { actual := (List.range n).map name
    rows := (List.range n).map fun i => (name i, (List.range n).map fun j => some ⌊entry obs i j⌋₊)
    recognition := ((List.range n).filter fun c => decide (0 < labelled obs c)).map fun c =>
      (name c, num (entry obs c c / labelled obs c * 100))
    intersection := (List.range n).map fun t => (name t, num (overlap obs t * 100))
    average := num (100 * (∑ t ∈ Finset.range n, overlap obs t) / (n : R)) }

end

theorem shorten_length (s : Str) : (shorten s).length ≤ 11 := by
  unfold shorten
  split
  · simp
  · omega

theorem shorten_ok {s : Str} (h : NameOk s) : NameOk (shorten s) := by
  unfold shorten
  split
  · rename_i hl
    cases s with
    | nil => simp at hl
    | cons c s =>
      refine ⟨?_, ?_⟩
      · intro hm
        rw [List.mem_append] at hm
        rcases hm with hm | hm
        · exact h.1 (List.mem_of_mem_take hm)
        · revert hm; decide
      · simpa using h.2
  · exact h

theorem shorten_fits {s : Str} (h : NameOk s) : Fits (shorten s) :=
  ⟨by have := shorten_length s; omega, (shorten_ok h).2⟩

theorem setw_clean {s : Str} (h : '\n' ∉ s) : '\n' ∉ setw s := by
  unfold setw
  intro hm
  rw [List.mem_append] at hm
  rcases hm with hm | hm
  · exact absurd (List.eq_of_mem_replicate hm) (by decide)
  · exact h hm

theorem flatMap_filter {ω β : Type _} (p : ω → Bool) (f : ω → List β) (l : List ω) :
    l.flatMap (fun c => if p c then f c else []) = (l.filter p).flatMap f := by
  induction l with
  | nil => rfl
  | cons a l ih =>
    rw [List.flatMap_cons, ih]
    cases h : p a <;> simp [h]

section
variable {R : Type _} [Field R] [LinearOrder R] [IsStrictOrderedRing R] [FloorRing R]

omit [IsStrictOrderedRing R] [FloorRing R] in
theorem union_loop (n : Nat) (obs : List (Obs R)) {m : List R} {t : Nat} (ht : t < n)
    (hm : ∀ a b, a < n → b < n → m[a * n + b]? = some (entry obs a b)) :
    ∃ u, forLoop n (fun c unionn =>
      if c ≠ t then
        (rd m (t * n + c)).bind fun a =>
        (rd m (c * n + t)).map fun b => unionn + a + b
      else some unionn) 0 = some u ∧ u + entry obs t t = ConfusionMatrix.union n obs t := by
  have hm' : ∀ a b, a < n → b < n → rd m (a * n + b) = some (entry obs a b) := hm
  obtain ⟨u, e', hu⟩ := forLoop_inv (n := n) (s := (0 : R)) (f := fun c unionn =>
      if c ≠ t then
        (rd m (t * n + c)).bind fun a =>
        (rd m (c * n + t)).map fun b => unionn + a + b
      else some unionn)
      (fun k s => s = ∑ c ∈ (Finset.range k).erase t, (entry obs t c + entry obs c t)) (by simp) (by
      intro c s hc hs
      by_cases h : c = t
      · subst h
        rw [if_neg (by simp)]
        refine ⟨_, rfl, ?_⟩
        rw [hs, Finset.range_add_one, Finset.erase_insert (by simp)]
        rw [Finset.erase_eq_of_notMem (by simp)]
      · rw [if_pos h, hm' t c ht hc, hm' c t hc ht]
        refine ⟨_, rfl, ?_⟩
        rw [hs, Finset.range_add_one, Finset.erase_insert_of_ne h, Finset.sum_insert (by simp)]
        ring)
  exact ⟨u, e', by rw [hu]; rfl⟩

/-- The lines of the report. -/
def linesOf (num : R → Str) (pre : Str) (name : Nat → Str) (n : Nat) (obs : List (Obs R)) : List Str :=
  ("vCLS  ACT>".toList :: (List.range n).map name).flatMap setw ::
  ((List.range n).map (fun i => (name i :: (List.range n).map fun j => digitsOf ⌊entry obs i j⌋₊).flatMap setw) ++
    (((List.range n).filter fun c => decide (0 < labelled obs c)).map (fun c =>
      rate num pre (name c) " RR: ".toList (entry obs c c / labelled obs c)) ++
    ((List.range n).map (fun t => rate num pre (name t) " IU: ".toList (overlap obs t)) ++
    [pre ++ " Average intersection over union          : ".toList ++
      num (100 * (∑ t ∈ Finset.range n, overlap obs t) / (n : R)) ++ "%".toList])))

theorem print_lines (num : R → Str) (pre : Str) (training : Bool) (names : List Str) {st : State R} {n : Nat} {obs : List (Obs R)}
    (hc : Counted n st obs) (hr : ∀ o ∈ obs, o.pred < n ∧ o.label < n) (hw : ∀ o ∈ obs, 0 ≤ o.weight) (hn : n ≤ names.length)
    (hb : ∀ i j, i < n → j < n → entry obs i j < 2 ^ 63) :
    print num pre training names st = some ((linesOf num pre (fun i => names.getD i []) n obs).flatMap (result training)) := by
  obtain ⟨c1, ⟨m, p, c2, c3, c4, c5, c6⟩, c7, c8⟩ := hc
  have hm : ∀ a b, a < n → b < n → rd m (a * n + b) = some (entry obs a b) := c5
  have hname : ∀ i, i < n → rd names i = some (names.getD i []) := by
    intro i hi
    unfold rd
    rw [List.getD_eq_getElem?_getD, List.getElem?_eq_getElem (by omega)]
    rfl
  have h1 : caption names n = some (("vCLS  ACT>".toList :: (List.range n).map fun i => names.getD i []).flatMap setw) := by
    unfold caption
    rw [forLoop_text (g := fun i => setw (names.getD i [])) (fun i s hi => by rw [hname i hi]; rfl), List.flatMap_cons,
      List.flatMap_map]
  have h2 : ∀ t, t < n → row names n m t =
      some ((names.getD t [] :: (List.range n).map fun j => digitsOf ⌊entry obs t j⌋₊).flatMap setw) := by
    intro t ht
    unfold row
    rw [hname t ht, Option.bind_some, forLoop_text (g := fun j => setw (digitsOf ⌊entry obs t j⌋₊)) (fun j s hj => by
      rw [hm t j ht hj, Option.bind_some, toLong_nonneg (entry_nonneg hw t j) (hb t j ht hj)]
      unfold integer
      rw [Option.map_some, if_neg (by omega)]
      rfl), List.flatMap_cons, List.flatMap_map]
  unfold print
  rw [c2, Option.bind_some, c1, h1, Option.bind_some]
  dsimp only
  rw [forLoop_text (g := fun t => result training
    ((names.getD t [] :: (List.range n).map fun j => digitsOf ⌊entry obs t j⌋₊).flatMap setw))
    (fun t s ht => by rw [h2 t ht]; rfl), Option.bind_some]
  rw [forLoop_text (g := fun c => if decide (0 < labelled obs c) then
    result training (rate num pre (names.getD c []) " RR: ".toList (entry obs c c / labelled obs c)) else [])
    (fun c s hc => by
      rw [show rd p c = some (labelled obs c) from c6 c hc, Option.bind_some]
      by_cases h : 0 < labelled obs c
      · rw [if_pos h, hm c c hc hc, Option.bind_some, hname c hc, if_pos (by simpa using h)]; rfl
      · rw [if_neg h, if_neg (by simpa using h), List.append_nil]), Option.bind_some, flatMap_filter]
  generalize hout : result training _ ++ _ ++ _ = out
  obtain ⟨s, e, hs⟩ := forLoop_inv (n := n) (s := ((0 : R), out)) (f := fun t s =>
    (forLoop n (fun c unionn =>
      if c ≠ t then
        (rd m (t * n + c)).bind fun a =>
        (rd m (c * n + t)).map fun b => unionn + a + b
      else some unionn) 0).bind fun unionn =>
    (rd m (t * n + t)).bind fun d =>
    (rd names t).map fun name =>
      let iu := if 0 < unionn + d then d / (unionn + d) else 0
      (s.1 + iu, s.2 ++ result training (rate num pre name " IU: ".toList iu)))
    (fun k s => s = (∑ t ∈ Finset.range k, overlap obs t, out ++ (List.range k).flatMap fun t =>
      result training (rate num pre (names.getD t []) " IU: ".toList (overlap obs t)))) (by simp) (by
    intro t s ht hs
    obtain ⟨u, e, hu⟩ := union_loop n obs ht c5
    rw [e, Option.bind_some, hm t t ht ht, Option.bind_some, hname t ht]
    refine ⟨_, rfl, ?_⟩
    dsimp only
    rw [hu, union_eq n hr ht, hs, Finset.sum_range_succ, List.range_succ, List.flatMap_append]
    simp [overlap])
  rw [e, hs, Option.map_some, ← hout]
  unfold linesOf
  simp only [List.flatMap_cons, List.flatMap_append, List.flatMap_map, List.flatMap_nil, List.append_nil, List.append_assoc]

omit [IsStrictOrderedRing R] [FloorRing R] in
theorem rate_clean {num : R → Str} (hnum : NumOk num) {pre name kind : Str} (h1 : '\n' ∉ pre) (h2 : '\n' ∉ name) (h3 : '\n' ∉ kind)
    (r : R) : '\n' ∉ rate num pre name kind r := by
  unfold rate
  have := setw_clean h2
  have := setw_clean (hnum (r * 100)).1
  simp_all

omit [IsStrictOrderedRing R] [FloorRing R] in
theorem takeWhile_percent {num : R → Str} (hnum : NumOk num) (v : R) : (num v ++ "%".toList).takeWhile (· ≠ '%') = num v := by
  rw [List.takeWhile_append_of_pos]
  · simp
  · intro c hc
    have := (hnum v).2.1
    simp only [decide_eq_true_eq]
    intro e
    subst e
    exact this hc

omit [IsStrictOrderedRing R] [FloorRing R] in
theorem read_rate {num : R → Str} (hnum : NumOk num) (pre : Str) {name kind : Str} (h : Fits name) (hk : kind.length = 5) (r : R)
    (kind' : Str) : ReadReport.rate pre kind' (rate num pre name kind r) =
      if kind = kind' then some (name, num (r * 100)) else none := by
  unfold ReadReport.rate rate
  have h12 := setw_length h.1
  dsimp only
  rw [List.drop_left, List.append_assoc, List.append_assoc]
  have e1 : ((setw name ++ (kind ++ (setw (num (r * 100)) ++ "%".toList))).drop 12).take 5 = kind := by
    rw [← h12, List.drop_left, ← hk, List.take_left]
  have e2 : (setw name ++ (kind ++ (setw (num (r * 100)) ++ "%".toList))).take 12 = setw name := by
    rw [← h12, List.take_left]
  have e3 : (setw name ++ (kind ++ (setw (num (r * 100)) ++ "%".toList))).drop 17 = setw (num (r * 100)) ++ "%".toList := by
    rw [show 17 = (setw name ++ kind).length by simp [h12, hk], ← List.append_assoc, List.drop_left]
  rw [e1, e2, e3, strip_setw h.2]
  have e4 : ReadReport.strip (setw (num (r * 100)) ++ "%".toList) = num (r * 100) ++ "%".toList := by
    unfold setw
    rw [List.append_assoc]
    apply strip_blanks
    have := (hnum (r * 100)).2.2
    cases hv : num (r * 100) with
    | nil => decide
    | cons c s => rw [hv] at this; simpa using this
  rw [e4, takeWhile_percent hnum]

theorem read_last (pre kind s t : Str) (hk : kind = " RR: ".toList ∨ kind = " IU: ".toList) :
    ReadReport.rate pre kind (pre ++ " Average intersection over union          : ".toList ++ s ++ t) = none := by
  unfold ReadReport.rate
  dsimp only
  rw [List.append_assoc, List.append_assoc, List.drop_left, if_neg]
  rcases hk with rfl | rfl
  · intro h
    have := congrArg List.head? h
    revert this
    simp
  · intro h
    have := congrArg List.head? h
    revert this
    simp

/-- The reader gets what is to be told from these lines. -/
theorem read_lines {num : R → Str} (hnum : NumOk num) {pre : Str} (hpre : '\n' ∉ pre) (training : Bool) {name : Nat → Str} {n : Nat}
    (hname : ∀ i, i < n → NameOk (name i) ∧ (name i).length ≤ 11) {obs : List (Obs R)}
    (hb : ∀ i j, i < n → j < n → ⌊entry obs i j⌋₊ < 10 ^ 12) :
    ReadReport.report pre ((linesOf num pre name n obs).flatMap (result training)) = some (expected num name n obs) := by
  have hfit : ∀ i, i < n → Fits (name i) := fun i hi => ⟨by have := (hname i hi).2; omega, (hname i hi).1.2⟩
  have flat : ∀ l : List Str, (∀ s ∈ l, '\n' ∉ s) → '\n' ∉ l.flatMap setw := by
    intro l hl hm
    obtain ⟨s, hs, hm⟩ := List.mem_flatMap.1 hm
    exact setw_clean (hl s hs) hm
  have clean : ∀ l ∈ linesOf num pre name n obs, '\n' ∉ l := by
    intro l hl
    unfold linesOf at hl
    rw [List.mem_cons, List.mem_append, List.mem_append, List.mem_append] at hl
    rcases hl with rfl | hl | hl | hl | hl
    · apply flat
      intro s hs
      rw [List.mem_cons, List.mem_map] at hs
      rcases hs with rfl | ⟨i, hi, rfl⟩
      · decide
      · exact (hname i (List.mem_range.1 hi)).1.1
    · obtain ⟨i, hi, rfl⟩ := List.mem_map.1 hl
      apply flat
      intro s hs
      rw [List.mem_cons, List.mem_map] at hs
      rcases hs with rfl | ⟨j, hj, rfl⟩
      · exact (hname i (List.mem_range.1 hi)).1.1
      · exact digitsOf_clean _
    · obtain ⟨i, hi, rfl⟩ := List.mem_map.1 hl
      exact rate_clean hnum hpre (hname i (List.mem_range.1 (List.mem_filter.1 hi).1)).1.1 (by decide) _
    · obtain ⟨i, hi, rfl⟩ := List.mem_map.1 hl
      exact rate_clean hnum hpre (hname i (List.mem_range.1 hi)).1.1 (by decide) _
    · rw [List.mem_singleton] at hl
      subst hl
      have := (hnum (100 * (∑ t ∈ Finset.range n, overlap obs t) / (n : R))).1
      intro hm
      rw [List.mem_append, List.mem_append, List.mem_append] at hm
      rcases hm with ((hm | hm) | hm) | hm
      · exact hpre hm
      · revert hm; decide
      · exact this hm
      · revert hm; decide
  unfold ReadReport.report
  rw [bodies training _ clean]
  unfold linesOf
  dsimp only
  have hhead : ReadReport.cells (("vCLS  ACT>".toList :: (List.range n).map name).flatMap setw) =
      "vCLS  ACT>".toList :: (List.range n).map name := by
    apply cells_flatMap
    intro s hs
    rw [List.mem_cons, List.mem_map] at hs
    rcases hs with rfl | ⟨i, hi, rfl⟩
    · exact ⟨by decide, by decide⟩
    · exact hfit i (List.mem_range.1 hi)
  have hlen : ((List.range n).map (fun i => (name i :: (List.range n).map fun j => digitsOf ⌊entry obs i j⌋₊).flatMap setw)).length =
      (((List.range n).map name)).length := by simp
  rw [hhead, List.tail_cons, ← hlen, List.take_left, List.drop_left]
  unfold expected
  congr 1
  rw [ReadReport.Report.mk.injEq]
  refine ⟨rfl, ?_, ?_, ?_, ?_⟩
  · rw [List.map_map]
    apply List.map_congr_left
    intro i hi
    have hi := List.mem_range.1 hi
    have e : ReadReport.cells ((name i :: (List.range n).map fun j => digitsOf ⌊entry obs i j⌋₊).flatMap setw) =
        name i :: (List.range n).map fun j => digitsOf ⌊entry obs i j⌋₊ := by
      apply cells_flatMap
      intro s hs
      rw [List.mem_cons, List.mem_map] at hs
      rcases hs with rfl | ⟨j, hj, rfl⟩
      · exact hfit i hi
      · exact digitsOf_fits (hb i j hi (List.mem_range.1 hj))
    show ReadReport.row _ = _
    unfold ReadReport.row
    rw [e, List.headD_cons, List.tail_cons, List.map_map]
    congr 1
    exact List.map_congr_left fun j _ => decimal_digitsOf _
  · rw [List.filterMap_append, List.filterMap_append, List.filterMap_map, List.filterMap_map, List.filterMap_cons, read_last _ _ _ _ (Or.inl rfl)]
    have e1 : ∀ c ∈ (List.range n).filter fun c => decide (0 < labelled obs c),
        (ReadReport.rate pre " RR: ".toList ∘ fun c => rate num pre (name c) " RR: ".toList (entry obs c c / labelled obs c)) c =
          (some ∘ fun c => (name c, num (entry obs c c / labelled obs c * 100))) c := by
      intro c hc
      show ReadReport.rate _ _ _ = _
      rw [read_rate hnum pre (hfit c (List.mem_range.1 (List.mem_filter.1 hc).1)) rfl, if_pos rfl]
      rfl
    have e2 : ∀ t ∈ List.range n,
        (ReadReport.rate pre " RR: ".toList ∘ fun t => rate num pre (name t) " IU: ".toList (overlap obs t)) t = none := by
      intro t ht
      show ReadReport.rate _ _ _ = _
      rw [read_rate hnum pre (hfit t (List.mem_range.1 ht)) rfl, if_neg (by decide)]
    rw [List.filterMap_congr e1, List.filterMap_congr e2, List.filterMap_eq_map]
    simp
  · rw [List.filterMap_append, List.filterMap_append, List.filterMap_map, List.filterMap_map, List.filterMap_cons, read_last _ _ _ _ (Or.inr rfl)]
    have e1 : ∀ c ∈ (List.range n).filter fun c => decide (0 < labelled obs c),
        (ReadReport.rate pre " IU: ".toList ∘ fun c => rate num pre (name c) " RR: ".toList (entry obs c c / labelled obs c)) c =
          none := by
      intro c hc
      show ReadReport.rate _ _ _ = _
      rw [read_rate hnum pre (hfit c (List.mem_range.1 (List.mem_filter.1 hc).1)) rfl, if_neg (by decide)]
    have e2 : ∀ t ∈ List.range n,
        (ReadReport.rate pre " IU: ".toList ∘ fun t => rate num pre (name t) " IU: ".toList (overlap obs t)) t =
          (some ∘ fun t => (name t, num (overlap obs t * 100))) t := by
      intro t ht
      show ReadReport.rate _ _ _ = _
      rw [read_rate hnum pre (hfit t (List.mem_range.1 ht)) rfl, if_pos rfl]
      rfl
    rw [List.filterMap_congr e1, List.filterMap_congr e2, List.filterMap_eq_map]
    simp
  · rw [← List.append_assoc, ← List.append_assoc, List.getLastD_eq_getLast?, List.getLast?_concat, Option.getD_some]
    show List.takeWhile _ (List.drop (pre.length + " Average intersection over union          : ".toList.length) _) = _
    rw [← List.length_append, List.append_assoc (pre ++ _), List.drop_left, takeWhile_percent hnum]

omit [FloorRing R] in
theorem entry_le_weight {obs : List (Obs R)} (h : ∀ o ∈ obs, 0 ≤ o.weight) (a b : Nat) : entry obs a b ≤ weight obs := by
  refine sum_map_le _ _ _ fun o ho => ?_
  split
  · exact le_refl _
  · exact h o ho

/-- C96: after any number of batches with a total weight below 10^12 the report can be printed, and reading it gives, for every
pair of classes, the weight of the pixels predicted as the class of the row and labelled with the class of the column, rounded
down, and the rates of all classes.  The average intersection over union that it shows is the one that is reported as a
statistic. -/
theorem C96_report (lowest : R) (st st1 st' : State R) (first second third : Shape) (bs : List (StatBatch R))
    (hb : ∀ b ∈ bs, StatBatchFits st.classes lowest b) (hw : ∀ b ∈ bs, ∀ v ∈ b.third.data, 0 ≤ v)
    (hc : ConfusionMatrix.connect first second third st = some (some st1)) (hf : feedAll lowest bs st1 = some st')
    (names : List Str) (hn : st.classes ≤ names.length) (hname : ∀ s ∈ names, NameOk s)
    (num : R → Str) (hnum : NumOk num) (pre : Str) (hpre : '\n' ∉ pre) (training : Bool) :
    ∃ news, List.Forall₂ Shows bs news ∧ (weight news.flatten < 10 ^ 12 →
      ∃ text, report num pre training names st' = some text ∧
        ReadReport.report pre text =
          some (expected num (fun i => shorten (names.getD i [])) st.classes news.flatten) ∧
        (1 ≤ weight news.flatten → ∃ orr arr, ConfusionMatrix.updateAll st' =
          some (some (orr, arr, 100 * (∑ t ∈ Finset.range st.classes, overlap news.flatten t) / (st.classes : R))))) := by
  unfold ConfusionMatrix.connect at hc
  split at hc
  · obtain ⟨st1', e1, c1⟩ := reset_counted (st := { classes := st.classes
                                                    counters := some (List.replicate (st.classes * st.classes) 0,
                                                      List.replicate st.classes 0)
                                                    total := st.total
                                                    right := st.right }) rfl (by simp) (by simp)
    rw [e1] at hc
    obtain rfl : st1' = st1 := by simpa using hc
    obtain ⟨st2, news', e2, s2, r2, c2⟩ := feedAll_counted bs st1' [] hb c1
    rw [hf] at e2
    obtain rfl := Option.some.inj e2
    rw [List.nil_append] at c2
    have hn0 := shows_nonneg s2 hw
    refine ⟨news', s2, fun hlt => ?_⟩
    have hsmall : ∀ i j, entry news'.flatten i j < 10 ^ 12 := fun i j => lt_of_le_of_lt (entry_le_weight hn0 i j) hlt
    have hget : ∀ i, i < st.classes → (names.map shorten).getD i [] = shorten (names.getD i []) := by
      intro i hi
      rw [List.getD_eq_getElem?_getD, List.getD_eq_getElem?_getD, List.getElem?_map, List.getElem?_eq_getElem (by omega)]
      rfl
    refine ⟨_, print_lines num pre training (names.map shorten) c2 r2 hn0 (by rw [List.length_map]; exact hn)
      (fun i j _ _ => lt_trans (hsmall i j) (by norm_num)), ?_, ?_⟩
    · have := read_lines hnum hpre training (name := fun i => (names.map shorten).getD i []) (n := st.classes)
        (obs := news'.flatten) (fun i hi => by
          rw [hget i hi]
          refine ⟨shorten_ok (hname _ ?_), shorten_length _⟩
          rw [List.getD_eq_getElem?_getD, List.getElem?_eq_getElem (by omega)]
          exact List.getElem_mem _)
        (fun i j _ _ => (Nat.floor_lt (entry_nonneg hn0 i j)).2 (by have := hsmall i j; norm_num at this ⊢; exact this))
      rw [this]
      unfold expected
      congr 1
      rw [ReadReport.Report.mk.injEq]
      refine ⟨?_, ?_, ?_, ?_, rfl⟩
      · exact List.map_congr_left fun i hi => hget i (List.mem_range.1 hi)
      · exact List.map_congr_left fun i hi => by dsimp only; rw [hget i (List.mem_range.1 hi)]
      · exact List.map_congr_left fun i hi => by dsimp only; rw [hget i (List.mem_range.1 (List.mem_filter.1 hi).1)]
      · exact List.map_congr_left fun i hi => by dsimp only; rw [hget i (List.mem_range.1 hi)]
    · intro hge
      obtain ⟨q0, ⟨m, p, q1, q2, q3, q4, q5⟩, q6, q7⟩ := c2
      obtain ⟨a, ha⟩ : ∃ a, average st.classes m p = some a := ⟨_, average_spec st.classes news'.flatten q4 q5⟩
      refine ⟨100 * st'.right / st'.total, 100 * a.1 / a.2, ?_⟩
      unfold ConfusionMatrix.updateAll
      rw [if_neg (by rw [q6]; exact not_lt.2 hge), q1, Option.bind_some, q0]
      dsimp only
      rw [ha, Option.bind_some, iouSum_spec st.classes news'.flatten q4,
        show ∑ t ∈ Finset.range st.classes, overlap news'.flatten t = ∑ t ∈ Finset.range st.classes,
          (if 0 < ConfusionMatrix.union st.classes news'.flatten t then
            entry news'.flatten t t / ConfusionMatrix.union st.classes news'.flatten t else 0) from
          Finset.sum_congr rfl fun t ht => by rw [union_eq st.classes r2 (Finset.mem_range.1 ht)]; rfl]
      rfl
  · simp at hc

omit [IsStrictOrderedRing R] in
/-- C96: a class without a name is read outside the names. -/
theorem C96_missing_name (num : R → Str) (pre : Str) (training : Bool) (names : List Str) (st : State R)
    (h : names.length < st.classes) : report num pre training names st = none := by
  unfold report print
  cases st.counters with
  | none => rfl
  | some c =>
    rw [Option.bind_some]
    have : caption (names.map shorten) st.classes = none := by
      unfold caption
      generalize setw "vCLS  ACT>".toList = s0
      revert h
      generalize st.classes = n
      intro h
      induction n with
      | zero => omega
      | succ n ih =>
        rw [forLoop_succ]
        by_cases hl : names.length < n
        · rw [ih hl]; rfl
        · have : rd (names.map shorten) n = none := List.getElem?_eq_none (by rw [List.length_map]; omega)
          rw [this]
          cases forLoop n _ s0 <;> rfl
    rw [this]
    rfl

end

/-- C96: names of at most eleven characters are shown as they are, and other names can be told apart by their first eight. -/
theorem C96_names_partial (a b : Str) :
    (a.length ≤ 11 → shorten a = a) ∧
    (11 < a.length → shorten a = a.take 8 ++ "...".toList) ∧
    (11 < a.length → 11 < b.length → a.take 8 ≠ b.take 8 → shorten a ≠ shorten b) := by
  refine ⟨fun h => if_neg (by omega), fun h => if_pos h, fun ha hb h e => h ?_⟩
  unfold shorten at e
  rw [if_pos ha, if_pos hb] at e
  exact (List.append_inj_left' e rfl)

/-- C96: two classes can have the same name in the report: "traffic light" and "traffic sign". -/
theorem C96_name_clash : ∃ a b : Str, a ≠ b ∧ NameOk a ∧ NameOk b ∧ shorten a = shorten b :=
  ⟨"traffic light".toList, "traffic sign".toList, by decide, ⟨by decide, by decide⟩, ⟨by decide, by decide⟩, by decide⟩

/-- C96: from a weight of 10^12 on the columns move and the counts cannot be read any more. -/
theorem C96_wide_count : ∃ line, row (R := ℚ) ["a".toList, "b".toList] 2 [10 ^ 12, 5, 0, 0] 0 = some line ∧
    (ReadReport.row line).2 ≠ [some (10 ^ 12), some 5] := by
  refine ⟨_, rfl, ?_⟩
  decide +kernel

/-- Non-vacuity: two batches of one pixel each; the report is printed, read, and shows them. -/
example : ((ConfusionMatrix.connect ⟨1, 1, 1, 2⟩ ⟨1, 1, 1, 2⟩ ⟨1, 1, 1, 1⟩ (⟨2, none, 0, 0⟩ : State ℚ)).bind fun o => o.bind fun st1 =>
      (feedAll (-1000) [⟨false, ⟨1, 1, 1, 2, [3, 4]⟩, ⟨1, 1, 1, 2, [1, 0]⟩, ⟨1, 1, 1, 1, [5 / 2]⟩⟩,
        ⟨false, ⟨1, 1, 1, 2, [3, 4]⟩, ⟨1, 1, 1, 2, [0, 1]⟩, ⟨1, 1, 1, 1, [1]⟩⟩] st1).bind fun st' =>
      report (fun v => digitsOf v.floor.natAbs) "Testing  - Epoch 3 -".toList false ["sky".toList, "traffic light".toList] st').bind
        (ReadReport.report "Testing  - Epoch 3 -".toList) = some
      { actual := ["sky".toList, "traffic ...".toList]
        rows := [("sky".toList, [some 0, some 0]), ("traffic ...".toList, [some 2, some 1])]
        recognition := [("sky".toList, "0".toList), ("traffic ...".toList, "100".toList)]
        intersection := [("sky".toList, "0".toList), ("traffic ...".toList, "28".toList)]
        average := "14".toList } := by
  decide +kernel

/-- Non-vacuity: the hypotheses about names and numbers. -/
example : NameOk "traffic light".toList ∧ NumOk (fun v : ℚ => digitsOf v.floor.natAbs) :=
  ⟨⟨by decide, by decide⟩, fun v => ⟨digitsOf_clean _, fun h => absurd (digitsOf_isDigit h) (by decide),
    fun h => absurd (digitsOf_isDigit (List.mem_of_mem_head? h)) (by decide)⟩⟩

end CN24.MatrixReport
