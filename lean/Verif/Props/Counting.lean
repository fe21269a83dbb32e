import Verif.Proof.Counting
import Verif.Props.StatLayers

/-
C93: what the single precision counters of the binary statistics contain.
-/

namespace CN24.Counting
open CN24.Props
open CN24.BinaryStat

/-- The number of elements of a kind whose weight is one. -/
def counted (P : Elem Single → Bool) (es : List (Elem Single)) : Nat :=
  es.countP fun x => P x && decide (x.2.2 = 1)

/-- Above the threshold and labelled positive. -/
def isTP (θ : Single) (x : Elem Single) : Bool := decide (θ < x.1) && decide (0 < x.2.1)
/-- Above the threshold and not labelled positive. -/
def isFP (θ : Single) (x : Elem Single) : Bool := decide (θ < x.1) && !decide (0 < x.2.1)
/-- Not above the threshold and not labelled positive. -/
def isTN (θ : Single) (x : Elem Single) : Bool := !decide (θ < x.1) && !decide (0 < x.2.1)
/-- Not above the threshold and labelled positive. -/
def isFN (θ : Single) (x : Elem Single) : Bool := !decide (θ < x.1) && decide (0 < x.2.1)

/-- A `float` counter that contains the number of elements, but not more than 2^24. -/
def upTo (n : Nat) : Single := Flt.nat 24 149 (min n (2 ^ 24))

theorem upTo_value (n : Nat) : (upTo n).value = (min n (2 ^ 24) : Nat) := Flt.nat_value _

theorem upTo_zero (n : Nat) : upTo n + 0 = upTo n := Flt.nat_add_zero (by omega) (Nat.min_le_right _ _)

theorem upTo_one (n : Nat) : upTo n + 1 = upTo (n + 1) := by
  unfold upTo
  rw [Flt.nat_add_one (by omega) (Nat.min_le_right _ _)]
  congr 1
  omega

/-- The weight is zero or one. -/
def Masks (es : List (Elem Single)) : Prop := ∀ x ∈ es, x.2.2 = 0 ∨ x.2.2 = 1

theorem single_zero_ne_one : (0 : Single) ≠ 1 := by
  intro h
  have : (0 : Single).value = (1 : Single).value := by rw [h]
  rw [Flt.value_zero, Flt.value_one] at this
  norm_num at this

theorem counted_cons (P : Elem Single → Bool) (x : Elem Single) (es : List (Elem Single)) :
    counted P (x :: es) = (if P x = true ∧ x.2.2 = 1 then 1 else 0) + counted P es := by
  unfold counted
  rw [List.countP_cons]
  simp only [Bool.and_eq_true, decide_eq_true_eq]
  omega

theorem addAll_upTo (θ : Single) : ∀ (es : List (Elem Single)) (a b c d : Nat), Masks es →
    Counts.addAll θ es ⟨upTo a, upTo b, upTo c, upTo d⟩ =
      ⟨upTo (a + counted (isTP θ) es), upTo (b + counted (isFP θ) es), upTo (c + counted (isTN θ) es),
        upTo (d + counted (isFN θ) es)⟩
  | [], a, b, c, d, _ => rfl
  | x :: es, a, b, c, d, h => by
    have hx := h x (by simp)
    have ih := addAll_upTo θ es
    have hes : Masks es := fun y hy => h y (by simp [hy])
    have : Counts.addAll θ (x :: es) ⟨upTo a, upTo b, upTo c, upTo d⟩ =
      Counts.addAll θ es (Counts.add ⟨upTo a, upTo b, upTo c, upTo d⟩ (decide (θ < x.1)) (decide (0 < x.2.1)) x.2.2) := rfl
    rw [this]
    simp only [counted_cons, ← Nat.add_assoc]
    by_cases h1 : θ < x.1 <;> by_cases h2 : 0 < x.2.1 <;>
      rcases hx with h3 | h3 <;>
      simp only [Counts.add, h1, h2, h3, decide_true, decide_false, upTo_zero, upTo_one, isTP, isFP, isTN, isFN,
        Bool.and_true, Bool.and_false, Bool.not_true, Bool.not_false, Bool.false_eq_true, false_and, and_false,
        true_and, if_true, if_false, Nat.add_zero, single_zero_ne_one] <;>
      exact ih _ _ _ _ hes

/-- The counters after all batches, for any addition. -/
theorem binaryAll_addAll {R : Type _} [Zero R] [Add R] [LT R] [DecidableLT R] : ∀ (bs : List (StatBatch R))
    (st : BinaryStat.State R), (∀ b ∈ bs, BinaryBatchFits b) → st.counts.length = st.values.length →
    ∃ st', binaryAll bs st = some st' ∧ st'.values = st.values ∧ st'.counts.length = st.counts.length ∧
      ∀ (t : Nat) (θ : R) (c : Counts R), st.values[t]? = some θ → st.counts[t]? = some c →
        st'.counts[t]? = some (c.addAll θ (binarySeen bs))
  | [], st, _, _ => ⟨st, rfl, rfl, rfl, fun _ _ _ _ hc => hc⟩
  | b :: bs, st, hb, hl => by
    have hbb := hb b (by simp)
    cases hd : b.disabled with
    | true =>
      obtain ⟨st', e, h1, h2, h3⟩ := binaryAll_addAll bs st (fun b hb' => hb b (by simp [hb'])) hl
      refine ⟨st', ?_, h1, h2, ?_⟩
      · rw [binaryAll, hd]
        simpa [BinaryStat.feedForward] using e
      · intro t θ c ht hc
        rw [h3 t θ c ht hc]
        simp [binarySeen, hd]
    | false =>
      obtain ⟨st1, e1, v1, l1, c1⟩ := BinaryStat.feedForward_spec hbb.wf1 hbb.wf2 hbb.wf3 hbb.labels
        hbb.weights st hl
      obtain ⟨st', e, h1, h2, h3⟩ := binaryAll_addAll bs st1
        (fun b hb' => hb b (by simp [hb'])) (by rw [l1, v1]; exact hl)
      refine ⟨st', ?_, by rw [h1, v1], by rw [h2, l1], ?_⟩
      · rw [binaryAll, hd, e1, Option.bind_some, e]
      · intro t θ c ht hc
        rw [h3 t θ _ (by rw [v1]; exact ht) (c1 t θ c ht hc)]
        simp [binarySeen, hd, elems, Counts.addAll, List.foldl_append]

theorem reset_counts {R : Type _} [Zero R] (st : BinaryStat.State R) (hl : st.counts.length = st.values.length) {t : Nat} {θ : R}
    (ht : st.values[t]? = some θ) : (BinaryStat.reset st).counts[t]? = some ⟨0, 0, 0, 0⟩ := by
  have : t < st.counts.length := by
    have := (List.getElem?_eq_some_iff.1 ht).1
    omega
  simp [BinaryStat.reset, this]

/-- C93: after `Reset` and any number of batches whose weights are zero or one, every `float` counter contains the number
of its elements, or 2^24 if there are more. -/
theorem C93_counters (st : BinaryStat.State Single) (hl : st.counts.length = st.values.length)
    (bs : List (StatBatch Single)) (hb : ∀ b ∈ bs, BinaryBatchFits b) (hw : Masks (binarySeen bs)) :
    ∃ st', binaryAll bs (BinaryStat.reset st) = some st' ∧ st'.values = st.values ∧
      st'.counts.length = st.values.length ∧
      ∀ (t : Nat) (θ : Single), st.values[t]? = some θ → ∃ c, st'.counts[t]? = some c ∧
        c.tp.value = (min (counted (isTP θ) (binarySeen bs)) (2 ^ 24) : Nat) ∧
        c.fp.value = (min (counted (isFP θ) (binarySeen bs)) (2 ^ 24) : Nat) ∧
        c.tn.value = (min (counted (isTN θ) (binarySeen bs)) (2 ^ 24) : Nat) ∧
        c.fn.value = (min (counted (isFN θ) (binarySeen bs)) (2 ^ 24) : Nat) := by
  obtain ⟨st', h1, h2, h3, h4⟩ := binaryAll_addAll bs (BinaryStat.reset st) hb (by simpa [BinaryStat.reset] using hl)
  refine ⟨st', h1, h2, by rw [h3]; simpa [BinaryStat.reset] using hl, ?_⟩
  intro t θ ht
  refine ⟨_, h4 t θ _ ht (reset_counts st hl ht), ?_⟩
  have h0 : (0 : Single) = upTo 0 := by rw [Flt.zero_eq]; rfl
  rw [h0, addAll_upTo θ _ 0 0 0 0 hw]
  simp only [upTo_value, Nat.zero_add, and_self]

/-- C93: with weights between zero and one, no counter ever exceeds 2^24 = 16777216, whatever the number of images. -/
theorem C93_bounded (st : BinaryStat.State Single) (hl : st.counts.length = st.values.length)
    (bs : List (StatBatch Single)) (hb : ∀ b ∈ bs, BinaryBatchFits b)
    (hw : ∀ x ∈ binarySeen bs, 0 ≤ x.2.2.value ∧ x.2.2.value ≤ 1) :
    ∃ st', binaryAll bs (BinaryStat.reset st) = some st' ∧ st'.counts.length = st.values.length ∧
      ∀ c ∈ st'.counts, (0 ≤ c.tp.value ∧ c.tp.value ≤ 2 ^ 24) ∧ (0 ≤ c.fp.value ∧ c.fp.value ≤ 2 ^ 24) ∧
        (0 ≤ c.tn.value ∧ c.tn.value ≤ 2 ^ 24) ∧ (0 ≤ c.fn.value ∧ c.fn.value ≤ 2 ^ 24) := by
  obtain ⟨st', h1, h2, h3, h4⟩ := binaryAll_addAll bs (BinaryStat.reset st) hb (by simpa [BinaryStat.reset] using hl)
  have hlen : st'.counts.length = st.values.length := by rw [h3]; simpa [BinaryStat.reset] using hl
  refine ⟨st', h1, hlen, ?_⟩
  let Ok : Single → Prop := fun a => 0 ≤ a.units ∧ a.units ≤ 2 ^ (24 + 149)
  have val : ∀ a : Single, Ok a → 0 ≤ a.value ∧ a.value ≤ 2 ^ 24 := by
    intro a ha
    unfold Flt.value
    have e1 : (0 : ℚ) ≤ (a.units : ℚ) := by exact_mod_cast ha.1
    have e2 : (a.units : ℚ) ≤ 2 ^ (24 + 149) := by exact_mod_cast ha.2
    refine ⟨by positivity, ?_⟩
    rw [div_le_iff₀ (by positivity), ← pow_add]
    exact e2
  have wok : ∀ x ∈ binarySeen bs, 0 ≤ x.2.2.units ∧ x.2.2.units ≤ 2 ^ 149 := by
    intro x hx
    have := hw x hx
    have e0 := this.1
    have e1 := this.2
    rw [← Flt.value_zero (p := 24) (e := 149), Flt.value_le] at e0
    rw [← Flt.value_one (p := 24) (e := 149), Flt.value_le] at e1
    exact ⟨e0, e1⟩
  have step : ∀ (θ : Single) (es : List (Elem Single)) (c : Counts Single),
      (∀ x ∈ es, 0 ≤ x.2.2.units ∧ x.2.2.units ≤ 2 ^ 149) → Ok c.tp ∧ Ok c.fp ∧ Ok c.tn ∧ Ok c.fn →
      Ok (c.addAll θ es).tp ∧ Ok (c.addAll θ es).fp ∧ Ok (c.addAll θ es).tn ∧ Ok (c.addAll θ es).fn := by
    intro θ es
    induction es with
    | nil => intro c _ hc; exact hc
    | cons x es ih =>
      intro c hx hc
      have hx0 := hx x (by simp)
      have : c.addAll θ (x :: es) = (c.add (decide (θ < x.1)) (decide (0 < x.2.1)) x.2.2).addAll θ es := rfl
      rw [this]
      apply ih _ (fun y hy => hx y (by simp [hy]))
      obtain ⟨o1, o2, o3, o4⟩ := hc
      have ok : ∀ a : Single, Ok a → Ok (a + x.2.2) := fun a ha =>
        Flt.add_bounds (by omega) ha.1 ha.2 hx0.1 hx0.2
      by_cases h1 : θ < x.1 <;> by_cases h2 : 0 < x.2.1 <;>
        simp only [Counts.add, h1, h2, decide_true, decide_false] <;>
        exact ⟨by first | exact o1 | exact ok _ o1, by first | exact o2 | exact ok _ o2,
          by first | exact o3 | exact ok _ o3, by first | exact o4 | exact ok _ o4⟩
  intro c hc
  obtain ⟨t, ht, rfl⟩ := List.getElem_of_mem hc
  have hv : st.values[t]? = some (st.values[t]'(by omega)) := List.getElem?_eq_getElem _
  have := h4 t _ _ hv (reset_counts st hl hv)
  rw [List.getElem?_eq_getElem ht] at this
  rw [Option.some.inj this]
  have ok0 : Ok 0 := ⟨le_refl _, by show (0 : Int) ≤ 2 ^ (24 + 149); positivity⟩
  have := step (st.values[t]'(by omega)) (binarySeen bs) ⟨0, 0, 0, 0⟩ wok ⟨ok0, ok0, ok0, ok0⟩
  exact ⟨val _ this.1, val _ this.2.1, val _ this.2.2.1, val _ this.2.2.2⟩

/-- The numbers of the counters. -/
def valueCounts (c : Counts Single) : Counts ℚ := ⟨c.tp.value, c.fp.value, c.tn.value, c.fn.value⟩

/-- The numbers of a state. -/
def valueState (st : BinaryStat.State Single) : BinaryStat.State ℚ :=
  ⟨st.values.map Flt.value, st.counts.map valueCounts⟩

/-- The numbers of a tensor. -/
def valueTensor (t : Tensor Single) : Tensor ℚ := ⟨t.samples, t.width, t.height, t.maps, t.data.map Flt.value⟩

/-- The numbers of a batch. -/
def valueBatch (b : StatBatch Single) : StatBatch ℚ :=
  ⟨b.disabled, valueTensor b.first, valueTensor b.second, valueTensor b.third⟩

theorem valueBatch_fits {b : StatBatch Single} (h : BinaryBatchFits b) : BinaryBatchFits (valueBatch b) where
  wf1 := by have := h.wf1; simp only [Tensor.WF, valueBatch, valueTensor, List.length_map, Tensor.elements] at *; exact this
  wf2 := by have := h.wf2; simp only [Tensor.WF, valueBatch, valueTensor, List.length_map, Tensor.elements] at *; exact this
  wf3 := by have := h.wf3; simp only [Tensor.WF, valueBatch, valueTensor, List.length_map, Tensor.elements] at *; exact this
  labels := h.labels
  weights := h.weights

/-- The numbers of an element. -/
def valueElem (x : Elem Single) : Elem ℚ := (x.1.value, x.2.1.value, x.2.2.value)

theorem valueBatch_seen (bs : List (StatBatch Single)) :
    binarySeen (bs.map valueBatch) = (binarySeen bs).map valueElem := by
  induction bs with
  | nil => rfl
  | cons b bs ih =>
    have e1 : binarySeen (b :: bs) = (if b.disabled then [] else b.first.data.zip (b.second.data.zip b.third.data)) ++
        binarySeen bs := rfl
    have e2 : binarySeen ((b :: bs).map valueBatch) = (if b.disabled then [] else
        (b.first.data.map Flt.value).zip ((b.second.data.map Flt.value).zip (b.third.data.map Flt.value))) ++
        binarySeen (bs.map valueBatch) := rfl
    rw [e1, e2, ih, List.map_append]
    congr 1
    split
    · rfl
    · rw [List.zip_map, List.zip_map]
      rfl

/-- The exact weight of the elements of a kind is their number. -/
theorem weightOf_counted (P : Elem ℚ → Prop) [DecidablePred P] (Q : Elem Single → Bool)
    (hPQ : ∀ x, P (valueElem x) ↔ Q x = true) : ∀ es : List (Elem Single), Masks es →
    weightOf P (es.map valueElem) = (counted Q es : ℚ)
  | [], _ => by simp [weightOf, counted]
  | x :: es, h => by
    rw [List.map_cons, weightOf_cons, weightOf_counted P Q hPQ es (fun y hy => h y (by simp [hy])), counted_cons]
    push_cast
    congr 1
    have hx := h x (by simp)
    by_cases hq : Q x = true
    · rw [if_pos ((hPQ x).2 hq)]
      rcases hx with h0 | h1
      · rw [if_neg (fun hh => single_zero_ne_one (h0 ▸ hh.2))]
        show x.2.2.value = 0
        rw [h0, Flt.value_zero]
      · rw [if_pos ⟨hq, h1⟩]
        show x.2.2.value = 1
        rw [h1, Flt.value_one]
    · rw [if_neg (fun hh => hq ((hPQ x).1 hh)), if_neg (fun hh => hq hh.1)]

/-- The counters of exact arithmetic are the numbers of elements. -/
theorem exact_counts (θ : Single) (es : List (Elem Single)) (h : Masks es) :
    tally θ.value (es.map valueElem) = ⟨(counted (isTP θ) es : ℚ), (counted (isFP θ) es : ℚ), (counted (isTN θ) es : ℚ),
      (counted (isFN θ) es : ℚ)⟩ := by
  have lt0 : ∀ a : Single, 0 < a.value ↔ 0 < a := fun a => by rw [← Flt.value_lt, Flt.value_zero]
  unfold tally
  congr 1
  all_goals
    apply weightOf_counted _ _ _ _ h
    intro x
    simp only [valueElem, Flt.value_lt, lt0, isTP, isFP, isTN, isFN, Bool.and_eq_true, Bool.not_eq_true', decide_eq_true_eq,
      decide_eq_false_iff_not]

/-- C93: while no counter has more than 2^24 elements to count, the counters are those of exact arithmetic, and so are the
rates computed from them. -/
theorem C93_exact_partial (st : BinaryStat.State Single) (hl : st.counts.length = st.values.length)
    (bs : List (StatBatch Single)) (hb : ∀ b ∈ bs, BinaryBatchFits b) (hw : Masks (binarySeen bs))
    (hn : ∀ θ ∈ st.values, counted (isTP θ) (binarySeen bs) ≤ 2 ^ 24 ∧ counted (isFP θ) (binarySeen bs) ≤ 2 ^ 24 ∧
      counted (isTN θ) (binarySeen bs) ≤ 2 ^ 24 ∧ counted (isFN θ) (binarySeen bs) ≤ 2 ^ 24) :
    ∃ st', binaryAll bs (BinaryStat.reset st) = some st' ∧
      binaryAll (bs.map valueBatch) (BinaryStat.reset (valueState st)) = some (valueState st') := by
  obtain ⟨st', h1, h2, h3, h4⟩ := C93_counters st hl bs hb hw
  refine ⟨st', h1, ?_⟩
  obtain ⟨sq, q1, q2, q3, q4⟩ := binaryAll_tally (bs.map valueBatch) (BinaryStat.reset (valueState st)) []
    (by
      intro b hb'
      obtain ⟨b0, hb0, rfl⟩ := List.mem_map.1 hb'
      exact valueBatch_fits (hb b0 hb0))
    (by simpa [BinaryStat.reset, valueState] using hl) (by
      intro t θ ht
      rw [reset_counts (valueState st) (by simpa [valueState] using hl) ht, tally_nil])
  rw [q1]
  congr 1
  have ev : sq.values = (valueState st').values := by
    rw [q2]
    show st.values.map Flt.value = st'.values.map Flt.value
    rw [h2]
  have ec : sq.counts = (valueState st').counts := by
    have hlen : sq.counts.length = st.values.length := by
      rw [q3]
      simpa [BinaryStat.reset, valueState] using hl
    apply List.ext_getElem (by simp [valueState, hlen, h3])
    intro t ht1 ht2
    have hv : st.values[t]? = some (st.values[t]'(by omega)) := List.getElem?_eq_getElem _
    have hq := q4 t (st.values[t]'(by omega)).value (by
      show (st.values.map Flt.value)[t]? = _
      rw [List.getElem?_map, hv, Option.map_some])
    rw [List.getElem?_eq_getElem ht1, List.nil_append, valueBatch_seen, exact_counts _ _ hw] at hq
    rw [Option.some.inj hq]
    obtain ⟨c, hc, c1, c2, c3, c4⟩ := h4 t _ hv
    obtain ⟨n1, n2, n3, n4⟩ := hn _ (List.getElem_mem (by omega : t < st.values.length))
    have hct : t < st'.counts.length := by omega
    rw [List.getElem?_eq_getElem hct] at hc
    have hg : (valueState st').counts[t] = valueCounts c := by
      simp only [valueState, List.getElem_map]
      rw [Option.some.inj hc]
    rw [hg]
    unfold valueCounts
    rw [c1, c2, c3, c4, Nat.min_eq_left n1, Nat.min_eq_left n2, Nat.min_eq_left n3, Nat.min_eq_left n4]
  cases sq
  simp only [valueState] at ev ec ⊢
  rw [ev, ec]

/-- The rates from counters that all contain the same. -/
theorem updateAll_replicate (values : List ℚ) (n : Nat) (k : ℚ) (hk : 0 < k) :
    BinaryStat.updateAll (⟨values, List.replicate (n + 1) ⟨k, k, k, k⟩⟩ : BinaryStat.State ℚ) =
      some ⟨some 50, some 50, some 50, some 50, some 50, some 50⟩ := by
  have hd : k / (k + k) = 1 / 2 := by field_simp; norm_num
  have hpos : 0 < k + k := by linarith
  have hp : (⟨k, k, k, k⟩ : Counts ℚ).precision = 1 / 2 := by
    simp only [Counts.precision, hpos, if_true, hd]
  have hr : (⟨k, k, k, k⟩ : Counts ℚ).recall = 1 / 2 := by
    simp only [Counts.recall, hpos, if_true, hd]
  have hf : (⟨k, k, k, k⟩ : Counts ℚ).f1 = some (1 / 2) := by
    simp only [Counts.f1, hp, hr]
    norm_num
  have hbest : bestThreshold (List.replicate (n + 1) (⟨k, k, k, k⟩ : Counts ℚ)) = some (some 0) := by
    unfold bestThreshold
    obtain ⟨s, e, hs⟩ := forLoop_inv (n := (List.replicate (n + 1) (⟨k, k, k, k⟩ : Counts ℚ)).length)
      (s := ((-2 : ℚ), (none : Option Nat)))
      (f := fun t s => (rd (List.replicate (n + 1) (⟨k, k, k, k⟩ : Counts ℚ)) t).map fun c => better t c.f1 s)
      (fun i s => s = if i = 0 then ((-2 : ℚ), (none : Option Nat)) else (1 / 2, some 0)) (by simp) (by
        intro t s ht hs
        have hrd : rd (List.replicate (n + 1) (⟨k, k, k, k⟩ : Counts ℚ)) t = some ⟨k, k, k, k⟩ := by
          rw [rd, List.getElem?_replicate, if_pos (by simpa using ht)]
        refine ⟨_, by rw [hrd, Option.map_some], ?_⟩
        rw [hf, hs, if_neg (Nat.succ_ne_zero t)]
        unfold better
        by_cases h0 : t = 0
        · subst h0; norm_num
        · simp only [if_neg h0]; norm_num)
    rw [e, hs, if_neg (by simp)]
    rfl
  unfold BinaryStat.updateAll
  rw [hbest]
  simp only [Option.bind_some]
  rw [show rd (List.replicate (n + 1) (⟨k, k, k, k⟩ : Counts ℚ)) 0 = some ⟨k, k, k, k⟩ by simp [rd]]
  simp only [Option.map_some, hp, hr, hf, hpos, if_true, hd, Option.bind_some]
  have h4 : k + k + k + k ≠ 0 := by linarith
  rw [if_neg h4, show (k + k) / (k + k + k + k) = 1 / 2 by field_simp; norm_num]
  have : report (1 / 2 : ℚ) = some 50 := by unfold report; norm_num
  rw [this]

/-- C93: once there are 2^24 elements of each of the four kinds at every threshold, every rate reported is 50 %, whatever
the images and the outputs of the network. -/
theorem C93_fifty (st : BinaryStat.State Single) (hl : st.counts.length = st.values.length) (hv : st.values ≠ [])
    (bs : List (StatBatch Single)) (hb : ∀ b ∈ bs, BinaryBatchFits b) (hw : Masks (binarySeen bs))
    (hn : ∀ θ ∈ st.values, 2 ^ 24 ≤ counted (isTP θ) (binarySeen bs) ∧ 2 ^ 24 ≤ counted (isFP θ) (binarySeen bs) ∧
      2 ^ 24 ≤ counted (isTN θ) (binarySeen bs) ∧ 2 ^ 24 ≤ counted (isFN θ) (binarySeen bs)) :
    ∃ st', binaryAll bs (BinaryStat.reset st) = some st' ∧
      BinaryStat.updateAll (valueState st') = some ⟨some 50, some 50, some 50, some 50, some 50, some 50⟩ := by
  obtain ⟨st', h1, h2, h3, h4⟩ := C93_counters st hl bs hb hw
  refine ⟨st', h1, ?_⟩
  obtain ⟨n, hlen⟩ : ∃ n, st.values.length = n + 1 :=
    Nat.exists_eq_succ_of_ne_zero (fun h => hv (List.length_eq_zero_iff.1 h))
  have hc : (valueState st').counts = List.replicate (n + 1) ⟨((2 ^ 24 : Nat) : ℚ), ((2 ^ 24 : Nat) : ℚ), ((2 ^ 24 : Nat) : ℚ),
      ((2 ^ 24 : Nat) : ℚ)⟩ := by
    rw [List.eq_replicate_iff]
    refine ⟨by simp [valueState, h3, hlen], ?_⟩
    intro c hc
    obtain ⟨c0, hc0, rfl⟩ := List.mem_map.1 hc
    obtain ⟨t, ht, rfl⟩ := List.getElem_of_mem hc0
    have hv : st.values[t]? = some (st.values[t]'(by omega)) := List.getElem?_eq_getElem _
    obtain ⟨c, hc, c1, c2, c3, c4⟩ := h4 t _ hv
    obtain ⟨n1, n2, n3, n4⟩ := hn _ (List.getElem_mem (by omega : t < st.values.length))
    rw [List.getElem?_eq_getElem ht] at hc
    rw [Option.some.inj hc]
    unfold valueCounts
    rw [c1, c2, c3, c4, Nat.min_eq_right n1, Nat.min_eq_right n2, Nat.min_eq_right n3, Nat.min_eq_right n4]
  have hs : valueState st' = ⟨(valueState st').values, (valueState st').counts⟩ := rfl
  rw [hs, hc]
  exact updateAll_replicate _ n _ (by norm_num)

/-! ### A session whose rates are wrong -/

/-- A batch of one pixel. -/
def pixel (a l : Single) : StatBatch Single := ⟨false, ⟨1, 1, 1, 1, [a]⟩, ⟨1, 1, 1, 1, [l]⟩, ⟨1, 1, 1, 1, [1]⟩⟩

/-- The numbers one and minus one. -/
def minusOne : Single := ⟨-2 ^ 149⟩

/-- `2^25` true positives, `2^24` of each other kind at threshold zero. -/
def longSession : List (StatBatch Single) :=
  List.replicate (2 ^ 25) (pixel 1 1) ++ (List.replicate (2 ^ 24) (pixel 1 minusOne) ++
    (List.replicate (2 ^ 24) (pixel minusOne minusOne) ++ List.replicate (2 ^ 24) (pixel minusOne 1)))

theorem pixel_fits (a l : Single) : BinaryBatchFits (pixel a l) := ⟨rfl, rfl, rfl, rfl, Nat.le_refl _⟩

theorem binarySeen_append (as bs : List (StatBatch Single)) : binarySeen (as ++ bs) = binarySeen as ++ binarySeen bs := by
  simp [binarySeen]

theorem binarySeen_pixels (n : Nat) (a l : Single) :
    binarySeen (List.replicate n (pixel a l)) = List.replicate n (a, l, 1) := by
  induction n with
  | zero => rfl
  | succ n ih =>
    rw [List.replicate_succ, List.replicate_succ, ← ih]
    rfl

theorem longSession_seen : binarySeen longSession = List.replicate (2 ^ 25) (1, 1, 1) ++
    (List.replicate (2 ^ 24) (1, minusOne, 1) ++ (List.replicate (2 ^ 24) (minusOne, minusOne, 1) ++
      List.replicate (2 ^ 24) (minusOne, 1, 1))) := by
  unfold longSession
  rw [binarySeen_append, binarySeen_append, binarySeen_append, binarySeen_pixels, binarySeen_pixels, binarySeen_pixels,
    binarySeen_pixels]

theorem counted_append (P : Elem Single → Bool) (as bs : List (Elem Single)) :
    counted P (as ++ bs) = counted P as + counted P bs := by
  simp [counted]

theorem counted_replicate (P : Elem Single → Bool) (n : Nat) (a l : Single) :
    counted P (List.replicate n (a, l, 1)) = if P (a, l, 1) then n else 0 := by
  unfold counted
  rw [List.countP_replicate]
  simp

theorem longSession_counted : counted (isTP 0) (binarySeen longSession) = 2 ^ 25 ∧
    counted (isFP 0) (binarySeen longSession) = 2 ^ 24 ∧ counted (isTN 0) (binarySeen longSession) = 2 ^ 24 ∧
    counted (isFN 0) (binarySeen longSession) = 2 ^ 24 := by
  have p1 : (0 : Single) < 1 := by rw [← Flt.value_lt, Flt.value_zero, Flt.value_one]; norm_num
  have p2 : ¬ (0 : Single) < minusOne := by
    show ¬ (0 : Int) < -2 ^ 149
    norm_num
  rw [longSession_seen]
  simp only [counted_append, counted_replicate, isTP, isFP, isTN, isFN, p1, p2, decide_true, decide_false, Bool.and_true,
    Bool.and_false, Bool.not_true, Bool.not_false, Bool.false_eq_true, if_true, if_false]
  norm_num

theorem longSession_masks : Masks (binarySeen longSession) := by
  intro x hx
  rw [longSession_seen] at hx
  simp only [List.mem_append] at hx
  rcases hx with h | h | h | h <;> rw [List.eq_of_mem_replicate h] <;> exact Or.inr rfl

theorem longSession_fits : ∀ b ∈ longSession, BinaryBatchFits b := by
  intro b hb
  unfold longSession at hb
  simp only [List.mem_append] at hb
  rcases hb with h | h | h | h <;> rw [List.eq_of_mem_replicate h] <;> exact pixel_fits _ _

/-- C93, the general statement fails: a session of 5·2^24 pixels with one threshold, at zero, for which the precision
reported is 50 %, and that of exact arithmetic for the same pixels is 66 2/3 %. -/
theorem C93_wrong_rates : ∃ st' sq,
    binaryAll longSession (BinaryStat.reset ⟨[0], [⟨0, 0, 0, 0⟩]⟩) = some st' ∧
    binaryAll (longSession.map valueBatch) (BinaryStat.reset (valueState ⟨[0], [⟨0, 0, 0, 0⟩]⟩)) = some sq ∧
    (BinaryStat.updateAll (valueState st')).map (·.precision) = some (some 50) ∧
    (BinaryStat.updateAll sq).map (·.precision) = some (some (200 / 3)) := by
  obtain ⟨c1, c2, c3, c4⟩ := longSession_counted
  obtain ⟨st', h1, h2⟩ := C93_fifty ⟨[0], [⟨0, 0, 0, 0⟩]⟩ rfl (by simp) longSession longSession_fits longSession_masks (by
    intro θ hθ
    simp only [List.mem_singleton] at hθ
    subst hθ
    rw [c1, c2, c3, c4]
    norm_num)
  obtain ⟨sq, q1, q2, q3, q4⟩ := binaryAll_tally (longSession.map valueBatch)
    (BinaryStat.reset (valueState ⟨[0], [⟨0, 0, 0, 0⟩]⟩)) []
    (by
      intro b hb'
      obtain ⟨b0, hb0, rfl⟩ := List.mem_map.1 hb'
      exact valueBatch_fits (longSession_fits b0 hb0)) rfl (by
      intro t θ ht
      rw [reset_counts (valueState ⟨[0], [⟨0, 0, 0, 0⟩]⟩) rfl ht, tally_nil])
  refine ⟨st', sq, h1, q1, by rw [h2]; rfl, ?_⟩
  have hq := q4 0 (0 : Single).value rfl
  rw [List.nil_append, valueBatch_seen, exact_counts _ _ longSession_masks, c1, c2, c3, c4] at hq
  have hlen : sq.counts.length = 1 := by rw [q3]; rfl
  have hc : sq.counts = [⟨2 ^ 25, 2 ^ 24, 2 ^ 24, 2 ^ 24⟩] := by
    match hs : sq.counts, hlen with
    | [c], _ =>
      rw [hs] at hq
      simp only [List.getElem?_cons_zero, Option.some.injEq] at hq
      rw [hq]
      norm_num
  have hs : sq = ⟨sq.values, sq.counts⟩ := rfl
  rw [hs, hc]
  generalize sq.values = vs
  unfold BinaryStat.updateAll bestThreshold
  simp only [List.length_singleton, forLoop_succ, forLoop, rd, List.getElem?_cons_zero]
  norm_num [Counts.f1, Counts.precision, Counts.recall, better, report]

/-- Non-vacuity of `C93_exact_partial` and `C93_bounded`: two pixels. -/
example : ∃ st', binaryAll [pixel 1 1, pixel 1 minusOne] (BinaryStat.reset ⟨[0], [⟨0, 0, 0, 0⟩]⟩) = some st' ∧
    st'.counts.map valueCounts = [⟨1, 1, 0, 0⟩] := by
  refine ⟨⟨[0], [⟨1, 1, 0, 0⟩]⟩, by decide +kernel, by decide +kernel⟩

end CN24.Counting
