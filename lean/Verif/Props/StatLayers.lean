import Verif.Proof.StatLayers
import Verif.Props.Tensor
import Verif.Base.Nest
import Mathlib.Algebra.Order.Ring.Rat

/-
Property theorems about the statistics layers: C43 (confusion matrix), C44 (binary
statistics).
-/

namespace CN24.Props
open CN24 CN24.Tensor CN24.ConfusionMatrix

variable {R : Type _}

/-! ## C43 -/

/-- `k` is the first map with the largest value at the pixel. -/
def FirstBest [LinearOrder R] (t : Tensor R) (x y s k : Nat) : Prop :=
  k < t.maps ∧ ∃ v, t.get x y k s = some v ∧
    ∀ c w, c < t.maps → t.get x y c s = some w → w ≤ v ∧ (c < k → w < v)

/-- The inputs of the layer at one call of `FeedForward`. -/
structure StatBatch (R : Type _) where
  disabled : Bool
  first : Tensor R
  second : Tensor R
  third : Tensor R

/-- The shapes the layer relies on: predictions and labels have the same extents and at most as many
maps as there are classes, the weights cover every pixel, and no value is below the smallest float. -/
structure StatBatchFits [LinearOrder R] (classes : Nat) (lowest : R) (b : StatBatch R) : Prop where
  wf1 : b.first.WF
  wf2 : b.second.WF
  wf3 : b.third.WF
  samples2 : b.second.samples = b.first.samples
  width2 : b.second.width = b.first.width
  height2 : b.second.height = b.first.height
  samples3 : b.third.samples = b.first.samples
  width3 : b.third.width = b.first.width
  height3 : b.third.height = b.first.height
  maps1 : 0 < b.first.maps ∧ b.first.maps ≤ classes
  maps2 : 0 < b.second.maps ∧ b.second.maps ≤ classes
  maps3 : 0 < b.third.maps
  lowest1 : ∀ v ∈ b.first.data, lowest ≤ v
  lowest2 : ∀ v ∈ b.second.data, lowest ≤ v

/-- `obs` lists the pixels of a batch: predicted class, labelled class, weight.  A disabled layer
sees none. -/
def Shows [LinearOrder R] (b : StatBatch R) (obs : List (Obs R)) : Prop :=
  if b.disabled then obs = []
  else
    obs.length = b.first.samples * b.first.height * b.first.width ∧
    ∀ x y s, x < b.first.width → y < b.first.height → s < b.first.samples →
      ∃ o, obs[(s * b.first.height + y) * b.first.width + x]? = some o ∧
        FirstBest b.first x y s o.pred ∧ FirstBest b.second x y s o.label ∧
        b.third.get x y 0 s = some o.weight

theorem pixelMaximum_firstBest [LinearOrder R] {lowest : R} {t : Tensor R} (hw : t.WF)
    (hm : 0 < t.maps) (hl : ∀ v ∈ t.data, lowest ≤ v) {x y s : Nat} (hx : x < t.width)
    (hy : y < t.height) (hs : s < t.samples) :
    ∃ k, t.pixelMaximum lowest x y s = some k ∧ FirstBest t x y s k := by
  obtain ⟨k, h1, h2, h3⟩ := C10_pixelMaximum lowest t hw x y s hx hy hs
  refine ⟨k, h1, ?_⟩
  by_cases h : ∃ c v, c < t.maps ∧ t.get x y c s = some v ∧ lowest < v
  · exact h2 h
  · have hall : ∀ c v, c < t.maps → t.get x y c s = some v → v = lowest := by
      intro c v hc hv
      refine le_antisymm (not_lt.1 fun hlt => h ⟨c, v, hc, hv, hlt⟩) (hl v ?_)
      unfold Tensor.get rd at hv
      exact List.mem_of_getElem? hv
    obtain rfl := h3 (fun c v hc hv => le_of_eq (hall c v hc hv))
    obtain ⟨v, hv⟩ := get_of_inRange hw (x := x) (y := y) (m := 0) (s := s) ⟨hx, hy, hm, hs⟩
    refine ⟨hm, v, hv, fun c w hc hw' => ⟨?_, fun h => absurd h (by omega)⟩⟩
    rw [hall c w hc hw', hall 0 v hm hv]

theorem mem_append_range {ω : Type _} {l : List ω} {n : Nat} {g : Nat → ω} {o : ω} :
    o ∈ l ++ (List.range n).flatMap (fun k => [g k]) → o ∈ l ∨ ∃ k, k < n ∧ o = g k := by
  intro h
  rw [List.mem_append] at h
  rcases h with h | h
  · exact Or.inl h
  · rw [List.mem_flatMap] at h
    obtain ⟨k, hk, h⟩ := h
    rw [List.mem_singleton] at h
    exact Or.inr ⟨k, List.mem_range.1 hk, h⟩

theorem flatMap_range_singleton {ω : Type _} (n : Nat) (g : Nat → ω) :
    (List.range n).flatMap (fun k => [g k]) = (List.range n).map g := by
  induction n with
  | zero => rfl
  | succ n ih => simp [List.range_succ, ih]

theorem pixel_divmod {x y s w h : Nat} (hx : x < w) (hy : y < h) :
    ((s * h + y) * w + x) / w / h = s ∧ ((s * h + y) * w + x) / w % h = y ∧
    ((s * h + y) * w + x) % w = x := by
  have h1 : ((s * h + y) * w + x) / w = s * h + y := by
    rw [Nat.add_comm, Nat.add_mul_div_right _ _ (by omega), Nat.div_eq_of_lt hx]; simp
  have h2 : (s * h + y) / h = s := by
    rw [Nat.add_comm, Nat.add_mul_div_right _ _ (by omega), Nat.div_eq_of_lt hy]; simp
  refine ⟨by rw [h1, h2], by rw [h1, Nat.add_comm, Nat.add_mul_mod_self_right, Nat.mod_eq_of_lt hy], ?_⟩
  rw [Nat.add_comm, Nat.add_mul_mod_self_right, Nat.mod_eq_of_lt hx]

theorem feedForward_counted [AddCommMonoid R] [LinearOrder R] {n : Nat} {lowest : R}
    {b : StatBatch R} (hb : StatBatchFits n lowest b) {st : ConfusionMatrix.State R}
    {obs : List (Obs R)} (h : Counted n st obs) :
    ∃ st' new, ConfusionMatrix.feedForward lowest b.disabled b.first b.second b.third st = some st' ∧
      Shows b new ∧ (∀ o ∈ new, o.pred < n ∧ o.label < n) ∧ Counted n st' (obs ++ new) := by
  unfold ConfusionMatrix.feedForward Shows
  cases hd : b.disabled with
  | true => exact ⟨st, [], by simp, by simp, by simp, by simpa using h⟩
  | false =>
    simp only [Bool.false_eq_true, if_false]
    have hpix : ∀ x y s, x < b.first.width → y < b.first.height → s < b.first.samples →
        ∃ o : Obs R, b.first.pixelMaximum lowest x y s = some o.pred ∧
          b.second.pixelMaximum lowest x y s = some o.label ∧
          b.third.get x y 0 s = some o.weight ∧ FirstBest b.first x y s o.pred ∧
          FirstBest b.second x y s o.label := by
      intro x y s hx hy hs
      obtain ⟨p, h1, h2⟩ := pixelMaximum_firstBest hb.wf1 hb.maps1.1 hb.lowest1 hx hy hs
      obtain ⟨l, h3, h4⟩ := pixelMaximum_firstBest hb.wf2 hb.maps2.1 hb.lowest2 (x := x) (y := y)
        (s := s) (by rw [hb.width2]; exact hx) (by rw [hb.height2]; exact hy)
        (by rw [hb.samples2]; exact hs)
      obtain ⟨w, h5⟩ := get_of_inRange hb.wf3 (x := x) (y := y) (m := 0) (s := s)
        ⟨by rw [hb.width3]; exact hx, by rw [hb.height3]; exact hy, hb.maps3,
          by rw [hb.samples3]; exact hs⟩
      exact ⟨⟨p, l, w⟩, h1, h3, h5, h2, h4⟩
    let g : Nat → Nat → Nat → Obs R := fun x y s =>
      if hh : x < b.first.width ∧ y < b.first.height ∧ s < b.first.samples then
        Classical.choose (hpix x y s hh.1 hh.2.1 hh.2.2) else ⟨0, 0, 0⟩
    have hg : ∀ x y s, x < b.first.width → y < b.first.height → s < b.first.samples →
        b.first.pixelMaximum lowest x y s = some (g x y s).pred ∧
          b.second.pixelMaximum lowest x y s = some (g x y s).label ∧
          b.third.get x y 0 s = some (g x y s).weight ∧ FirstBest b.first x y s (g x y s).pred ∧
          FirstBest b.second x y s (g x y s).label := by
      intro x y s hx hy hs
      have := Classical.choose_spec (hpix x y s hx hy hs)
      simp only [g, dif_pos (⟨hx, hy, hs⟩ : x < b.first.width ∧ y < b.first.height ∧
        s < b.first.samples)]
      exact this
    clear_value g
    rw [forLoop_flatten, forLoop_flatten]
    have hdiv : ∀ k, k < b.first.samples * b.first.height * b.first.width →
        k % b.first.width < b.first.width ∧ k / b.first.width % b.first.height < b.first.height ∧
        k / b.first.width / b.first.height < b.first.samples := by
      intro k hk
      have hw : 0 < b.first.width := by
        rcases Nat.eq_zero_or_pos b.first.width with h0 | h0
        · rw [h0] at hk; omega
        · exact h0
      have h1 : k / b.first.width < b.first.samples * b.first.height :=
        Nat.div_lt_of_lt_mul (by rw [Nat.mul_comm]; exact hk)
      have hh : 0 < b.first.height := by
        rcases Nat.eq_zero_or_pos b.first.height with h0 | h0
        · rw [h0, Nat.mul_zero] at h1; exact absurd h1 (Nat.not_lt_zero _)
        · exact h0
      exact ⟨Nat.mod_lt _ hw, Nat.mod_lt _ hh, Nat.div_lt_of_lt_mul (by rw [Nat.mul_comm]; exact h1)⟩
    obtain ⟨st', e, hc⟩ := forLoop_append (n := b.first.samples * b.first.height * b.first.width)
      (f := fun k st =>
        (b.first.pixelMaximum lowest (k % b.first.width) (k / b.first.width % b.first.height)
          (k / b.first.width / b.first.height)).bind fun firstClass =>
        (b.second.pixelMaximum lowest (k % b.first.width) (k / b.first.width % b.first.height)
          (k / b.first.width / b.first.height)).bind fun secondClass =>
        (b.third.get (k % b.first.width) (k / b.first.width % b.first.height) 0
          (k / b.first.width / b.first.height)).bind fun weight =>
        count firstClass secondClass weight st)
      (Counted n) (fun k => [g (k % b.first.width) (k / b.first.width % b.first.height)
        (k / b.first.width / b.first.height)]) h (by
      intro k s l hk hc
      obtain ⟨i1, i2, i3⟩ := hdiv k hk
      obtain ⟨g1, g2, g3, g4, g5⟩ := hg _ _ _ i1 i2 i3
      obtain ⟨s', e, hc'⟩ := count_spec hc _ (lt_of_lt_of_le g4.1 hb.maps1.2)
        (lt_of_lt_of_le g5.1 hb.maps2.2)
      refine ⟨s', ?_, hc'⟩
      rw [g1, Option.bind_some, g2, Option.bind_some, g3, Option.bind_some, e])
    refine ⟨st', _, e, ⟨?_, ?_⟩, ?_, hc⟩
    · rw [flatMap_range_singleton]; simp
    · intro x y s hx hy hs
      obtain ⟨d1, d2, d3⟩ := pixel_divmod (s := s) hx hy
      refine ⟨g x y s, ?_, (hg x y s hx hy hs).2.2.2.1, (hg x y s hx hy hs).2.2.2.2,
        (hg x y s hx hy hs).2.2.1⟩
      rw [flatMap_range_singleton, List.getElem?_map, List.getElem?_range (radix_lt (radix_lt hs hy) hx),
        Option.map_some, d1, d2, d3]
    · intro o ho
      rcases mem_append_range (l := []) (by simpa using ho) with h' | ⟨k, hk, rfl⟩
      · simp at h'
      · obtain ⟨i1, i2, i3⟩ := hdiv k hk
        obtain ⟨_, _, _, g4, g5⟩ := hg _ _ _ i1 i2 i3
        exact ⟨lt_of_lt_of_le g4.1 hb.maps1.2, lt_of_lt_of_le g5.1 hb.maps2.2⟩

/-- `FeedForward` of every batch in turn. -/
def feedAll [Add R] [LT R] [DecidableLT R] (lowest : R) :
    List (StatBatch R) → ConfusionMatrix.State R → Option (ConfusionMatrix.State R)
  | [], st => some st
  | b :: bs, st =>
    (ConfusionMatrix.feedForward lowest b.disabled b.first b.second b.third st).bind (feedAll lowest bs)

theorem feedAll_counted [AddCommMonoid R] [LinearOrder R] {n : Nat} {lowest : R} :
    ∀ (bs : List (StatBatch R)) (st : ConfusionMatrix.State R) (obs : List (Obs R)),
      (∀ b ∈ bs, StatBatchFits n lowest b) → Counted n st obs →
      ∃ st' news, feedAll lowest bs st = some st' ∧ List.Forall₂ Shows bs news ∧
        (∀ o ∈ news.flatten, o.pred < n ∧ o.label < n) ∧ Counted n st' (obs ++ news.flatten)
  | [], st, obs, _, h => ⟨st, [], rfl, .nil, by simp, by simpa using h⟩
  | b :: bs, st, obs, hb, h => by
    obtain ⟨st1, new, e1, s1, r1, c1⟩ := feedForward_counted (hb b (by simp)) h
    obtain ⟨st2, news, e2, s2, r2, c2⟩ := feedAll_counted bs st1 (obs ++ new)
      (fun b hb' => hb b (by simp [hb'])) c1
    refine ⟨st2, new :: news, ?_, .cons s1 s2, ?_, by simpa using c2⟩
    · rw [feedAll, e1, Option.bind_some, e2]
    · intro o ho
      rw [List.flatten_cons, List.mem_append] at ho
      rcases ho with ho | ho
      · exact r1 o ho
      · exact r2 o ho

/-- A connected or reset layer has counted nothing. -/
theorem reset_counted [AddCommMonoid R] {st : ConfusionMatrix.State R} {m p : List R}
    (h : st.counters = some (m, p)) (hm : m.length = st.classes * st.classes)
    (hp : p.length = st.classes) :
    ∃ st', ConfusionMatrix.reset st = some st' ∧ Counted st.classes st' [] := by
  unfold ConfusionMatrix.reset
  rw [h]
  refine ⟨_, rfl, rfl, ⟨_, _, rfl, by simp [hm], by simp [hp], ?_, ?_⟩, rfl, rfl⟩
  · intro a b ha hb
    have : a * st.classes + b < m.length := by rw [hm]; exact radix_lt ha hb
    simp [entry, this]
  · intro b hb
    have : b < p.length := by omega
    simp [labelled, this]

/-- C43: after any number of batches following `Connect`, entry `(a, b)` is the weight of the pixels
predicted as `a` and labelled `b`, and likewise for the other counters. -/
theorem C43_counts [AddCommMonoid R] [LinearOrder R] (lowest : R) (st : ConfusionMatrix.State R)
    (first second third : Shape) (h1 : first.elements = second.elements)
    (h2 : first.samples = third.samples) (h3 : first.samples = second.samples)
    (bs : List (StatBatch R)) (hb : ∀ b ∈ bs, StatBatchFits st.classes lowest b) :
    ∃ st1 st' news m p, ConfusionMatrix.connect first second third st = some (some st1) ∧
      feedAll lowest bs st1 = some st' ∧ List.Forall₂ Shows bs news ∧
      st'.counters = some (m, p) ∧ m.length = st.classes * st.classes ∧ p.length = st.classes ∧
      (∀ a b, a < st.classes → b < st.classes →
        m[a * st.classes + b]? = some (entry news.flatten a b)) ∧
      (∀ b, b < st.classes → p[b]? = some (labelled news.flatten b)) ∧
      st'.total = weight news.flatten ∧ st'.right = correct news.flatten := by
  unfold ConfusionMatrix.connect
  rw [if_pos ⟨h1, h2, h3⟩]
  obtain ⟨st1, e1, c1⟩ := reset_counted (st := { classes := st.classes
                                                 counters := some (List.replicate (st.classes * st.classes) 0,
                                                   List.replicate st.classes 0)
                                                 total := st.total
                                                 right := st.right }) rfl (by simp) (by simp)
  obtain ⟨st2, news, e2, s2, r2, c2⟩ := feedAll_counted bs st1 [] hb c1
  obtain ⟨_, ⟨m, p, q1, q2, q3, q4, q5⟩, q6, q7⟩ := c2
  rw [List.nil_append] at q4 q5 q6 q7
  exact ⟨st1, st2, news, m, p, by rw [e1]; rfl, e2, s2, q1, q2, q3, q4, q5, q6, q7⟩

/-- C43: `Reset` at any time starts over: the counters afterwards are those of the batches after it. -/
theorem C43_reset [AddCommMonoid R] [LinearOrder R] (lowest : R) (st : ConfusionMatrix.State R)
    (m p : List R) (h : st.counters = some (m, p)) (hm : m.length = st.classes * st.classes)
    (hp : p.length = st.classes) (bs : List (StatBatch R))
    (hb : ∀ b ∈ bs, StatBatchFits st.classes lowest b) :
    ∃ st1 st' news m' p', ConfusionMatrix.reset st = some st1 ∧ feedAll lowest bs st1 = some st' ∧
      List.Forall₂ Shows bs news ∧ st'.counters = some (m', p') ∧
      (∀ a b, a < st.classes → b < st.classes →
        m'[a * st.classes + b]? = some (entry news.flatten a b)) ∧
      (∀ b, b < st.classes → p'[b]? = some (labelled news.flatten b)) ∧
      st'.total = weight news.flatten ∧ st'.right = correct news.flatten := by
  obtain ⟨st1, e1, c1⟩ := reset_counted h hm hp
  obtain ⟨st2, news, e2, s2, r2, c2⟩ := feedAll_counted bs st1 [] hb c1
  obtain ⟨_, ⟨m, p, q1, q2, q3, q4, q5⟩, q6, q7⟩ := c2
  rw [List.nil_append] at q4 q5 q6 q7
  exact ⟨st1, st2, news, m, p, e1, e2, s2, q1, q4, q5, q6, q7⟩

/-- C43: after any number of batches the entries add up to the total weight, the columns to the
per-class weights and the diagonal to the correct weight. -/
theorem C43_consistent [AddCommMonoid R] [LinearOrder R] (lowest : R) (st : ConfusionMatrix.State R)
    (first second third : Shape) (bs : List (StatBatch R))
    (hb : ∀ b ∈ bs, StatBatchFits st.classes lowest b) (st1 st' : ConfusionMatrix.State R)
    (hc : ConfusionMatrix.connect first second third st = some (some st1))
    (hf : feedAll lowest bs st1 = some st') :
    ∃ m p, st'.counters = some (m, p) ∧
      ∑ a ∈ Finset.range st.classes, ∑ b ∈ Finset.range st.classes,
        (m[a * st.classes + b]?).getD 0 = st'.total ∧
      (∀ b, b < st.classes →
        some (∑ a ∈ Finset.range st.classes, (m[a * st.classes + b]?).getD 0) = p[b]?) ∧
      ∑ a ∈ Finset.range st.classes, (m[a * st.classes + a]?).getD 0 = st'.right := by
  unfold ConfusionMatrix.connect at hc
  split at hc
  · obtain ⟨st1', e1, c1⟩ := reset_counted (st := { classes := st.classes
                                                    counters := some (List.replicate (st.classes * st.classes) 0,
                                                      List.replicate st.classes 0)
                                                    total := st.total
                                                    right := st.right }) rfl (by simp) (by simp)
    rw [e1] at hc
    obtain rfl : st1' = st1 := by simpa using hc
    obtain ⟨st2, news, e2, s2, r2, c2⟩ := feedAll_counted bs st1' [] hb c1
    rw [hf] at e2
    obtain rfl := Option.some.inj e2
    obtain ⟨_, ⟨m, p, q1, q2, q3, q4, q5⟩, q6, q7⟩ := c2
    rw [List.nil_append] at q4 q5 q6 q7
    obtain ⟨t1, t2, t3, _⟩ := sums st.classes news.flatten r2
    have e : ∀ a ∈ Finset.range st.classes, ∀ b, b < st.classes →
        (m[a * st.classes + b]?).getD 0 = entry news.flatten a b := by
      intro a ha b hb
      rw [q4 a b (Finset.mem_range.1 ha) hb]; rfl
    refine ⟨m, p, q1, ?_, ?_, ?_⟩
    · rw [q6, ← t1]
      refine Finset.sum_congr rfl fun a ha => Finset.sum_congr rfl fun b hb => ?_
      exact e a ha b (Finset.mem_range.1 hb)
    · intro b hb
      rw [q5 b hb, ← t2 b]
      congr 1
      exact Finset.sum_congr rfl fun a ha => e a ha b hb
    · rw [q7, ← t3]
      exact Finset.sum_congr rfl fun a ha => e a ha a (Finset.mem_range.1 ha)
  · simp at hc

section
variable [Field R] [LinearOrder R] [IsStrictOrderedRing R]

/-- Weight of the pixels predicted as `t` or labelled `t`. -/
def eitherWeight (obs : List (Obs R)) (t : Nat) : R :=
  (obs.map fun o => if o.pred = t ∨ o.label = t then o.weight else 0).sum

omit [IsStrictOrderedRing R] in
theorem union_eq (n : Nat) {obs : List (Obs R)} (h : ∀ o ∈ obs, o.pred < n ∧ o.label < n) {t : Nat}
    (ht : t < n) : ConfusionMatrix.union n obs t = eitherWeight obs t := by
  unfold ConfusionMatrix.union eitherWeight
  induction obs with
  | nil => simp [entry]
  | cons o obs ih =>
    rw [List.map_cons, List.sum_cons, ← ih (fun o ho => h o (by simp [ho]))]
    obtain ⟨hp, hl⟩ := h o (by simp)
    have e1 : ∀ a b, entry (o :: obs) a b =
        (if o.pred = a ∧ o.label = b then o.weight else 0) + entry obs a b := by
      intro a b; simp [entry]
    simp only [e1]
    have key : (∑ c ∈ (Finset.range n).erase t,
        ((if o.pred = t ∧ o.label = c then o.weight else 0) +
          (if o.pred = c ∧ o.label = t then o.weight else 0))) +
        (if o.pred = t ∧ o.label = t then o.weight else 0) =
        if o.pred = t ∨ o.label = t then o.weight else 0 := by
      rw [Finset.sum_add_distrib]
      by_cases h1 : o.pred = t <;> by_cases h2 : o.label = t
      · rw [Finset.sum_eq_zero, Finset.sum_eq_zero]
        · simp [h1, h2]
        · intro c hc
          rw [if_neg]
          rintro ⟨rfl, _⟩
          exact (Finset.mem_erase.1 hc).1 h1
        · intro c hc
          rw [if_neg]
          rintro ⟨_, rfl⟩
          exact (Finset.mem_erase.1 hc).1 h2
      · rw [Finset.sum_eq_single o.label, Finset.sum_eq_zero]
        · simp [h1, h2]
        · intro c _; rw [if_neg (by tauto)]
        · intro c _ hc; rw [if_neg (by tauto)]
        · intro hn; exact absurd (Finset.mem_erase.2 ⟨h2, Finset.mem_range.2 hl⟩) hn
      · rw [Finset.sum_eq_zero, Finset.sum_eq_single o.pred]
        · simp [h1, h2]
        · intro c _ hc; rw [if_neg (by tauto)]
        · intro hn; exact absurd (Finset.mem_erase.2 ⟨h1, Finset.mem_range.2 hp⟩) hn
        · intro c _; rw [if_neg (by tauto)]
      · rw [Finset.sum_eq_zero, Finset.sum_eq_zero]
        · simp [h1, h2]
        · intro c _; rw [if_neg (by tauto)]
        · intro c _; rw [if_neg (by tauto)]
    rw [← key]
    simp only [Finset.sum_add_distrib]
    ring

omit [Field R] [IsStrictOrderedRing R] in
/-- Pixels of batches with non-negative weights have non-negative weights. -/
theorem shows_nonneg [Zero R] {bs : List (StatBatch R)} {news : List (List (Obs R))} (s2 : List.Forall₂ Shows bs news)
    (hw : ∀ b ∈ bs, ∀ v ∈ b.third.data, 0 ≤ v) : ∀ o ∈ news.flatten, 0 ≤ o.weight := by
  induction s2 with
  | nil => simp
  | @cons b new bs news hs _ ih =>
    intro o ho
    rw [List.flatten_cons, List.mem_append] at ho
    rcases ho with ho | ho
    · unfold Shows at hs
      split at hs
      · rw [hs] at ho; simp at ho
      · obtain ⟨k, hk, hko⟩ := List.getElem_of_mem ho
        rw [hs.1] at hk
        have hwd : 0 < b.first.width := by
          rcases Nat.eq_zero_or_pos b.first.width with h0 | h0
          · rw [h0] at hk; omega
          · exact h0
        have i1 : k / b.first.width < b.first.samples * b.first.height :=
          Nat.div_lt_of_lt_mul (by rw [Nat.mul_comm]; exact hk)
        have hh : 0 < b.first.height := by
          rcases Nat.eq_zero_or_pos b.first.height with h0 | h0
          · rw [h0, Nat.mul_zero] at i1; exact absurd i1 (Nat.not_lt_zero _)
          · exact h0
        obtain ⟨o', ho', _, _, hg⟩ := hs.2 (k % b.first.width)
          (k / b.first.width % b.first.height) (k / b.first.width / b.first.height)
          (Nat.mod_lt _ hwd) (Nat.mod_lt _ hh)
          (Nat.div_lt_of_lt_mul (by rw [Nat.mul_comm]; exact i1))
        rw [Nat.div_add_mod' (k / b.first.width) b.first.height,
          Nat.div_add_mod' k b.first.width] at ho'
        have : o' = o := by
          rw [List.getElem?_eq_getElem (by rw [hs.1]; exact hk), hko] at ho'
          exact (Option.some.inj ho').symm
        rw [this] at hg
        unfold Tensor.get rd at hg
        exact hw b (by simp) _ (List.mem_of_getElem? hg)
    · exact ih (fun b hb => hw b (by simp [hb])) o ho

/-- C43: what is reported after any number of batches with non-negative weights.  Nothing if the
total weight is below one; otherwise the overall rate, the average rate over the classes that occur
and the average intersection over union, each between 0 and 100. -/
theorem C43_rates (lowest : R) (st st1 st' : ConfusionMatrix.State R) (first second third : Shape)
    (bs : List (StatBatch R)) (hb : ∀ b ∈ bs, StatBatchFits st.classes lowest b)
    (hw : ∀ b ∈ bs, ∀ v ∈ b.third.data, 0 ≤ v)
    (hc : ConfusionMatrix.connect first second third st = some (some st1))
    (hf : feedAll lowest bs st1 = some st') :
    ∃ news, List.Forall₂ Shows bs news ∧
      (weight news.flatten < 1 → ConfusionMatrix.updateAll st' = some none) ∧
      (1 ≤ weight news.flatten →
        ∃ orr arr iou, ConfusionMatrix.updateAll st' = some (some (orr, arr, iou)) ∧
          orr = 100 * correct news.flatten / weight news.flatten ∧
          arr = 100 * (∑ c ∈ (Finset.range st.classes).filter (fun c => 0 < labelled news.flatten c),
              entry news.flatten c c / labelled news.flatten c) /
            (((Finset.range st.classes).filter (fun c => 0 < labelled news.flatten c)).card : R) ∧
          iou = 100 * (∑ t ∈ Finset.range st.classes, if 0 < eitherWeight news.flatten t then
              entry news.flatten t t / eitherWeight news.flatten t else 0) / (st.classes : R) ∧
          0 < ((Finset.range st.classes).filter (fun c => 0 < labelled news.flatten c)).card ∧
          0 ≤ orr ∧ orr ≤ 100 ∧ 0 ≤ arr ∧ arr ≤ 100 ∧ 0 ≤ iou ∧ iou ≤ 100) := by
  unfold ConfusionMatrix.connect at hc
  split at hc
  · obtain ⟨st1', e1, c1⟩ := reset_counted (st := { classes := st.classes
                                                    counters := some (List.replicate (st.classes * st.classes) 0,
                                                      List.replicate st.classes 0)
                                                    total := st.total
                                                    right := st.right }) rfl (by simp) (by simp)
    rw [e1] at hc
    obtain rfl : st1' = st1 := by simpa using hc
    obtain ⟨st2, news, e2, s2, r2, c2⟩ := feedAll_counted bs st1' [] hb c1
    rw [hf] at e2
    obtain rfl := Option.some.inj e2
    obtain ⟨q0, ⟨m, p, q1, q2, q3, q4, q5⟩, q6, q7⟩ := c2
    rw [List.nil_append] at q4 q5 q6 q7
    refine ⟨news, s2, ?_, ?_⟩
    · intro h
      unfold ConfusionMatrix.updateAll
      rw [q6, if_pos h]
    · intro h
      have hn : ∀ o ∈ news.flatten, 0 ≤ o.weight := shows_nonneg s2 hw
      have hpos : 0 < weight news.flatten := lt_of_lt_of_le one_pos h
      obtain ⟨_, _, _, t4⟩ := sums st.classes news.flatten r2
      have hlab : ∀ c, 0 ≤ labelled news.flatten c := fun c =>
        le_trans (entry_nonneg hn c c) (entry_le_labelled hn c c)
      have hcard : 0 < ((Finset.range st.classes).filter (fun c => 0 < labelled news.flatten c)).card := by
        rw [Finset.card_pos]
        by_contra hempty
        rw [Finset.not_nonempty_iff_eq_empty, Finset.filter_eq_empty_iff] at hempty
        rw [Finset.sum_eq_zero] at t4
        · rw [← t4] at hpos; exact lt_irrefl _ hpos
        · intro c hc
          exact le_antisymm (not_lt.1 (hempty hc)) (hlab c)
      have hcl : 0 < st.classes := by
        by_contra h0
        have : st.classes = 0 := by omega
        rw [this] at hcard; simp at hcard
      have hcl' : (0 : R) < (st.classes : R) := by exact_mod_cast hcl
      have hcard' : (0 : R) < (((Finset.range st.classes).filter
        (fun c => 0 < labelled news.flatten c)).card : R) := by exact_mod_cast hcard
      have hiou : ∑ t ∈ Finset.range st.classes, (if 0 < eitherWeight news.flatten t then
              entry news.flatten t t / eitherWeight news.flatten t else 0) =
          ∑ t ∈ Finset.range st.classes, (if 0 < ConfusionMatrix.union st.classes news.flatten t then
              entry news.flatten t t / ConfusionMatrix.union st.classes news.flatten t else 0) := by
        refine Finset.sum_congr rfl fun t ht => ?_
        rw [union_eq st.classes r2 (Finset.mem_range.1 ht)]
      refine ⟨_, _, _, ?_, rfl, rfl, rfl, hcard, ?_⟩
      · unfold ConfusionMatrix.updateAll
        rw [q6, if_neg (not_lt.2 h), q1, Option.bind_some, q0]
        dsimp only
        rw [average_spec st.classes news.flatten q4 q5, Option.bind_some,
          iouSum_spec st.classes news.flatten q4, hiou, q7]
        rfl
      · have b1 := correct_le hn
        have avg : ∀ (s n : R), 0 < n → 0 ≤ s → s ≤ n → 0 ≤ 100 * s / n ∧ 100 * s / n ≤ 100 := by
          intro s n hn' h0 h1
          refine ⟨div_nonneg (mul_nonneg (by norm_num) h0) (le_of_lt hn'), ?_⟩
          rw [div_le_iff₀ hn']
          exact mul_le_mul_of_nonneg_left h1 (by norm_num)
        have a1 := avg _ _ hpos b1.1 b1.2
        have a2 := avg _ _ hcard'
          (Finset.sum_nonneg fun c hc => div_nonneg (entry_nonneg hn c c) (hlab c))
          (by
            calc ∑ c ∈ (Finset.range st.classes).filter (fun c => 0 < labelled news.flatten c),
                  entry news.flatten c c / labelled news.flatten c
                ≤ ∑ c ∈ (Finset.range st.classes).filter (fun c => 0 < labelled news.flatten c),
                  (1 : R) := Finset.sum_le_sum fun c hc =>
                    (div_le_one (Finset.mem_filter.1 hc).2).2 (entry_le_labelled hn c c)
              _ = _ := by simp)
        have a3 := avg _ _ hcl'
          (Finset.sum_nonneg fun t _ => (union_bounds st.classes hn t).1)
          (by
            calc ∑ t ∈ Finset.range st.classes, _
                ≤ ∑ t ∈ Finset.range st.classes, (1 : R) := Finset.sum_le_sum fun t _ =>
                    (union_bounds st.classes hn t).2
              _ = _ := by simp)
        rw [hiou]
        exact ⟨a1.1, a1.2, a2.1, a2.2, a3.1, a3.2⟩
  · simp at hc

end

/-- C43 needs `Connect`: `Reset` of a layer that is not connected dereferences a null pointer. -/
theorem C43_reset_unconnected [Zero R] (st : ConfusionMatrix.State R) (h : st.counters = none)
    (hc : 0 < st.classes) : ConfusionMatrix.reset st = none := by
  unfold ConfusionMatrix.reset
  rw [h]
  dsimp only
  rw [if_neg (by omega)]

/-- Two batches of one sample of 2 x 1 pixels and two maps. -/
def exampleBatches : List (StatBatch Rat) :=
  [⟨false, ⟨1, 2, 1, 2, [3, 1, 2, 5]⟩, ⟨1, 2, 1, 2, [1, 1, 0, 0]⟩, ⟨1, 2, 1, 1, [1, 3]⟩⟩,
   ⟨true, ⟨1, 2, 1, 2, [3, 1, 2, 5]⟩, ⟨1, 2, 1, 2, [1, 1, 0, 0]⟩, ⟨1, 2, 1, 1, [1, 3]⟩⟩,
   ⟨false, ⟨1, 2, 1, 2, [3, 1, 2, 5]⟩, ⟨1, 2, 1, 2, [0, 0, 1, 1]⟩, ⟨1, 2, 1, 1, [0, 4]⟩⟩]

/-- Non-vacuity: the counters of the example. -/
example : (feedAll (-100) exampleBatches ⟨2, some ([0, 0, 0, 0], [0, 0]), 0, 0⟩).map
    (fun st => (st.counters, st.total, st.right)) =
    some (some ([1, 0, 3, 4], [4, 4]), 8, 5) := by decide +kernel

/-- Non-vacuity: the example meets the hypotheses. -/
example : ∀ b ∈ exampleBatches, StatBatchFits 2 (-100) b ∧ ∀ v ∈ b.third.data, 0 ≤ v := by
  intro b hb
  simp only [exampleBatches, List.mem_cons, List.not_mem_nil, or_false] at hb
  rcases hb with rfl | rfl | rfl <;> refine ⟨⟨?_, ?_, ?_, rfl, rfl, rfl, rfl, rfl, rfl, ?_, ?_, ?_, ?_, ?_⟩, ?_⟩ <;>
    first | rfl | decide +kernel

/-- Non-vacuity: the rates of the example. -/
example : ConfusionMatrix.updateAll (⟨2, some ([1, 0, 3, 4], [4, 4]), 8, 5⟩ : ConfusionMatrix.State Rat) =
    some (some (125/2, 125/2, 100 * (1/4 + 4/7) / 2)) := by decide +kernel

/-! ## C44 -/

section
open CN24.BinaryStat

/-- The shapes the layer relies on: as many labels and at least as many weights as predictions. -/
structure BinaryBatchFits (b : StatBatch R) : Prop where
  wf1 : b.first.WF
  wf2 : b.second.WF
  wf3 : b.third.WF
  labels : b.first.elements = b.second.elements
  weights : b.first.elements ≤ b.third.elements

/-- The elements (prediction, label, weight) counted over a list of batches. -/
def binarySeen (bs : List (StatBatch R)) : List (R × R × R) :=
  bs.flatMap fun b => if b.disabled then [] else b.first.data.zip (b.second.data.zip b.third.data)

/-- `FeedForward` of every batch in turn. -/
def binaryAll [Zero R] [Add R] [LT R] [DecidableLT R] : List (StatBatch R) → BinaryStat.State R → Option (BinaryStat.State R)
  | [], st => some st
  | b :: bs, st =>
    (BinaryStat.feedForward b.disabled b.first b.second b.third st).bind (binaryAll bs)

variable [Field R] [LinearOrder R]

theorem binaryAll_tally : ∀ (bs : List (StatBatch R)) (st : BinaryStat.State R)
    (es : List (R × R × R)), (∀ b ∈ bs, BinaryBatchFits b) → st.counts.length = st.values.length →
    (∀ (t : Nat) (θ : R), st.values[t]? = some θ → st.counts[t]? = some (tally θ es)) →
    ∃ st', binaryAll bs st = some st' ∧ st'.values = st.values ∧
      st'.counts.length = st.counts.length ∧
      ∀ (t : Nat) (θ : R), st.values[t]? = some θ →
        st'.counts[t]? = some (tally θ (es ++ binarySeen bs))
  | [], st, es, _, _, h => ⟨st, rfl, rfl, rfl, fun t θ ht => by simpa [binarySeen] using h t θ ht⟩
  | b :: bs, st, es, hb, hl, h => by
    have hbb := hb b (by simp)
    cases hd : b.disabled with
    | true =>
      obtain ⟨st', e, h1, h2, h3⟩ := binaryAll_tally bs st es (fun b hb' => hb b (by simp [hb'])) hl h
      refine ⟨st', ?_, h1, h2, ?_⟩
      · rw [binaryAll, hd]
        simpa [BinaryStat.feedForward] using e
      · intro t θ ht
        rw [h3 t θ ht]
        simp [binarySeen, hd]
    | false =>
      obtain ⟨st1, e1, v1, l1, c1⟩ := BinaryStat.feedForward_spec hbb.wf1 hbb.wf2 hbb.wf3 hbb.labels
        hbb.weights st hl
      obtain ⟨st', e, h1, h2, h3⟩ := binaryAll_tally bs st1 (es ++ elems b.first b.second b.third)
        (fun b hb' => hb b (by simp [hb'])) (by rw [l1, v1]; exact hl) (by
          intro t θ ht
          rw [v1] at ht
          rw [c1 t θ _ ht (h t θ ht), addAll_tally])
      refine ⟨st', ?_, by rw [h1, v1], by rw [h2, l1], ?_⟩
      · rw [binaryAll, hd, e1, Option.bind_some, e]
      · intro t θ ht
        rw [h3 t θ (by rw [v1]; exact ht)]
        simp [binarySeen, hd, elems]

omit [LinearOrder R] in
theorem thresholds_length (n : Nat) (minT maxT : R) : (thresholds n minT maxT).length = n := by
  unfold thresholds
  split
  · rename_i h; simp [h]
  · simp

/-- C44: after any number of batches, every threshold has counted every element of every batch that
was not disabled, in the cell given by its prediction and its label. -/
theorem C44_counts (n : Nat) (minT maxT : R) (hn : 1 ≤ n) (bs : List (StatBatch R))
    (hb : ∀ b ∈ bs, BinaryBatchFits b) :
    ∃ st0 st', BinaryStat.construct n minT maxT = .done st0 ∧ binaryAll bs st0 = some st' ∧
      st'.values = st0.values ∧ st'.values.length = n ∧ st'.counts.length = n ∧
      ∀ (t : Nat) (θ : R), st'.values[t]? = some θ →
        st'.counts[t]? = some
          { tp := weightOf (fun e => θ < e.1 ∧ 0 < e.2.1) (binarySeen bs)
            fp := weightOf (fun e => θ < e.1 ∧ ¬ 0 < e.2.1) (binarySeen bs)
            tn := weightOf (fun e => ¬ θ < e.1 ∧ ¬ 0 < e.2.1) (binarySeen bs)
            fn := weightOf (fun e => ¬ θ < e.1 ∧ 0 < e.2.1) (binarySeen bs) } := by
  unfold BinaryStat.construct
  rw [if_neg (by omega)]
  have hlen := thresholds_length n minT maxT
  obtain ⟨st', e, h1, h2, h3⟩ := binaryAll_tally bs
    ⟨thresholds n minT maxT, List.replicate n ⟨0, 0, 0, 0⟩⟩ [] hb (by simp [hlen]) (by
      intro t θ ht
      have : t < n := by
        have := (List.getElem?_eq_some_iff.1 ht).1
        rwa [hlen] at this
      simp [this, tally_nil])
  refine ⟨_, st', rfl, e, h1, by rw [h1]; exact hlen, by rw [h2]; simp, ?_⟩
  intro t θ ht
  rw [h1] at ht
  rw [h3 t θ ht]
  rfl

/-- C44: `Reset` starts over. -/
theorem C44_reset (st : BinaryStat.State R) (hl : st.counts.length = st.values.length)
    (bs : List (StatBatch R)) (hb : ∀ b ∈ bs, BinaryBatchFits b) :
    ∃ st', binaryAll bs (BinaryStat.reset st) = some st' ∧ st'.values = st.values ∧
      ∀ (t : Nat) (θ : R), st.values[t]? = some θ →
        st'.counts[t]? = some (tally θ (binarySeen bs)) := by
  obtain ⟨st', e, h1, h2, h3⟩ := binaryAll_tally bs (BinaryStat.reset st) [] hb
    (by simpa [BinaryStat.reset] using hl) (by
      intro t θ ht
      have : t < st.counts.length := by
        have := (List.getElem?_eq_some_iff.1 ht).1
        simp only [BinaryStat.reset] at this
        omega
      simp [BinaryStat.reset, this, tally_nil])
  exact ⟨st', e, h1, h3⟩

/-- C44: at every threshold the four counters add up to the weight of all elements, true positives
and false negatives to the weight of the positive labels. -/
theorem C44_partition (n : Nat) (minT maxT : R) (hn : 1 ≤ n) (bs : List (StatBatch R))
    (hb : ∀ b ∈ bs, BinaryBatchFits b) :
    ∃ st0 st', BinaryStat.construct n minT maxT = .done st0 ∧ binaryAll bs st0 = some st' ∧
      ∀ c ∈ st'.counts,
        c.tp + c.fp + c.tn + c.fn = ((binarySeen bs).map fun e => e.2.2).sum ∧
        c.tp + c.fn = weightOf (fun e => 0 < e.2.1) (binarySeen bs) ∧
        c.fp + c.tn = weightOf (fun e => ¬ 0 < e.2.1) (binarySeen bs) := by
  obtain ⟨st0, st', h1, h2, h3, h4, h5, h6⟩ := C44_counts n minT maxT hn bs hb
  refine ⟨st0, st', h1, h2, ?_⟩
  intro c hc
  obtain ⟨t, ht, hct⟩ := List.getElem_of_mem hc
  have hv : st'.values[t]? = some (st'.values[t]'(by omega)) := List.getElem?_eq_getElem _
  have h7 := h6 t _ hv
  rw [List.getElem?_eq_getElem ht, hct] at h7
  have h8 : c = tally (st'.values[t]'(by omega)) (binarySeen bs) := Option.some.inj h7
  rw [h8]
  exact ⟨tally_sum _ _, (tally_labels _ _).1, (tally_labels _ _).2.1⟩

section
variable [IsStrictOrderedRing R]

/-- C44: the thresholds are evenly spaced from the smallest to the largest one; a single threshold
is the middle. -/
theorem C44_thresholds (n : Nat) (minT maxT : R) (hn : 1 ≤ n) :
    ∃ st0, BinaryStat.construct n minT maxT = .done st0 ∧ st0.values.length = n ∧
      (n = 1 → st0.values = [(minT + maxT) / 2]) ∧
      (2 ≤ n → st0.values[0]? = some minT ∧ st0.values[n - 1]? = some maxT ∧
        ∀ (t : Nat) (a b : R), st0.values[t]? = some a → st0.values[t + 1]? = some b →
          b - a = (maxT - minT) / ((n - 1 : Nat) : R)) ∧
      (minT ≤ maxT → ∀ (i j : Nat) (a b : R), i ≤ j → st0.values[i]? = some a →
        st0.values[j]? = some b → a ≤ b) := by
  unfold BinaryStat.construct
  rw [if_neg (by omega)]
  refine ⟨_, rfl, thresholds_length n minT maxT, ?_, ?_, ?_⟩
  · intro h; simp [thresholds, h]
  · intro h
    have hpos : ((n - 1 : Nat) : R) ≠ 0 := by
      have : 0 < n - 1 := by omega
      exact_mod_cast this.ne'
    have hval : ∀ t, t < n → (thresholds n minT maxT)[t]? =
        some (minT + (maxT - minT) / ((n - 1 : Nat) : R) * (t : R)) := by
      intro t ht
      unfold thresholds
      rw [if_neg (by omega), List.getElem?_map, List.getElem?_range ht]
      rfl
    refine ⟨?_, ?_, ?_⟩
    · dsimp only
      rw [hval 0 (by omega)]; simp
    · dsimp only
      rw [hval (n - 1) (by omega), div_mul_cancel₀ _ hpos]; simp
    · intro t a b ha hb
      dsimp only at ha hb
      have : t + 1 < n := by
        have := (List.getElem?_eq_some_iff.1 hb).1
        rwa [thresholds_length] at this
      rw [hval t (by omega)] at ha
      rw [hval (t + 1) this] at hb
      rw [← Option.some.inj ha, ← Option.some.inj hb]
      push_cast
      ring
  · intro hle i j a b hij ha hb
    dsimp only at ha hb
    have hj : j < n := by
      have := (List.getElem?_eq_some_iff.1 hb).1
      rwa [thresholds_length] at this
    unfold thresholds at ha hb
    by_cases h1 : n = 1
    · obtain rfl : i = j := by omega
      rw [ha] at hb
      exact le_of_eq (Option.some.inj hb)
    · rw [if_neg h1, List.getElem?_map, List.getElem?_range (by omega), Option.map_some] at ha hb
      rw [← Option.some.inj ha, ← Option.some.inj hb]
      have h2 : 0 ≤ (maxT - minT) / ((n - 1 : Nat) : R) :=
        div_nonneg (sub_nonneg.2 hle) (Nat.cast_nonneg _)
      have h3 : (i : R) ≤ (j : R) := by exact_mod_cast hij
      have := mul_le_mul_of_nonneg_left h3 h2
      linarith

theorem binarySeen_nonneg {bs : List (StatBatch R)} (hw : ∀ b ∈ bs, ∀ v ∈ b.third.data, 0 ≤ v) :
    ∀ e ∈ binarySeen bs, 0 ≤ e.2.2 := by
  intro e he
  unfold binarySeen at he
  rw [List.mem_flatMap] at he
  obtain ⟨b, hb, he⟩ := he
  split at he
  · simp at he
  · exact hw b hb _ (List.of_mem_zip (List.of_mem_zip he).2).2

/-- C44: with non-negative weights, a higher threshold has at most as many positives, true positives
and false positives as a lower one. -/
theorem C44_monotone (n : Nat) (minT maxT : R) (hn : 1 ≤ n) (hle : minT ≤ maxT)
    (bs : List (StatBatch R)) (hb : ∀ b ∈ bs, BinaryBatchFits b)
    (hw : ∀ b ∈ bs, ∀ v ∈ b.third.data, 0 ≤ v) :
    ∃ st0 st', BinaryStat.construct n minT maxT = .done st0 ∧ binaryAll bs st0 = some st' ∧
      ∀ (i j : Nat) (c d : Counts R), i ≤ j → st'.counts[i]? = some c → st'.counts[j]? = some d →
        d.tp + d.fp ≤ c.tp + c.fp ∧ d.tp ≤ c.tp ∧ d.fp ≤ c.fp ∧ c.tn ≤ d.tn ∧ c.fn ≤ d.fn := by
  obtain ⟨st0, st', h1, h2, h3, h4, h5, h6⟩ := C44_counts n minT maxT hn bs hb
  obtain ⟨st0', g1, _, _, _, g2⟩ := C44_thresholds n minT maxT hn
  have hst : st0' = st0 := by rw [h1] at g1; exact (Outcome.done.inj g1).symm
  refine ⟨st0, st', h1, h2, ?_⟩
  intro i j c d hij hc hd
  have hi := (List.getElem?_eq_some_iff.1 hc).1
  have hj := (List.getElem?_eq_some_iff.1 hd).1
  have vi : st'.values[i]? = some (st'.values[i]'(by omega)) := List.getElem?_eq_getElem _
  have vj : st'.values[j]? = some (st'.values[j]'(by omega)) := List.getElem?_eq_getElem _
  generalize st'.values[i]'(by omega) = a at vi
  generalize st'.values[j]'(by omega) = b at vj
  have hab : a ≤ b := g2 hle i j a b hij (by rw [hst, ← h3]; exact vi) (by rw [hst, ← h3]; exact vj)
  have hn := binarySeen_nonneg hw
  rw [h6 i a vi] at hc
  rw [h6 j b vj] at hd
  obtain rfl := Option.some.inj hc
  obtain rfl := Option.some.inj hd
  dsimp only
  have t1 := weightOf_mono (P := fun e : R × R × R => b < e.1 ∧ 0 < e.2.1)
    (Q := fun e => a < e.1 ∧ 0 < e.2.1) hn (fun e _ h => ⟨lt_of_le_of_lt hab h.1, h.2⟩)
  have t2 := weightOf_mono (P := fun e : R × R × R => b < e.1 ∧ ¬ 0 < e.2.1)
    (Q := fun e => a < e.1 ∧ ¬ 0 < e.2.1) hn (fun e _ h => ⟨lt_of_le_of_lt hab h.1, h.2⟩)
  have t3 := weightOf_mono (P := fun e : R × R × R => ¬ a < e.1 ∧ ¬ 0 < e.2.1)
    (Q := fun e => ¬ b < e.1 ∧ ¬ 0 < e.2.1) hn (fun e _ h => ⟨fun h' => h.1 (lt_of_le_of_lt hab h'), h.2⟩)
  have t4 := weightOf_mono (P := fun e : R × R × R => ¬ a < e.1 ∧ 0 < e.2.1)
    (Q := fun e => ¬ b < e.1 ∧ 0 < e.2.1) hn (fun e _ h => ⟨fun h' => h.1 (lt_of_le_of_lt hab h'), h.2⟩)
  exact ⟨add_le_add t1 t2, t1, t2, t3, t4⟩

/-- The F1 value of a threshold: -1 if nothing is predicted positive or nothing is labelled positive,
undefined if neither but no true positive exists. -/
def F1 (c : Counts R) : Option R :=
  if c.tp + c.fp = 0 ∨ c.tp + c.fn = 0 then some (-1)
  else if c.tp = 0 then none
  else some (2 * c.tp / (2 * c.tp + c.fp + c.fn))

/-- A percentage, reported only if its denominator is not zero. -/
def percent (a b : R) : Option R := if b = 0 then none else some (100 * (a / b))

/-- Non-negative counters. -/
def NonNeg (c : Counts R) : Prop := 0 ≤ c.tp ∧ 0 ≤ c.fp ∧ 0 ≤ c.tn ∧ 0 ≤ c.fn

omit [IsStrictOrderedRing R] in
theorem NonNeg.f1 [IsStrictOrderedRing R] {c : Counts R} (h : NonNeg c) : c.f1 = F1 c :=
  f1_spec h.1 h.2.1 h.2.2.2

theorem report_percent {a b : R} (ha : 0 ≤ a) (hb : 0 ≤ b) :
    report (if 0 < b then a / b else -1) = percent a b := by
  unfold report percent
  by_cases h : b = 0
  · rw [if_neg (show ¬ 0 < b by rw [h]; exact lt_irrefl _),
      if_neg (show ¬ (0 : R) ≤ -1 by norm_num), if_pos h]
  · rw [if_pos (lt_of_le_of_ne hb (Ne.symm h)), if_pos (div_nonneg ha hb), if_neg h]

theorem percent_bounds {a b v : R} (ha : 0 ≤ a) (hab : a ≤ b) (h : percent a b = some v) :
    0 ≤ v ∧ v ≤ 100 := by
  unfold percent at h
  split at h
  · simp at h
  · rename_i hb
    have hb' : 0 < b := lt_of_le_of_ne (le_trans ha hab) (Ne.symm hb)
    rw [← Option.some.inj h]
    have h1 : 0 ≤ a / b := div_nonneg ha (le_of_lt hb')
    have h2 : a / b ≤ 1 := (div_le_one hb').2 hab
    constructor <;> linarith

/-- C44: after any number of batches with non-negative weights the counters are non-negative. -/
theorem C44_nonneg (n : Nat) (minT maxT : R) (hn : 1 ≤ n) (bs : List (StatBatch R))
    (hb : ∀ b ∈ bs, BinaryBatchFits b) (hw : ∀ b ∈ bs, ∀ v ∈ b.third.data, 0 ≤ v) :
    ∃ st0 st', BinaryStat.construct n minT maxT = .done st0 ∧ binaryAll bs st0 = some st' ∧
      ∀ c ∈ st'.counts, NonNeg c := by
  obtain ⟨st0, st', h1, h2, h3, h4, h5, h6⟩ := C44_counts n minT maxT hn bs hb
  refine ⟨st0, st', h1, h2, ?_⟩
  intro c hc
  obtain ⟨t, ht, hct⟩ := List.getElem_of_mem hc
  have hv : st'.values[t]? = some (st'.values[t]'(by omega)) := List.getElem?_eq_getElem _
  have h7 := h6 t _ hv
  rw [List.getElem?_eq_getElem ht, hct] at h7
  rw [Option.some.inj h7]
  have hn := binarySeen_nonneg hw
  exact ⟨weightOf_nonneg _ hn, weightOf_nonneg _ hn, weightOf_nonneg _ hn, weightOf_nonneg _ hn⟩

/-- C44: what is reported for non-negative counters, if at least one threshold has a defined F1
value: the rates of the first threshold with the largest F1 value, each in percent.  The full
property has no such condition. -/
theorem C44_best_partial (st : BinaryStat.State R) (hn : ∀ c ∈ st.counts, NonNeg c)
    (hdef : ∃ c ∈ st.counts, F1 c ≠ none) :
    ∃ (t : Nat) (c : Counts R) (f : R) (r : Report R),
      st.counts[t]? = some c ∧ F1 c = some f ∧
      (∀ (j : Nat) (d : Counts R) (g : R), st.counts[j]? = some d → F1 d = some g →
        g ≤ f ∧ (j < t → g < f)) ∧
      BinaryStat.updateAll st = some r ∧
      r.fpr = percent c.fp (c.fp + c.tn) ∧ r.fnr = percent c.fn (c.tp + c.fn) ∧
      r.precision = percent c.tp (c.tp + c.fp) ∧ r.recall = percent c.tp (c.tp + c.fn) ∧
      r.accuracy = percent (c.tp + c.tn) (c.tp + c.tn + c.fn + c.fp) ∧
      r.f1 = (if 0 ≤ f then some (100 * f) else none) ∧
      ∀ v ∈ [r.fpr, r.fnr, r.precision, r.recall, r.accuracy, r.f1], ∀ p, v = some p →
        0 ≤ p ∧ p ≤ 100 := by
  have hn' : ∀ (j : Nat) (c : Counts R), st.counts[j]? = some c → NonNeg c :=
    fun j c h => hn c (List.mem_of_getElem? h)
  obtain ⟨o, ho, h⟩ := bestThreshold_spec st.counts
  rcases h with ⟨_, h⟩ | ⟨t, c, f, rfl, h1, h2, h3⟩
  · obtain ⟨c, hc, hf⟩ := hdef
    obtain ⟨j, hj, hcj⟩ := List.getElem_of_mem hc
    have hj' : st.counts[j]? = some c := by rw [List.getElem?_eq_getElem hj, hcj]
    exact absurd (by rw [← (hn c hc).f1]; exact h j c hj') hf
  · have hnc := hn' t c h1
    have h2' := h2
    rw [hnc.f1] at h2'
    have hrd : rd st.counts t = some c := h1
    obtain ⟨p1, p2, p3, p4⟩ := hnc
    let r : Report R :=
      { fpr := percent c.fp (c.fp + c.tn)
        fnr := percent c.fn (c.tp + c.fn)
        precision := percent c.tp (c.tp + c.fp)
        recall := percent c.tp (c.tp + c.fn)
        accuracy := percent (c.tp + c.tn) (c.tp + c.tn + c.fn + c.fp)
        f1 := if 0 ≤ f then some (100 * f) else none }
    refine ⟨t, c, f, r, h1, h2', ?_, ?_, rfl, rfl, rfl, rfl, rfl, rfl, ?_⟩
    · intro j d g hd hg
      exact h3 j d g hd (by rw [(hn' j d hd).f1]; exact hg)
    · unfold BinaryStat.updateAll
      rw [ho, Option.bind_some, Option.bind_some, hrd, Option.map_some]
      rw [report_percent p2 (add_nonneg p2 p3), report_percent p4 (add_nonneg p1 p4)]
      unfold Counts.precision Counts.recall
      rw [report_percent p1 (add_nonneg p1 p2), report_percent p1 (add_nonneg p1 p4), h2]
      have hacc : (if c.tp + c.tn + c.fn + c.fp = 0 then none
          else report ((c.tp + c.tn) / (c.tp + c.tn + c.fn + c.fp))) =
          percent (c.tp + c.tn) (c.tp + c.tn + c.fn + c.fp) := by
        unfold percent report
        split
        · rfl
        · rw [if_pos (div_nonneg (by linarith) (by linarith))]
      rw [hacc]
      rfl
    · have hf1 : ∀ p, (if 0 ≤ f then some (100 * f) else none) = some p → 0 ≤ p ∧ p ≤ 100 := by
        intro p hp
        split at hp
        · rename_i h0
          rw [← Option.some.inj hp]
          have : f ≤ 1 := by
            unfold F1 at h2'
            split at h2'
            · rw [← Option.some.inj h2']; norm_num
            · split at h2'
              · simp at h2'
              · rename_i hz
                have : 0 < c.tp := lt_of_le_of_ne p1 (Ne.symm hz)
                rw [← Option.some.inj h2']
                exact (div_le_one (by linarith)).2 (by linarith)
          constructor <;> linarith
        · simp at hp
      intro v hv p hp
      simp only [List.mem_cons, List.not_mem_nil, or_false] at hv
      rcases hv with rfl | rfl | rfl | rfl | rfl | rfl
      · exact percent_bounds p2 (by linarith) hp
      · exact percent_bounds p4 (by linarith) hp
      · exact percent_bounds p1 (by linarith) hp
      · exact percent_bounds p1 (by linarith) hp
      · exact percent_bounds (by linarith) (by linarith) hp
      · exact hf1 p hp

/-- C44, the missing condition: the report reads out of bounds exactly if no threshold has a defined
F1 value. -/
theorem C44_undefined_iff (st : BinaryStat.State R) (hn : ∀ c ∈ st.counts, NonNeg c) :
    BinaryStat.updateAll st = none ↔ ∀ c ∈ st.counts, F1 c = none := by
  constructor
  · intro h c hc
    by_contra hne
    obtain ⟨_, _, _, _, _, _, _, h', _⟩ := C44_best_partial st hn ⟨c, hc, hne⟩
    rw [h] at h'
    simp at h'
  · intro h
    obtain ⟨o, ho, h'⟩ := bestThreshold_spec st.counts
    rcases h' with ⟨rfl, _⟩ | ⟨t, c, f, rfl, h1, h2, h3⟩
    · unfold BinaryStat.updateAll
      rw [ho]; rfl
    · have hc := List.mem_of_getElem? h1
      rw [(hn c hc).f1, h c hc] at h2
      simp at h2

end
end

section
open CN24.BinaryStat

/-- The full property fails: a negative predicted as positive and a positive predicted as negative
leave every F1 value undefined, and `UpdateAll` reads entry 2^32 - 1 of the counters. -/
theorem C44_report_overrun :
    ∃ st0 st', BinaryStat.construct 3 (0 : Rat) 1 = .done st0 ∧
      binaryAll [⟨false, ⟨2, 1, 1, 1, [2, -2]⟩, ⟨2, 1, 1, 1, [-1, 1]⟩, ⟨2, 1, 1, 1, [1, 1]⟩⟩] st0 =
        some st' ∧ BinaryStat.updateAll st' = none := by
  refine ⟨_, ⟨[0, 1/2, 1], [⟨0, 1, 0, 1⟩, ⟨0, 1, 0, 1⟩, ⟨0, 1, 0, 1⟩]⟩, rfl, ?_, ?_⟩
  · have : ∀ a b : BinaryStat.State Rat, a.values = b.values → a.counts = b.counts → a = b := by
      rintro ⟨_, _⟩ ⟨_, _⟩ rfl rfl; rfl
    have h : (binaryAll [⟨false, ⟨2, 1, 1, 1, [2, -2]⟩, ⟨2, 1, 1, 1, [-1, 1]⟩, ⟨2, 1, 1, 1, [1, 1]⟩⟩]
        ⟨thresholds 3 (0 : Rat) 1, List.replicate 3 ⟨0, 0, 0, 0⟩⟩).map
          (fun st => (st.values, st.counts)) =
        some ([0, 1/2, 1], [⟨0, 1, 0, 1⟩, ⟨0, 1, 0, 1⟩, ⟨0, 1, 0, 1⟩]) := by decide +kernel
    rw [Option.map_eq_some_iff] at h
    obtain ⟨a, h1, h2⟩ := h
    rw [h1]
    congr 1
    exact this _ _ (congrArg Prod.fst h2) (congrArg Prod.snd h2)
  · decide +kernel

/-- The weights are read per element although the layer accepts one weight per pixel: inputs with
two maps are accepted, and the read of the weights overruns. -/
theorem C44_weights_overrun :
    BinaryStat.accepts ⟨1, 1, 1, 2⟩ ⟨1, 1, 1, 2⟩ ⟨1, 1, 1, 1⟩ = true ∧
    ∀ (values : List Rat) (counts : List (Counts Rat)), values ≠ [] → counts ≠ [] →
      BinaryStat.feedForward false ⟨1, 1, 1, 2, [1, 1]⟩ ⟨1, 1, 1, 2, [1, 1]⟩ ⟨1, 1, 1, 1, [1]⟩
        ⟨values, counts⟩ = none := by
  refine ⟨rfl, ?_⟩
  intro values counts hv hc
  have fail : ∀ (t : Nat) (θ : Rat) (counts : List (Counts Rat)),
      forLoop (⟨1, 1, 1, 2, [1, 1]⟩ : Tensor Rat).elements (fun s counts =>
        (rd (⟨1, 1, 1, 2, [1, 1]⟩ : Tensor Rat).data s).bind fun a =>
        (rd (⟨1, 1, 1, 2, [1, 1]⟩ : Tensor Rat).data s).bind fun b =>
        (rd (⟨1, 1, 1, 1, [1]⟩ : Tensor Rat).data s).bind fun w =>
        (rd counts t).bind fun c =>
        wr counts t (c.add (decide (θ < a)) (decide (0 < b)) w)) counts = none := by
    intro t θ counts
    have : (⟨1, 1, 1, 2, [1, 1]⟩ : Tensor Rat).elements = 2 := rfl
    rw [this]
    simp [forLoop, rd]
  obtain ⟨v, vs, rfl⟩ := List.exists_cons_of_ne_nil hv
  unfold BinaryStat.feedForward
  simp only [Bool.false_eq_true, if_false, fail]
  rw [Option.map_eq_none_iff]
  have : ∀ n (s : List (Counts Rat)), forLoop (n + 1) (fun t _ => (rd (v :: vs) t).bind
      fun _ => (none : Option (List (Counts Rat)))) s = none := by
    intro n s
    induction n with
    | zero => simp [forLoop, rd]
    | succ n ih => rw [forLoop_succ, ih]; rfl
  exact this _ _

/-- Non-vacuity: three thresholds, two batches, the report of the best one. -/
example : ((binaryAll [⟨false, ⟨2, 1, 1, 1, [2, -2]⟩, ⟨2, 1, 1, 1, [1, -1]⟩, ⟨2, 1, 1, 1, [1, 3]⟩⟩,
      ⟨false, ⟨2, 1, 1, 1, [1/4, 3/4]⟩, ⟨2, 1, 1, 1, [-1, 1]⟩, ⟨2, 1, 1, 1, [1, 2]⟩⟩]
        ⟨thresholds 3 (0 : Rat) 1, List.replicate 3 ⟨0, 0, 0, 0⟩⟩).map
      (fun st => (st.values, st.counts)) =
    some ([0, 1/2, 1], [⟨3, 1, 3, 0⟩, ⟨3, 0, 4, 0⟩, ⟨1, 0, 4, 2⟩])) ∧
    BinaryStat.updateAll ⟨[0, 1/2, 1], [⟨3, 1, 3, 0⟩, ⟨3, 0, 4, 0⟩, ⟨1, 0, 4, 2⟩]⟩ =
      some (⟨some 0, some 0, some 100, some 100, some 100, some 100⟩ : Report Rat) := by
  constructor <;> decide +kernel

end

end CN24.Props
