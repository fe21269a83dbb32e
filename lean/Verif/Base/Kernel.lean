import Verif.Proof.Tensor
import Mathlib.Algebra.BigOperators.Group.Finset.Basic
import Mathlib.Algebra.BigOperators.Ring.Finset

/-
Kernels: loops that update the elements of one buffer.  A straight-line sequence of updates
`(i, f)` replaces element `i` by `f` of it; an assignment has a constant `f`, an accumulation
adds.  Nested loops are flattened to one such sequence, whose effect on each element is the
composition of the updates addressed to it.
-/

namespace CN24

/-- Replace element `i` by `f` of it; out of range is undefined. -/
def upd {α : Type _} (b : List α) (i : Nat) (f : α → α) : Option (List α) :=
  (rd b i).map (fun v => b.set i (f v))

/-- A straight-line sequence of updates. -/
def updAll {α : Type _} : List (Nat × (α → α)) → List α → Option (List α)
  | [], b => some b
  | (i, f) :: es, b => (upd b i f).bind (updAll es)

/-- The updates addressed to element `j`, in order. -/
def updsAt {α : Type _} (j : Nat) (es : List (Nat × (α → α))) : List (α → α) :=
  (es.filter (fun e => e.1 = j)).map (·.2)

/-- Apply updates in order. -/
def applyAll {α : Type _} (fs : List (α → α)) (v : α) : α := fs.foldl (fun v f => f v) v

section
variable {α : Type _}

theorem upd_of_lt {b : List α} {i : Nat} {f : α → α} (h : i < b.length) :
    upd b i f = some (b.set i (f b[i])) := by simp [upd, rd, h]

theorem upd_none {b : List α} {i : Nat} {f : α → α} (h : b.length ≤ i) : upd b i f = none := by
  simp [upd, rd, h]

theorem wr_eq_upd (b : List α) (i : Nat) (v : α) : wr b i v = upd b i (fun _ => v) := by
  unfold wr upd rd
  by_cases h : i < b.length
  · simp [h]
  · simp [h]

theorem updAll_append (es fs : List (Nat × (α → α))) (b : List α) :
    updAll (es ++ fs) b = (updAll es b).bind (updAll fs) := by
  induction es generalizing b with
  | nil => rfl
  | cons e es ih =>
    obtain ⟨i, f⟩ := e
    simp only [List.cons_append, updAll]
    cases upd b i f with
    | none => rfl
    | some c => simpa using ih c

theorem updsAt_append (j : Nat) (es fs : List (Nat × (α → α))) :
    updsAt j (es ++ fs) = updsAt j es ++ updsAt j fs := by simp [updsAt]

theorem updsAt_flatMap {β : Type _} (j : Nat) (l : List β) (L : β → List (Nat × (α → α))) :
    updsAt j (l.flatMap L) = l.flatMap (fun b => updsAt j (L b)) := by
  induction l with
  | nil => rfl
  | cons b l ih => simp [List.flatMap_cons, updsAt_append, ih]

theorem updAll_spec (es : List (Nat × (α → α))) (b : List α) (hb : ∀ e ∈ es, e.1 < b.length) :
    ∃ b', updAll es b = some b' ∧ b'.length = b.length ∧
      ∀ j, b'[j]? = b[j]?.map (applyAll (updsAt j es)) := by
  induction es generalizing b with
  | nil =>
    refine ⟨b, rfl, rfl, fun j => ?_⟩
    show b[j]? = b[j]?.map id
    simp
  | cons e es ih =>
    obtain ⟨i, f⟩ := e
    have hi : i < b.length := hb (i, f) (by simp)
    obtain ⟨b', h1, h2, h3⟩ := ih (b.set i (f b[i])) (by
      intro e he; simpa using hb e (by simp [he]))
    refine ⟨b', by simp [updAll, upd_of_lt hi, h1], by simpa using h2, fun j => ?_⟩
    rw [h3 j]
    by_cases hj : i = j
    · subst hj
      simp [hi, updsAt, applyAll]
    · simp [hj, updsAt]

theorem updAll_none (es : List (Nat × (α → α))) (b : List α) (h : ∃ e ∈ es, b.length ≤ e.1) :
    updAll es b = none := by
  induction es generalizing b with
  | nil => simp at h
  | cons e es ih =>
    obtain ⟨i, f⟩ := e
    by_cases hi : i < b.length
    · obtain ⟨e, he, hl⟩ := h
      have : e ∈ es := by
        rcases List.mem_cons.1 he with rfl | h
        · simp at hl; omega
        · exact h
      simpa [updAll, upd_of_lt hi] using ih (b.set i (f b[i])) ⟨e, this, by simpa using hl⟩
    · simp [updAll, upd_none (Nat.le_of_not_lt hi)]

end

namespace Tensor
variable {α : Type _}

/-- Update element number `i`. -/
def updElem (t : Tensor α) (i : Nat) (f : α → α) : Option (Tensor α) :=
  (upd t.data i f).map (fun d => { t with data := d })

/-- A straight-line sequence of updates by element number. -/
def mods (es : List (Nat × (α → α))) (t : Tensor α) : Option (Tensor α) :=
  (updAll es t.data).map (fun d => { t with data := d })

@[simp] theorem mods_nil (t : Tensor α) : t.mods [] = some t := rfl

theorem updElem_eq_mods (t : Tensor α) (i : Nat) (f : α → α) : t.updElem i f = t.mods [(i, f)] := by
  unfold updElem mods
  simp only [updAll]
  cases upd t.data i f <;> rfl

theorem putElem_eq_mods (t : Tensor α) (i : Nat) (v : α) :
    t.putElem i v = t.mods [(i, fun _ => v)] := by
  rw [← updElem_eq_mods]; simp [putElem, updElem, wr_eq_upd]

theorem put_eq_mods {t0 t : Tensor α} (h : Sh t0 t) (x y m s : Nat) (v : α) :
    t.put x y m s v = t.mods [(t0.offset x y m s, fun _ => v)] := by
  rw [← putElem_eq_mods]; simp [put, putElem, h.offset]

theorem mods_sh {es : List (Nat × (α → α))} {t u : Tensor α} (h : t.mods es = some u) : Sh t u := by
  simp only [mods, Option.map_eq_some_iff] at h
  obtain ⟨d, _, rfl⟩ := h
  exact ⟨rfl, rfl, rfl, rfl⟩

theorem mods_bind {es fs : List (Nat × (α → α))} {t : Tensor α} {g : Tensor α → Option (Tensor α)}
    (h : ∀ u, Sh t u → g u = u.mods fs) : (t.mods es).bind g = t.mods (es ++ fs) := by
  simp only [mods, updAll_append]
  cases updAll es t.data with
  | none => rfl
  | some d => simpa [mods] using h { t with data := d } ⟨rfl, rfl, rfl, rfl⟩

/-- A loop whose iterations are update sequences is one update sequence. -/
theorem forLoop_mods {t0 t : Tensor α} {n : Nat} {f : Nat → Tensor α → Option (Tensor α)}
    (L : Nat → List (Nat × (α → α))) (ht : Sh t0 t)
    (h : ∀ i u, i < n → Sh t0 u → f i u = u.mods (L i)) :
    forLoop n f t = t.mods ((List.range n).flatMap L) := by
  induction n with
  | zero => rfl
  | succ n ih =>
    rw [forLoop_succ, ih (fun i u hi => h i u (by omega)), List.range_succ, List.flatMap_append,
      mods_bind (fs := L n) (fun u hu => h n u (by omega) (ht.trans hu))]
    simp

theorem ite_mods {t : Tensor α} {c : Prop} [Decidable c] {f g : Option (Tensor α)}
    {es fs : List (Nat × (α → α))} (hf : c → f = t.mods es) (hg : ¬ c → g = t.mods fs) :
    (if c then f else g) = t.mods (if c then es else fs) := by
  split
  · rename_i h; exact hf h
  · rename_i h; exact hg h

theorem mods_spec {es : List (Nat × (α → α))} {t : Tensor α}
    (hb : ∀ e ∈ es, e.1 < t.data.length) :
    ∃ u, t.mods es = some u ∧ Sh t u ∧ u.data.length = t.data.length ∧
      ∀ j, u.data[j]? = t.data[j]?.map (applyAll (updsAt j es)) := by
  obtain ⟨d, h1, h2, h3⟩ := updAll_spec es t.data hb
  exact ⟨{ t with data := d }, by simp [mods, h1], ⟨rfl, rfl, rfl, rfl⟩, h2, h3⟩

theorem mods_none {es : List (Nat × (α → α))} {t : Tensor α}
    (h : ∃ e ∈ es, t.data.length ≤ e.1) : t.mods es = none := by
  simp [mods, updAll_none es t.data h]

/-- Each element has at most one update: the effect is that update. -/
theorem applyAll_updsAt_unique {es : List (Nat × (α → α))} {j : Nat} {f : α → α}
    (hm : (j, f) ∈ es) (hnd : (es.map (·.1)).Nodup) (v : α) : applyAll (updsAt j es) v = f v := by
  induction es with
  | nil => simp at hm
  | cons e es ih =>
    obtain ⟨i, g⟩ := e
    simp only [List.map_cons, List.nodup_cons, List.mem_map, not_exists, not_and] at hnd
    have hnil : ∀ (k : Nat), (∀ x ∈ es, ¬ x.1 = k) → updsAt k es = [] := by
      intro k hk
      unfold updsAt
      rw [List.filter_eq_nil_iff.2 (by intro x hx; simpa using hk x hx)]; rfl
    rcases List.mem_cons.1 hm with h | h
    · cases h
      have := hnil j hnd.1
      unfold updsAt at this ⊢
      rw [List.filter_cons_of_pos (by simp), List.map_cons, this]
      rfl
    · have hij : i ≠ j := fun e => hnd.1 (j, f) h e.symm
      have := ih h hnd.2
      unfold updsAt at this ⊢
      rw [List.filter_cons_of_neg (by simpa using hij)]
      exact this

/-- No update addressed to `j`. -/
theorem applyAll_updsAt_none {es : List (Nat × (α → α))} {j : Nat}
    (h : ∀ e ∈ es, e.1 ≠ j) (v : α) : applyAll (updsAt j es) v = v := by
  unfold updsAt
  rw [List.filter_eq_nil_iff.2 (by intro x hx; simpa using h x hx)]; rfl

/-! ### Accumulation -/

section
variable {R : Type _} [AddCommMonoid R]

/-- `element += v` for a list of elements and values. -/
def adds (es : List (Nat × R)) : List (Nat × (R → R)) := es.map (fun e => (e.1, (· + e.2)))

/-- The sum of the values addressed to `j`. -/
def sumAt (j : Nat) (es : List (Nat × R)) : R := ((es.filter (fun e => e.1 = j)).map (·.2)).sum

theorem sumAt_append (j : Nat) (es fs : List (Nat × R)) :
    sumAt j (es ++ fs) = sumAt j es + sumAt j fs := by simp [sumAt]

@[simp] theorem sumAt_nil (j : Nat) : sumAt j ([] : List (Nat × R)) = 0 := rfl

theorem sumAt_singleton (j i : Nat) (v : R) : sumAt j [(i, v)] = if i = j then v else 0 := by
  unfold sumAt
  by_cases h : i = j <;> simp [h]

theorem sumAt_flatMap_range (j n : Nat) (L : Nat → List (Nat × R)) :
    sumAt j ((List.range n).flatMap L) = ∑ i ∈ Finset.range n, sumAt j (L i) := by
  induction n with
  | zero => rfl
  | succ n ih =>
    rw [List.range_succ, List.flatMap_append, sumAt_append, ih, Finset.sum_range_succ]
    simp

theorem adds_append (es fs : List (Nat × R)) : adds (es ++ fs) = adds es ++ adds fs := by
  simp [adds]

theorem adds_flatMap {β : Type _} (l : List β) (L : β → List (Nat × R)) :
    adds (l.flatMap L) = l.flatMap (fun b => adds (L b)) := by
  induction l with
  | nil => rfl
  | cons b l ih => simp [List.flatMap_cons, adds_append, ih]

theorem applyAll_adds (j : Nat) (es : List (Nat × R)) (v : R) :
    applyAll (updsAt j (adds es)) v = v + sumAt j es := by
  induction es generalizing v with
  | nil => show v = v + 0; simp
  | cons e es ih =>
    obtain ⟨i, w⟩ := e
    by_cases h : i = j
    · have := ih (v + w)
      simp only [updsAt, adds, applyAll, sumAt, h] at this ⊢
      simp only [List.map_cons, decide_true, List.filter_cons_of_pos, List.foldl_cons,
        List.sum_cons]
      rw [this, add_assoc]
    · have := ih v
      simp only [updsAt, adds, applyAll, sumAt] at this ⊢
      simp only [List.map_cons]
      rw [List.filter_cons_of_neg (by simpa using h), List.filter_cons_of_neg (by simpa using h)]
      exact this

/-- Effect of a sequence of in-range accumulations. -/
theorem adds_spec {es : List (Nat × R)} {t : Tensor R} (hb : ∀ e ∈ es, e.1 < t.data.length) :
    ∃ u, t.mods (adds es) = some u ∧ Sh t u ∧ u.data.length = t.data.length ∧
      ∀ j, u.data[j]? = t.data[j]?.map (· + sumAt j es) := by
  obtain ⟨u, h1, h2, h3, h4⟩ := mods_spec (es := adds es) (t := t) (by
    intro e he
    obtain ⟨e', he', rfl⟩ := List.mem_map.1 he
    exact hb e' he')
  refine ⟨u, h1, h2, h3, fun j => ?_⟩
  rw [h4 j]
  congr 1
  funext v
  exact applyAll_adds j es v

end

/-- Value at a coordinate; only meaningful in range (used in specifications, where the
coordinate is in range, and for sums). -/
def val [Zero α] (t : Tensor α) (x y m s : Nat) : α := t.data.getD (t.offset x y m s) 0

theorem get_eq_val [Zero α] {t : Tensor α} (hw : t.WF) {x y m s : Nat} (h : t.InRange x y m s) :
    t.get x y m s = some (t.val x y m s) := by
  unfold get val
  exact rd_getD 0 (by rw [hw]; exact offset_lt t h)

theorem val_of_get [Zero α] {t : Tensor α} {x y m s : Nat} {v : α} (h : t.get x y m s = some v) :
    t.val x y m s = v := by
  unfold get rd at h
  unfold val
  rw [List.getD_eq_getElem?_getD, h]; rfl

end Tensor
end CN24

namespace CN24

/-- Only one iteration contributes. -/
theorem flatMap_range_single {β : Type _} {n i0 : Nat} (L : Nat → List β) (hi : i0 < n)
    (h : ∀ i, i < n → i ≠ i0 → L i = []) : (List.range n).flatMap L = L i0 := by
  induction n with
  | zero => omega
  | succ n ih =>
    rw [List.range_succ, List.flatMap_append]
    by_cases hn : i0 = n
    · subst hn
      have : (List.range i0).flatMap L = [] := by
        rw [List.flatMap_eq_nil_iff]
        intro i hi'
        have := List.mem_range.1 hi'
        exact h i (by omega) (by omega)
      simp [this]
    · rw [ih (by omega) (fun i hi' => h i (by omega))]
      simp [h n (by omega) (Ne.symm hn)]

theorem flatMap_range_nil {β : Type _} {n : Nat} (L : Nat → List β)
    (h : ∀ i, i < n → L i = []) : (List.range n).flatMap L = [] := by
  rw [List.flatMap_eq_nil_iff]
  intro i hi
  exact h i (List.mem_range.1 hi)

theorem updsAt_singleton {α : Type _} (j i : Nat) (f : α → α) :
    updsAt j [(i, f)] = if i = j then [f] else [] := by
  unfold updsAt
  by_cases h : i = j <;> simp [h]

/-- A loop that adds up values. -/
theorem forLoop_sum {R : Type _} [AddCommMonoid R] {n : Nat} {f : Nat → R → Option R} {g : Nat → R}
    (h : ∀ k s, k < n → f k s = some (s + g k)) (s : R) :
    forLoop n f s = some (s + ∑ k ∈ Finset.range n, g k) := by
  induction n with
  | zero => simp
  | succ n ih =>
    rw [forLoop_succ, ih (fun k s hk => h k s (by omega)), Option.bind_some, h n _ (by omega),
      Finset.sum_range_succ, add_assoc]

namespace Tensor
variable {α : Type _}

theorem rd_bind_putElem (t : Tensor α) (i : Nat) (g : α → α) :
    (rd t.data i).bind (fun c => t.putElem i (g c)) = t.updElem i g := by
  unfold putElem updElem upd wr
  by_cases h : i < t.data.length
  · simp [rd, h]
  · simp [rd, h]

theorem putElem_eq_updElem (t : Tensor α) (i : Nat) (v : α) :
    t.putElem i v = t.updElem i (fun _ => v) := by
  rw [putElem_eq_mods, updElem_eq_mods]

/-- Writes indexed by an arbitrary type: addresses in range, and equal addresses get equal
values. -/
theorem puts_indexed {ι : Type _} {t : Tensor α} {es : List (Nat × α)} (P : ι → Prop)
    (idx : ι → Nat) (v : ι → α)
    (hes : ∀ i w, (i, w) ∈ es ↔ ∃ k, P k ∧ i = idx k ∧ w = v k)
    (hin : ∀ k, P k → idx k < t.data.length)
    (hinj : ∀ k k', P k → P k' → idx k = idx k' → v k = v k') :
    ∃ u, t.puts es = some u ∧ Sh t u ∧ u.data.length = t.data.length ∧
      (∀ k, P k → u.data[idx k]? = some (v k)) ∧
      (∀ j, (∀ k, P k → idx k ≠ j) → u.data[j]? = t.data[j]?) := by
  obtain ⟨u, h1, h2, h3, h4, h5⟩ := puts_spec (es := es) (t := t) (by
    rintro ⟨i, w⟩ he
    obtain ⟨k, hk, rfl, _⟩ := (hes i w).1 he
    exact hin k hk)
  refine ⟨u, h1, h2, h3, ?_, ?_⟩
  · intro k hk
    refine h5 _ _ ((hes _ _).2 ⟨k, hk, rfl, rfl⟩) ?_
    intro w hw
    obtain ⟨k', hk', e, rfl⟩ := (hes _ _).1 hw
    exact (hinj k k' hk hk' e).symm
  · intro j hj
    refine h4 j ?_
    intro w hw
    obtain ⟨k, hk, rfl, _⟩ := (hes _ _).1 hw
    exact hj k hk rfl

end Tensor
end CN24

namespace CN24

/-! ### Sums over elements -/

theorem sum_range_mul {R : Type _} [AddCommMonoid R] (a b : Nat) (f : Nat → R) :
    ∑ j ∈ Finset.range (a * b), f j =
      ∑ i ∈ Finset.range a, ∑ k ∈ Finset.range b, f (i * b + k) := by
  induction a with
  | zero => simp
  | succ a ih =>
    rw [Finset.sum_range_succ, ← ih, Nat.succ_mul, Finset.sum_range_add]

/-- Scalar product of a list of addressed values with a vector. -/
def pairSum {R : Type _} [CommRing R] (x : Nat → R) (es : List (Nat × R)) : R :=
  (es.map (fun e => x e.1 * e.2)).sum

theorem pairSum_append {R : Type _} [CommRing R] (x : Nat → R) (es fs : List (Nat × R)) :
    pairSum x (es ++ fs) = pairSum x es + pairSum x fs := by simp [pairSum]

theorem pairSum_flatMap_range {R : Type _} [CommRing R] (x : Nat → R) (n : Nat)
    (L : Nat → List (Nat × R)) :
    pairSum x ((List.range n).flatMap L) = ∑ i ∈ Finset.range n, pairSum x (L i) := by
  induction n with
  | zero => rfl
  | succ n ih =>
    rw [List.range_succ, List.flatMap_append, pairSum_append, ih, Finset.sum_range_succ]
    simp

theorem sum_mul_sumAt {R : Type _} [CommRing R] (x : Nat → R) (n : Nat) (es : List (Nat × R))
    (h : ∀ e ∈ es, e.1 < n) :
    ∑ j ∈ Finset.range n, x j * Tensor.sumAt j es = pairSum x es := by
  induction es with
  | nil => simp [pairSum]
  | cons e es ih =>
    obtain ⟨i, v⟩ := e
    have ih' := ih (fun e he => h e (by simp [he]))
    have hi : i < n := h (i, v) (by simp)
    have e1 : ∀ j, Tensor.sumAt j ((i, v) :: es) = (if i = j then v else 0) + Tensor.sumAt j es := by
      intro j
      rw [← Tensor.sumAt_singleton, ← Tensor.sumAt_append]; rfl
    simp only [e1, mul_add, Finset.sum_add_distrib, ih']
    have : pairSum x ((i, v) :: es) = x i * v + pairSum x es := by simp [pairSum]
    rw [this]
    congr 1
    rw [Finset.sum_eq_single i]
    · simp
    · intro j _ hj
      simp [Ne.symm hj]
    · intro hn
      simp [hi] at hn

namespace Tensor
variable {α : Type _}

theorem ite_puts {t : Tensor α} {c : Prop} [Decidable c] {f g : Option (Tensor α)}
    {es : List (Nat × α)} (hf : c → f = t.puts es) (hg : ¬ c → g = t.puts es) :
    (if c then f else g) = t.puts es := by
  split
  · rename_i h; exact hf h
  · rename_i h; exact hg h

/-- Sum over all elements as a sum over all coordinates. -/
theorem sum_elements {R : Type _} [AddCommMonoid R] (t : Tensor α) (f : Nat → R) :
    ∑ j ∈ Finset.range t.elements, f j =
      ∑ s ∈ Finset.range t.samples, ∑ m ∈ Finset.range t.maps, ∑ y ∈ Finset.range t.height,
        ∑ x ∈ Finset.range t.width, f (t.offset x y m s) := by
  rw [elements_eq, sum_range_mul, sum_range_mul, sum_range_mul]
  refine Finset.sum_congr rfl fun s _ => Finset.sum_congr rfl fun m _ =>
    Finset.sum_congr rfl fun y _ => Finset.sum_congr rfl fun x _ => ?_
  rw [offset_eq]

/-- Scalar product of two tensors of one shape, over all coordinates. -/
def dot {R : Type _} [CommRing R] (t u : Tensor R) : R :=
  ∑ s ∈ Finset.range t.samples, ∑ m ∈ Finset.range t.maps, ∑ y ∈ Finset.range t.height,
    ∑ x ∈ Finset.range t.width, t.val x y m s * u.val x y m s

theorem dot_eq {R : Type _} [CommRing R] {t u : Tensor R} (h : Sh t u) :
    dot t u = ∑ j ∈ Finset.range t.elements, t.data.getD j 0 * u.data.getD j 0 := by
  rw [sum_elements]
  unfold dot val
  simp only [h.offset]

end Tensor
end CN24

namespace CN24.Tensor
theorem mods_length {α : Type _} {es : List (Nat × (α → α))} {t u : Tensor α}
    (h : t.mods es = some u) : u.data.length = t.data.length := by
  by_cases hb : ∀ e ∈ es, e.1 < t.data.length
  · obtain ⟨v, h1, _, h3, _⟩ := mods_spec hb
    rw [h] at h1
    injection h1 with h1
    rw [h1]; exact h3
  · rw [mods_none] at h
    · cases h
    · apply Classical.byContradiction
      intro hn
      apply hb
      intro e he
      apply Classical.byContradiction
      intro hl
      exact hn ⟨e, he, by omega⟩
end CN24.Tensor
