import Verif.Model.Lrn
import Verif.Proof.TensorMath
import Verif.Base.Writes
import Verif.Base.Nest
import Mathlib.Algebra.BigOperators.Group.Finset.Basic

namespace CN24

/-- A loop over a list. -/
def forList {ι σ : Type _} : List ι → (ι → σ → Option σ) → σ → Option σ
  | [], _, s => some s
  | a :: l, f, s => (f a s).bind (forList l f)

theorem forList_append {ι σ : Type _} (l k : List ι) (f : ι → σ → Option σ) (s : σ) :
    forList (l ++ k) f s = (forList l f s).bind (forList k f) := by
  induction l generalizing s with
  | nil => rfl
  | cons a l ih =>
    show (f a s).bind (forList (l ++ k) f) = ((f a s).bind (forList l f)).bind _
    rw [Option.bind_assoc]
    congr 1
    funext t
    exact ih t

theorem forLoop_eq_forList {σ : Type _} (n : Nat) (f : Nat → σ → Option σ) (s : σ) :
    forLoop n f s = forList (List.range n) f s := by
  induction n with
  | zero => rfl
  | succ n ih =>
    rw [forLoop_succ, ih, List.range_succ, forList_append]
    congr 1
    funext t
    show f n t = (f n t).bind some
    simp

theorem forList_map {ι κ σ : Type _} (l : List κ) (g : κ → ι) (f : ι → σ → Option σ) (s : σ) :
    forList (l.map g) f s = forList l (fun k => f (g k)) s := by
  induction l generalizing s with
  | nil => rfl
  | cons a l ih =>
    show (f (g a) s).bind _ = (f (g a) s).bind _
    congr 1
    funext t
    exact ih t

theorem forList_flatMap {ι κ σ : Type _} (l : List κ) (g : κ → List ι) (f : ι → σ → Option σ) (s : σ) :
    forList (l.flatMap g) f s = forList l (fun k => forList (g k) f) s := by
  induction l generalizing s with
  | nil => rfl
  | cons a l ih =>
    rw [List.flatMap_cons, forList_append]
    show (forList (g a) f s).bind _ = (forList (g a) f s).bind _
    congr 1
    funext t
    exact ih t

theorem forList_inv {ι σ : Type _} {l : List ι} {f : ι → σ → Option σ} {s : σ}
    (P : List ι → σ → Prop) (h0 : P [] s)
    (hs : ∀ k a s, k ++ [a] <+: l → P k s → ∃ s', f a s = some s' ∧ P (k ++ [a]) s') :
    ∃ s', forList l f s = some s' ∧ P l s' := by
  suffices H : ∀ (l2 k : List ι) (s : σ), k ++ l2 = l → P k s →
      ∃ s', forList l2 f s = some s' ∧ P l s' by exact H l [] s rfl h0
  intro l2
  induction l2 with
  | nil =>
    intro k s hk hp
    rw [List.append_nil] at hk
    exact ⟨s, rfl, hk ▸ hp⟩
  | cons a l2 ih =>
    intro k s hk hp
    obtain ⟨s1, e1, p1⟩ := hs k a s ⟨l2, by rw [← hk, List.append_assoc]; rfl⟩ hp
    obtain ⟨s2, e2, p2⟩ := ih (k ++ [a]) s1 (by rw [← hk, List.append_assoc]; rfl) p1
    refine ⟨s2, ?_, p2⟩
    show (f a s).bind _ = _
    rw [e1, Option.bind_some, e2]

/-- A loop whose iterations are update sequences is one update sequence. -/
theorem forList_mods {ι α : Type _} {t0 t : Tensor α} {l : List ι} {f : ι → Tensor α → Option (Tensor α)}
    (L : ι → List (Nat × (α → α))) (ht : Tensor.Sh t0 t)
    (h : ∀ i u, i ∈ l → Tensor.Sh t0 u → f i u = u.mods (L i)) :
    forList l f t = t.mods (l.flatMap L) := by
  suffices H : ∀ (l : List ι) (es : List (Nat × (α → α))),
      (∀ i u, i ∈ l → Tensor.Sh t0 u → f i u = u.mods (L i)) →
      (t.mods es).bind (forList l f) = t.mods (es ++ l.flatMap L) by
    have := H l [] h
    simpa using this
  intro l
  induction l with
  | nil =>
    intro es _
    rw [List.flatMap_nil, List.append_nil]
    show (t.mods es).bind some = _
    simp
  | cons a l ih =>
    intro es h
    have h1 : (t.mods es).bind (f a) = t.mods (es ++ L a) :=
      Tensor.mods_bind fun u hu => h a u List.mem_cons_self (ht.trans hu)
    rw [List.flatMap_cons, ← List.append_assoc,
      ← ih (es ++ L a) (fun i u hi => h i u (List.mem_cons_of_mem _ hi)), ← h1, Option.bind_assoc]
    rfl

namespace Lrn
open CN24 Tensor TensorMath
variable {R : Type _}

/-- The window as a list. -/
def windowList (size n j : Nat) : List Nat :=
  (List.range (min n (j + add size + 1) - (j - sub size))).map fun i => j - sub size + i

theorem mem_windowList {size n j i : Nat} :
    i ∈ windowList size n j ↔ i < n ∧ j ≤ i + sub size ∧ i ≤ j + add size := by
  unfold windowList
  rw [List.mem_map]
  constructor
  · rintro ⟨k, hk, rfl⟩
    rw [List.mem_range] at hk
    omega
  · intro h
    exact ⟨i - (j - sub size), by rw [List.mem_range]; omega, by omega⟩

theorem nodup_windowList (size n j : Nat) : (windowList size n j).Nodup := by
  unfold windowList
  rw [List.nodup_iff_getElem?_ne_getElem?]
  intro a b hab hb he
  rw [List.length_map, List.length_range] at hb
  rw [List.getElem?_map, List.getElem?_map, List.getElem?_range (by omega), List.getElem?_range hb] at he
  simp only [Option.map_some, Option.some.injEq] at he
  omega

theorem overWindow_eq {σ : Type _} (size n j : Nat) (f : Nat → σ → Option σ) (s : σ) :
    overWindow size n j f s = forList (windowList size n j) f s := by
  unfold overWindow forRange windowList
  rw [forLoop_eq_forList, forList_map]

/-- The window of an output element as a list of (column, row, map). -/
def regionList (c : Config R) (input : Tensor R) (x y m : Nat) : List (Nat × Nat × Nat) :=
  match c.method with
  | .withinChannels => (windowList c.size input.height y).flatMap fun iy =>
      (windowList c.size input.width x).map fun ix => (ix, iy, m)
  | .acrossChannels => (windowList c.size input.maps m).map fun im => (x, y, im)

theorem overRegion_eq {σ : Type _} (c : Config R) (input : Tensor R) (x y m : Nat)
    (f : Nat → Nat → Nat → σ → Option σ) (s : σ) :
    overRegion c input x y m f s =
      forList (regionList c input x y m) (fun p => f p.1 p.2.1 p.2.2) s := by
  unfold overRegion regionList
  cases c.method with
  | acrossChannels =>
    dsimp only
    rw [overWindow_eq, forList_map]
  | withinChannels =>
    dsimp only
    rw [overWindow_eq, forList_flatMap]
    congr 1
    funext iy s
    rw [overWindow_eq, forList_map]

theorem mem_regionList {c : Config R} {input : Tensor R} {x y m : Nat} {p : Nat × Nat × Nat} :
    p ∈ regionList c input x y m ↔ match c.method with
      | .withinChannels => p.1 ∈ windowList c.size input.width x ∧
          p.2.1 ∈ windowList c.size input.height y ∧ p.2.2 = m
      | .acrossChannels => p.1 = x ∧ p.2.1 = y ∧ p.2.2 ∈ windowList c.size input.maps m := by
  obtain ⟨a, b, d⟩ := p
  unfold regionList
  cases c.method with
  | acrossChannels =>
    simp only [List.mem_map, Prod.mk.injEq]
    constructor
    · rintro ⟨i, hi, rfl, rfl, rfl⟩; exact ⟨rfl, rfl, hi⟩
    · rintro ⟨rfl, rfl, h⟩; exact ⟨d, h, rfl, rfl, rfl⟩
  | withinChannels =>
    simp only [List.mem_flatMap, List.mem_map, Prod.mk.injEq]
    constructor
    · rintro ⟨i, hi, j, hj, rfl, rfl, rfl⟩; exact ⟨hj, hi, rfl⟩
    · rintro ⟨h1, h2, rfl⟩; exact ⟨b, h2, a, h1, rfl, rfl, rfl⟩

theorem nodup_map_of_inj {α β : Type _} {l : List α} (h : l.Nodup) {f : α → β}
    (hf : ∀ a b, f a = f b → a = b) : (l.map f).Nodup := by
  induction l with
  | nil => simp
  | cons a l ih =>
    rw [List.nodup_cons] at h
    rw [List.map_cons, List.nodup_cons]
    refine ⟨?_, ih h.2⟩
    intro hm
    obtain ⟨b, hb, he⟩ := List.mem_map.1 hm
    exact h.1 (hf _ _ he ▸ hb)

theorem nodup_regionList (c : Config R) (input : Tensor R) (x y m : Nat) :
    (regionList c input x y m).Nodup := by
  unfold regionList
  cases c.method with
  | acrossChannels =>
    exact nodup_map_of_inj (nodup_windowList _ _ _) (by intro a b h; simpa using h)
  | withinChannels =>
    dsimp only
    generalize hl : windowList c.size input.height y = l
    have hn : l.Nodup := hl ▸ nodup_windowList _ _ _
    clear hl
    induction l with
    | nil => simp
    | cons a l ih =>
      rw [List.nodup_cons] at hn
      rw [List.flatMap_cons, List.nodup_append]
      refine ⟨nodup_map_of_inj (nodup_windowList _ _ _) (by intro a b h; simpa using h), ih hn.2, ?_⟩
      rintro p hp q hq rfl
      obtain ⟨i, _, rfl⟩ := List.mem_map.1 hp
      obtain ⟨b, hb, hq⟩ := List.mem_flatMap.1 hq
      obtain ⟨j, _, he⟩ := List.mem_map.1 hq
      simp only [Prod.mk.injEq, and_true] at he
      exact hn.1 (he.2 ▸ hb)

/-- The window of an output element. -/
def regionSet (c : Config R) (input : Tensor R) (x y m : Nat) : Finset (Nat × Nat × Nat) :=
  (regionList c input x y m).toFinset

theorem regionList_inRange {c : Config R} {input : Tensor R} {x y m s : Nat} {p : Nat × Nat × Nat}
    (hin : input.InRange x y m s) (hp : p ∈ regionList c input x y m) :
    input.InRange p.1 p.2.1 p.2.2 s := by
  rw [mem_regionList] at hp
  obtain ⟨h1, h2, h3, h4⟩ := hin
  cases hm : c.method with
  | acrossChannels =>
    rw [hm] at hp
    obtain ⟨e1, e2, e3⟩ := hp
    exact ⟨by omega, by omega, (mem_windowList.1 e3).1, h4⟩
  | withinChannels =>
    rw [hm] at hp
    obtain ⟨e1, e2, e3⟩ := hp
    exact ⟨(mem_windowList.1 e1).1, (mem_windowList.1 e2).1, by omega, h4⟩

section
variable [Field R]

/-- The mean square of the window, before division: sum of squares. -/
def regionSum (c : Config R) (input : Tensor R) (x y m s : Nat) : R :=
  ∑ p ∈ regionSet c input x y m, input.val p.1 p.2.1 p.2.2 s * input.val p.1 p.2.1 p.2.2 s

theorem forList_sum {ι : Type _} {l : List ι} {f : ι → R × Nat → Option (R × Nat)} {g : ι → R}
    (h : ∀ i s, i ∈ l → f i s = some (s.1 + g i, s.2 + 1)) (s : R × Nat) :
    forList l f s = some (s.1 + (l.map g).sum, s.2 + l.length) := by
  induction l generalizing s with
  | nil => simp [forList]
  | cons a l ih =>
    show (f a s).bind _ = _
    rw [h a s List.mem_cons_self, Option.bind_some, ih (fun i s hi => h i s (List.mem_cons_of_mem _ hi))]
    simp only [List.map_cons, List.sum_cons, List.length_cons, Option.some.injEq, Prod.mk.injEq]
    exact ⟨by rw [add_assoc], by omega⟩

theorem region_eq {c : Config R} {input : Tensor R} (hi : input.WF) {x y m s : Nat}
    (hin : input.InRange x y m s) :
    region c input x y m s =
      some (regionSum c input x y m s, (regionSet c input x y m).card) := by
  unfold region
  rw [overRegion_eq, forList_sum (g := fun p => input.val p.1 p.2.1 p.2.2 s * input.val p.1 p.2.1 p.2.2 s)]
  · rw [zero_add, Nat.zero_add]
    unfold regionSum regionSet
    rw [List.sum_toFinset _ (nodup_regionList _ _ _ _ _),
      List.toFinset_card_of_nodup (nodup_regionList _ _ _ _ _)]
  · intro p st hp
    rw [get_eq_val hi (regionList_inRange hin hp)]
    rfl

theorem regionSize_eq (c : Config R) (input : Tensor R) (x y m : Nat) :
    regionSize c input x y m = some (regionSet c input x y m).card := by
  unfold regionSize
  rw [overRegion_eq]
  unfold regionSet
  rw [List.toFinset_card_of_nodup (nodup_regionList _ _ _ _ _)]
  suffices H : ∀ (l : List (Nat × Nat × Nat)) (n : Nat),
      forList l (fun _ n => some (n + 1)) n = some (n + l.length) by
    have := H (regionList c input x y m) 0
    rw [Nat.zero_add] at this
    exact this
  intro l
  induction l with
  | nil => intro n; rfl
  | cons a l ih =>
    intro n
    show (some (n + 1)).bind _ = _
    rw [Option.bind_some, ih, List.length_cons]
    congr 1
    omega

/-- The value the forward pass writes. -/
def outValue (pow : R → R → R) (c : Config R) (input : Tensor R) (x y m s : Nat) : R :=
  input.val x y m s /
    pow (base c (regionSet c input x y m).card (regionSum c input x y m s)) c.beta

theorem nest_columns {α : Type _} {t : Tensor α} (ht : t.WF) {n : Nat} (hn : n ≤ t.width)
    (v : Nat → Nat → Nat → Nat → α) :
    ∃ u, forLoop t.samples (fun s => forLoop t.maps fun m => forLoop t.height fun y =>
        forLoop n fun x u => u.put x y m s (v x y m s)) t = some u ∧
      Upd t u (fun x y m s => if x < n then some (v x y m s) else none) := by
  refine upd_loop ht (fun s' x y m s => if x < n ∧ s = s' then some (v x y m s) else none) _ ?_ ?_ ?_
  · intro s u hs hu hwu
    rw [show t.maps = u.maps from hu.2.2.2]
    refine upd_loop hwu (fun m' x y m s' => if x < n ∧ s' = s ∧ m = m' then some (v x y m s') else none)
      _ ?_ ?_ ?_
    · intro m u1 hm hu1 hwu1
      rw [show t.height = u1.height from (hu.trans hu1).2.2.1]
      refine upd_loop hwu1 (fun y' x y m' s' => if x < n ∧ s' = s ∧ m' = m ∧ y = y' then
        some (v x y m' s') else none) _ ?_ ?_ ?_
      · intro y u2 hy hu2 hwu2
        refine upd_loop hwu2 (fun x' x y' m' s' => if x = x' ∧ y' = y ∧ m' = m ∧ s' = s then
          some (v x' y m s) else none) _ ?_ ?_ ?_
        · intro x u3 hx hu3 hwu3
          have hsh : Sh t u3 := ((hu.trans hu1).trans hu2).trans hu3
          refine upd_put hwu3 (hsh.inRange.2 ⟨by omega, ?_, ?_, hs⟩) _
          · rw [(hu.trans hu1).2.2.1]; exact hy
          · rw [hu.2.2.2]; exact hm
        · intro x' x y' m' s' w hx' _ h
          split at h
          · rename_i hc
            obtain ⟨rfl, rfl, rfl, rfl⟩ := hc
            rw [if_pos ⟨hx', rfl, rfl, rfl⟩]
            exact h
          · cases h
        · intro x y' m' s' w _ h
          split at h
          · rename_i hc
            obtain ⟨hx, rfl, rfl, rfl⟩ := hc
            exact ⟨x, hx, by rw [if_pos ⟨rfl, rfl, rfl, rfl⟩]; exact h⟩
          · cases h
      · intro y' x y m' s' w _ _ h
        split at h
        · rename_i hc; rw [if_pos ⟨hc.1, hc.2.1, hc.2.2.1⟩]; exact h
        · cases h
      · intro x y m' s' w hin h
        split at h
        · rename_i hc
          exact ⟨y, hin.2.1, by rw [if_pos ⟨hc.1, hc.2.1, hc.2.2, rfl⟩]; exact h⟩
        · cases h
    · intro m' x y m s' w _ _ h
      split at h
      · rename_i hc; rw [if_pos ⟨hc.1, hc.2.1⟩]; exact h
      · cases h
    · intro x y m s' w hin h
      split at h
      · rename_i hc
        exact ⟨m, hin.2.2.1, by rw [if_pos ⟨hc.1, hc.2, rfl⟩]; exact h⟩
      · cases h
  · intro s' x y m s w _ _ h
    split at h
    · rename_i hc; rw [if_pos hc.1]; exact h
    · cases h
  · intro x y m s w hin h
    split at h
    · rename_i hc
      exact ⟨s, hin.2.2.2, by rw [if_pos ⟨hc, rfl⟩]; exact h⟩
    · cases h

theorem forward_spec (pow : R → R → R) (c : Config R) {input sums output : Tensor R} (hi : input.WF)
    (hs : sums.WF) (ho : output.WF) (s1 : Sh input sums) (s2 : Sh input output)
    (hle : input.height ≤ input.width) :
    ∃ sums' output', forward pow c input (sums, output) = some (sums', output') ∧
      Upd sums sums' (fun x y m s => if x < input.height then
        some (regionSum c input x y m s) else none) ∧
      Upd output output' (fun x y m s => if x < input.height then
        some (outValue pow c input x y m s) else none) := by
  have key : forward pow c input (sums, output) =
      both (forLoop input.samples (fun s => forLoop input.maps fun m => forLoop input.height fun y =>
          forLoop input.height fun x u => u.put x y m s (regionSum c input x y m s)) sums)
        (forLoop input.samples (fun s => forLoop input.maps fun m => forLoop input.height fun y =>
          forLoop input.height fun x u => u.put x y m s (outValue pow c input x y m s)) output) := by
    unfold forward
    refine forLoop_both (fun s a b hsl => ?_) _ _
    refine forLoop_both (fun m a b hm => ?_) _ _
    refine forLoop_both (fun y a b hy => ?_) _ _
    refine forLoop_both (fun x a b hx => ?_) _ _
    have hin : input.InRange x y m s := ⟨by omega, hy, hm, hsl⟩
    unfold forwardStep
    rw [region_eq hi hin, Option.bind_some, get_eq_val hi hin]
    dsimp only
    unfold both outValue
    congr 1
  obtain ⟨a, e1, h1⟩ := nest_columns hs (n := input.height) (by rw [← s1.2.1]; exact hle)
    (fun x y m s => regionSum c input x y m s)
  obtain ⟨b, e2, h2⟩ := nest_columns ho (n := input.height) (by rw [← s2.2.1]; exact hle)
    (fun x y m s => outValue pow c input x y m s)
  rw [← s1.1, ← s1.2.2.1, ← s1.2.2.2] at e1
  rw [← s2.1, ← s2.2.2.1, ← s2.2.2.2] at e2
  exact ⟨a, b, by rw [key, e1, e2]; rfl, h1, h2⟩

/-- On a tall image the last column index lies behind the buffer. -/
theorem forward_tall (pow : R → R → R) (c : Config R) {input : Tensor R} (hi : input.WF)
    (st : Tensor R × Tensor R) (h1 : 0 < input.samples) (h2 : 0 < input.maps)
    (hlt : input.width < input.height) : forward pow c input st = none := by
  have last : ∀ {σ : Type _} {n : Nat} {f : Nat → σ → Option σ} {s t : σ}, 0 < n →
      forLoop n f s = some t → ∃ s', f (n - 1) s' = some t := by
    intro σ n f s t hn h
    obtain ⟨n, rfl⟩ : ∃ k, n = k + 1 := ⟨n - 1, by omega⟩
    rw [forLoop_succ, Option.bind_eq_some_iff] at h
    obtain ⟨s', _, h⟩ := h
    exact ⟨s', h⟩
  cases hf : forward pow c input st with
  | none => rfl
  | some t =>
    exfalso
    unfold forward at hf
    obtain ⟨a1, h⟩ := last h1 hf
    obtain ⟨a2, h⟩ := last h2 h
    obtain ⟨a3, h⟩ := last (by omega) h
    obtain ⟨a4, h⟩ := last (by omega) h
    unfold forwardStep at h
    simp only [Option.bind_eq_some_iff] at h
    obtain ⟨_, _, _, _, v, hv, _⟩ := h
    have hlt' : input.offset (input.height - 1) (input.height - 1) (input.maps - 1) (input.samples - 1) <
        input.elements := by
      rw [← hi]
      unfold Tensor.get rd at hv
      by_contra hc
      rw [List.getElem?_eq_none (by omega)] at hv
      cases hv
    rw [offset_eq, elements_eq] at hlt'
    obtain ⟨s, hs⟩ : ∃ k, input.samples = k + 1 := ⟨input.samples - 1, by omega⟩
    obtain ⟨m, hm⟩ : ∃ k, input.maps = k + 1 := ⟨input.maps - 1, by omega⟩
    obtain ⟨h, hh⟩ : ∃ k, input.height = k + 1 := ⟨input.height - 1, by omega⟩
    rw [hs, hm, hh] at hlt'
    rw [hh] at hlt
    simp only [Nat.add_sub_cancel] at hlt'
    have e : ((s + 1) * (m + 1)) * (h + 1) * input.width =
        ((s * (m + 1) + m) * (h + 1) + h) * input.width + input.width := by ring
    have : (s + 1) * (m + 1) * (h + 1) * input.width = ((s + 1) * (m + 1)) * (h + 1) * input.width := rfl
    omega

/-! ### Backward -/

/-- The additions of one output element. -/
def stepAdds (pow : R → R → R) (c : Config R) (input sums outputDelta : Tensor R) (s m y x : Nat) :
    List (Nat × R) :=
  ((regionList c input x y m).map fun p => (input.offset p.1 p.2.1 p.2.2 s,
    -penalty pow c (regionSet c input x y m).card (sums.val x y m s) (input.val x y m s)
      (outputDelta.val x y m s) (input.val p.1 p.2.1 p.2.2 s))) ++
  [(input.offset x y m s, outputDelta.val x y m s /
    pow (base c (regionSet c input x y m).card (sums.val x y m s)) c.beta)]

theorem backwardStep_eq (pow : R → R → R) (c : Config R) {input sums outputDelta u : Tensor R}
    (hi : input.WF) (hs : sums.WF) (ho : outputDelta.WF) (s1 : Sh input sums) (s2 : Sh input outputDelta)
    (hu : Sh input u) {x y m s : Nat} (hin : input.InRange x y m s) :
    backwardStep pow c input sums outputDelta s m y x u =
      u.mods (adds (stepAdds pow c input sums outputDelta s m y x)) := by
  unfold backwardStep
  rw [get_eq_val hs (s1.inRange.2 hin), Option.bind_some, regionSize_eq, Option.bind_some,
    get_eq_val hi hin, Option.bind_some, get_eq_val ho (s2.inRange.2 hin), Option.bind_some,
    overRegion_eq]
  rw [forList_mods (t0 := input) (fun p => adds [(input.offset p.1 p.2.1 p.2.2 s,
    -penalty pow c (regionSet c input x y m).card (sums.val x y m s) (input.val x y m s)
      (outputDelta.val x y m s) (input.val p.1 p.2.1 p.2.2 s))]) hu]
  · rw [mods_bind (fs := adds [(input.offset x y m s, outputDelta.val x y m s /
      pow (base c (regionSet c input x y m).card (sums.val x y m s)) c.beta)])]
    · unfold stepAdds
      rw [adds_append]
      congr 2
      induction regionList c input x y m with
      | nil => rfl
      | cons p l ih => rw [List.flatMap_cons, List.map_cons, ih]; rfl
    · intro u' hu'
      rw [addElem_eq_mods, (hu.trans hu').offset]
  · intro p u' hp hu'
    rw [get_eq_val hi (regionList_inRange hin hp), Option.bind_some, addElem_eq_mods, hu'.offset]

/-- What one output element adds to the delta of input element (x0, y0, m0, s0). -/
def contribution (pow : R → R → R) (c : Config R) (input sums outputDelta : Tensor R)
    (x0 y0 m0 s0 s m y x : Nat) : R :=
  (if s = s0 ∧ (x0, y0, m0) ∈ regionSet c input x y m then
    -penalty pow c (regionSet c input x y m).card (sums.val x y m s) (input.val x y m s)
      (outputDelta.val x y m s) (input.val x0 y0 m0 s0) else 0) +
  (if s = s0 ∧ m = m0 ∧ y = y0 ∧ x = x0 then outputDelta.val x y m s /
    pow (base c (regionSet c input x y m).card (sums.val x y m s)) c.beta else 0)

theorem sumAt_map_of_inj {ι : Type _} [DecidableEq ι] {l : List ι} (hn : l.Nodup) {off : ι → Nat}
    {v : ι → R} {p0 : ι} {j : Nat} (h : ∀ p ∈ l, off p = j ↔ p = p0) :
    sumAt j (l.map fun p => (off p, v p)) = if p0 ∈ l then v p0 else 0 := by
  induction l with
  | nil => rfl
  | cons p l ih =>
    rw [List.nodup_cons] at hn
    have e : (p :: l).map (fun p => (off p, v p)) = [(off p, v p)] ++ l.map fun p => (off p, v p) := rfl
    rw [e, sumAt_append, sumAt_singleton, ih hn.2 (fun p hp => h p (List.mem_cons_of_mem _ hp))]
    by_cases hp : p = p0
    · subst hp
      rw [if_pos ((h p List.mem_cons_self).2 rfl), if_neg hn.1, if_pos List.mem_cons_self, add_zero]
    · rw [if_neg (fun e => hp ((h p List.mem_cons_self).1 e)), zero_add]
      by_cases hm : p0 ∈ l
      · rw [if_pos hm, if_pos (List.mem_cons_of_mem _ hm)]
      · rw [if_neg hm, if_neg]
        intro hc
        rcases List.mem_cons.1 hc with e | e
        · exact hp e.symm
        · exact hm e

theorem sumAt_none {es : List (Nat × R)} {j : Nat} (h : ∀ e ∈ es, e.1 ≠ j) : sumAt j es = 0 := by
  unfold sumAt
  rw [List.filter_eq_nil_iff.2 (by intro e he; simpa using h e he)]
  rfl

theorem sumAt_stepAdds (pow : R → R → R) (c : Config R) {input sums outputDelta : Tensor R}
    {x y m s x0 y0 m0 s0 : Nat} (hin : input.InRange x y m s) (hin0 : input.InRange x0 y0 m0 s0) :
    sumAt (input.offset x0 y0 m0 s0) (stepAdds pow c input sums outputDelta s m y x) =
      contribution pow c input sums outputDelta x0 y0 m0 s0 s m y x := by
  unfold stepAdds contribution
  rw [sumAt_append, sumAt_singleton]
  congr 1
  · by_cases hs : s = s0
    · subst hs
      rw [sumAt_map_of_inj (nodup_regionList _ _ _ _ _) (p0 := (x0, y0, m0))]
      · unfold regionSet
        simp only [List.mem_toFinset, true_and]
      · rintro ⟨a, b, d⟩ hp
        constructor
        · intro he
          obtain ⟨e1, e2, e3, _⟩ := offset_inj input (regionList_inRange hin hp) hin0 he
          simp only at e1 e2 e3
          rw [e1, e2, e3]
        · intro he
          simp only [Prod.mk.injEq] at he
          obtain ⟨rfl, rfl, rfl⟩ := he
          rfl
    · rw [if_neg (fun h => hs h.1), sumAt_none]
      intro e he
      obtain ⟨p, hp, rfl⟩ := List.mem_map.1 he
      intro hc
      exact hs (offset_inj input (regionList_inRange hin hp) hin0 hc).2.2.2
  · by_cases hc : s = s0 ∧ m = m0 ∧ y = y0 ∧ x = x0
    · obtain ⟨rfl, rfl, rfl, rfl⟩ := hc
      simp
    · rw [if_neg hc, if_neg]
      intro he
      obtain ⟨e1, e2, e3, e4⟩ := offset_inj input hin hin0 he
      exact hc ⟨e4, e3, e2, e1⟩

theorem backward_spec (pow : R → R → R) (c : Config R) {input sums outputDelta delta : Tensor R}
    (hi : input.WF) (hs : sums.WF) (ho : outputDelta.WF) (hd : delta.WF) (s1 : Sh input sums)
    (s2 : Sh input outputDelta) (s3 : Sh input delta) (hle : input.height ≤ input.width) :
    ∃ u, backward pow c input sums outputDelta delta = some u ∧ Sh delta u ∧ u.WF ∧
      ∀ x0 y0 m0 s0, input.InRange x0 y0 m0 s0 → u.get x0 y0 m0 s0 = some
        (∑ s ∈ Finset.range input.samples, ∑ m ∈ Finset.range input.maps,
          ∑ y ∈ Finset.range input.height, ∑ x ∈ Finset.range input.height,
            contribution pow c input sums outputDelta x0 y0 m0 s0 s m y x) := by
  unfold backward
  rw [setSample_all hd, Option.bind_some]
  generalize hz : ({ delta with data := List.replicate delta.data.length 0 } : Tensor R) = z
  have hzs : Sh delta z := by rw [← hz]; exact ⟨rfl, rfl, rfl, rfl⟩
  have hzl : z.data = List.replicate input.elements 0 := by
    rw [← hz, ← s3.elements, ← hd]
  clear hz
  let es := (List.range input.samples).flatMap fun s => (List.range input.maps).flatMap fun m =>
    (List.range input.height).flatMap fun y => (List.range input.height).flatMap fun x =>
      stepAdds pow c input sums outputDelta s m y x
  have hes : forLoop input.samples (fun s => forLoop input.maps fun m => forLoop input.height fun y =>
      forLoop input.height fun x => backwardStep pow c input sums outputDelta s m y x) z =
      z.mods (adds es) := by
    show _ = z.mods (adds ((List.range input.samples).flatMap _))
    rw [adds_flatMap]
    refine forLoop_mods _ (s3.trans hzs) (fun s u hsl hu => ?_)
    rw [adds_flatMap]
    refine forLoop_mods _ hu (fun m u hm hu => ?_)
    rw [adds_flatMap]
    refine forLoop_mods _ hu (fun y u hy hu => ?_)
    rw [adds_flatMap]
    refine forLoop_mods _ hu (fun x u hx hu => ?_)
    exact backwardStep_eq pow c hi hs ho s1 s2 hu ⟨by omega, hy, hm, hsl⟩
  rw [hes]
  obtain ⟨u, e, hu, hl, hget⟩ := adds_spec (es := es) (t := z) (by
    intro e he
    rw [hzl, List.length_replicate]
    simp only [es, List.mem_flatMap, List.mem_range] at he
    obtain ⟨s, hsl, m, hm, y, hy, x, hx, he⟩ := he
    have hin : input.InRange x y m s := ⟨by omega, hy, hm, hsl⟩
    unfold stepAdds at he
    rcases List.mem_append.1 he with he | he
    · obtain ⟨p, hp, rfl⟩ := List.mem_map.1 he
      exact offset_lt input (regionList_inRange hin hp)
    · rw [List.mem_singleton] at he
      rw [he]
      exact offset_lt input hin)
  refine ⟨u, e, hzs.trans hu, ?_, ?_⟩
  · unfold WF
    rw [hl, hzl, List.length_replicate, ((s3.trans hzs).trans hu).elements]
  · intro x0 y0 m0 s0 hin0
    unfold Tensor.get rd
    rw [((s3.trans hzs).trans hu).offset, hget, hzl,
      List.getElem?_replicate_of_lt (offset_lt input hin0), Option.map_some, zero_add]
    congr 1
    show sumAt _ ((List.range input.samples).flatMap _) = _
    rw [sumAt_flatMap_range]
    refine Finset.sum_congr rfl fun s hsl => ?_
    rw [sumAt_flatMap_range]
    refine Finset.sum_congr rfl fun m hm => ?_
    rw [sumAt_flatMap_range]
    refine Finset.sum_congr rfl fun y hy => ?_
    rw [sumAt_flatMap_range]
    refine Finset.sum_congr rfl fun x hx => ?_
    rw [Finset.mem_range] at hsl hm hy hx
    exact sumAt_stepAdds pow c ⟨by omega, hy, hm, hsl⟩ hin0

end
end Lrn
end CN24
