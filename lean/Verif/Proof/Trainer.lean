import Verif.Model.Trainer
import Verif.Base.Kernel

namespace CN24.Trainer
open CN24

variable {R : Type _}

/-! ### Buffers of buffers -/

theorem at2_set2 {b b' : List (List R)} {i j : Nat} {v : R} (h : set2 b i j v = some b')
    (i' j' : Nat) : at2 b' i' j' = if i' = i ∧ j' = j then some v else at2 b i' j' := by
  unfold set2 at h
  simp only [Option.bind_eq_some_iff] at h
  obtain ⟨r, h1, r', h2, h3⟩ := h
  unfold wr at h2 h3
  split at h2
  · split at h3
    · rename_i hj hi
      injection h2 with h2
      injection h3 with h3
      subst h2 h3
      unfold at2 rd
      unfold rd at h1
      by_cases e : i' = i
      · subst e
        rw [List.getElem?_set_self hi, h1]
        by_cases e2 : j' = j
        · subst e2; simp [hj]
        · rw [if_neg (by simp [e2])]
          simp [List.getElem?_set, Ne.symm e2]
      · rw [if_neg (by simp [e]), List.getElem?_set_ne (Ne.symm e)]
    · cases h3
  · cases h2

theorem set2_ok {b : List (List R)} {i j : Nat} {w : R} (h : at2 b i j = some w) (v : R) :
    ∃ b', set2 b i j v = some b' := by
  unfold at2 at h
  simp only [Option.bind_eq_some_iff] at h
  obtain ⟨r, h1, h2⟩ := h
  have hi : i < b.length := by
    rcases Nat.lt_or_ge i b.length with h | h
    · exact h
    · simp [rd, h] at h1
  have hj : j < r.length := by
    rcases Nat.lt_or_ge j r.length with h | h
    · exact h
    · simp [rd, h] at h2
  exact ⟨_, by simp [set2, h1, wr, hi, hj]; rfl⟩

theorem set2_lengths {b b' : List (List R)} {i j : Nat} {v : R} (h : set2 b i j v = some b') :
    b'.map List.length = b.map List.length := by
  unfold set2 at h
  simp only [Option.bind_eq_some_iff] at h
  obtain ⟨r, h1, r', h2, h3⟩ := h
  unfold wr at h2 h3
  split at h2
  · split at h3
    · injection h2 with h2
      injection h3 with h3
      subst h2 h3
      apply List.ext_getElem?
      intro k
      rw [List.getElem?_map, List.getElem?_map, List.getElem?_set]
      split
      · rename_i e
        subst e
        unfold rd at h1
        rename_i hi
        have : b[i] = r := by simpa [hi] using h1
        simp [hi, this]
      · rfl
    · cases h3
  · cases h2

theorem at3_set3 {b b' : List (List (List R))} {i j k : Nat} {v : R} (h : set3 b i j k v = some b')
    (i' j' k' : Nat) :
    at3 b' i' j' k' = if i' = i ∧ j' = j ∧ k' = k then some v else at3 b i' j' k' := by
  unfold set3 at h
  simp only [Option.bind_eq_some_iff] at h
  obtain ⟨r, h1, r', h2, h3⟩ := h
  unfold wr at h3
  split at h3
  · rename_i hi
    injection h3 with h3
    subst h3
    unfold at3
    unfold rd at h1 ⊢
    by_cases e : i' = i
    · subst e
      rw [List.getElem?_set_self hi, h1]
      simp only [Option.bind_some, true_and]
      exact at2_set2 h2 j' k'
    · rw [if_neg (by simp [e]), List.getElem?_set_ne (Ne.symm e)]
  · cases h3

theorem set3_ok {b : List (List (List R))} {i j k : Nat} {w : R} (h : at3 b i j k = some w) (v : R) :
    ∃ b', set3 b i j k v = some b' := by
  unfold at3 at h
  simp only [Option.bind_eq_some_iff] at h
  obtain ⟨r, h1, h2⟩ := h
  obtain ⟨r', h3⟩ := set2_ok h2 v
  have hi : i < b.length := by
    rcases Nat.lt_or_ge i b.length with h | h
    · exact h
    · simp [rd, h] at h1
  exact ⟨_, by simp [set3, h1, h3, wr, hi]; rfl⟩

theorem set3_sizes {b b' : List (List (List R))} {i j k : Nat} {v : R}
    (h : set3 b i j k v = some b') : sizes b' = sizes b := by
  unfold set3 at h
  simp only [Option.bind_eq_some_iff] at h
  obtain ⟨r, h1, r', h2, h3⟩ := h
  unfold wr at h3
  split at h3
  · rename_i hi
    injection h3 with h3
    subst h3
    unfold sizes
    apply List.ext_getElem?
    intro m
    rw [List.getElem?_map, List.getElem?_map, List.getElem?_set]
    split
    · rename_i e
      subst e
      unfold rd at h1
      have : b[i] = r := by simpa [hi] using h1
      simp [hi, set2_lengths h2, this]
    · rfl
  · cases h3

/-! ### The cells visited -/

/-- The value of the running counter at the first parameter of node `l`. -/
def base (sz : List (List Nat)) (l : Nat) : Nat := ((sz.take l).map List.length).sum

/-- The cells in the order of the visit. -/
def cells (sz : List (List Nat)) : List Cell :=
  (List.range sz.length).flatMap fun l =>
    (List.range (sz.getD l []).length).flatMap fun p =>
      (List.range ((sz.getD l []).getD p 0)).map fun w => ⟨l, p, base sz l + p, w⟩

theorem base_succ {sz : List (List Nat)} {l : Nat} (h : l < sz.length) :
    base sz (l + 1) = base sz l + (sz.getD l []).length := by
  unfold base
  rw [List.take_add_one]
  simp [h]

theorem base_mono {sz : List (List Nat)} {l l' : Nat} (h : l ≤ l') : base sz l ≤ base sz l' := by
  induction l' with
  | zero => simp_all
  | succ k ih =>
    rcases Nat.lt_or_ge k l with hk | hk
    · have : l = k + 1 := by omega
      rw [this]
    · refine (ih hk).trans ?_
      rcases Nat.lt_or_ge k sz.length with hl | hl
      · rw [base_succ hl]; omega
      · unfold base
        rw [List.take_of_length_le hl, List.take_of_length_le (by omega)]

theorem mem_cells {sz : List (List Nat)} {c : Cell} : c ∈ cells sz ↔
    c.node < sz.length ∧ c.param < (sz.getD c.node []).length ∧
      c.elem < (sz.getD c.node []).getD c.param 0 ∧ c.flat = base sz c.node + c.param := by
  obtain ⟨a, b, d, e⟩ := c
  simp only [cells, List.mem_flatMap, List.mem_map, List.mem_range, Cell.mk.injEq]
  constructor
  · rintro ⟨l, h1, p, h2, w, h3, rfl, rfl, rfl, rfl⟩
    exact ⟨h1, h2, h3, rfl⟩
  · rintro ⟨h1, h2, h3, rfl⟩
    exact ⟨a, h1, b, h2, e, h3, rfl, rfl, rfl, rfl⟩

/-- The cells touch different weights and different entries of the flat buffers. -/
def Apart (c c' : Cell) : Prop :=
  ¬ (c.node = c'.node ∧ c.param = c'.param ∧ c.elem = c'.elem) ∧
  ¬ (c.flat = c'.flat ∧ c.elem = c'.elem)

theorem Apart.symm {c c' : Cell} (h : Apart c c') : Apart c' c :=
  ⟨fun e => h.1 ⟨e.1.symm, e.2.1.symm, e.2.2.symm⟩, fun e => h.2 ⟨e.1.symm, e.2.symm⟩⟩

theorem base_inj {sz : List (List Nat)} {l l' p p' : Nat} (hl : l < sz.length) (hl' : l' < sz.length)
    (hp : p < (sz.getD l []).length) (hp' : p' < (sz.getD l' []).length)
    (h : base sz l + p = base sz l' + p') : l = l' ∧ p = p' := by
  rcases Nat.lt_trichotomy l l' with e | e | e
  · have := base_mono (sz := sz) (show l + 1 ≤ l' from e)
    rw [base_succ hl] at this
    omega
  · subst e; exact ⟨rfl, by omega⟩
  · have := base_mono (sz := sz) (show l' + 1 ≤ l from e)
    rw [base_succ hl'] at this
    omega

theorem apart_of_mem {sz : List (List Nat)} {c c' : Cell} (h : c ∈ cells sz) (h' : c' ∈ cells sz)
    (hne : c ≠ c') : Apart c c' := by
  obtain ⟨a1, a2, a3, a4⟩ := mem_cells.1 h
  obtain ⟨b1, b2, b3, b4⟩ := mem_cells.1 h'
  obtain ⟨l, p, f, w⟩ := c
  obtain ⟨l', p', f', w'⟩ := c'
  dsimp only at *
  subst a4 b4
  constructor
  · rintro ⟨e1, e2, e3⟩
    dsimp only at e1 e2 e3
    subst e1 e2 e3
    exact hne rfl
  · rintro ⟨e1, e2⟩
    dsimp only at e1 e2
    obtain ⟨rfl, rfl⟩ := base_inj a1 b1 a2 b2 e1
    subst e2
    exact hne rfl

theorem cells_nodup (sz : List (List Nat)) : (cells sz).Nodup := by
  unfold cells List.Nodup
  rw [List.pairwise_flatMap]
  refine ⟨fun l _ => ?_, ?_⟩
  · rw [List.pairwise_flatMap]
    refine ⟨fun p _ => ?_, ?_⟩
    · rw [List.pairwise_map]
      exact List.Pairwise.imp (fun h e => h (by injection e)) List.nodup_range
    · refine List.Pairwise.imp ?_ (List.nodup_range)
      intro p p' h x hx y hy e
      simp only [List.mem_map, List.mem_range] at hx hy
      obtain ⟨w, _, rfl⟩ := hx
      obtain ⟨w', _, rfl⟩ := hy
      exact h (by injection e)
  · refine List.Pairwise.imp ?_ (List.nodup_range)
    intro p p' h x hx y hy e
    simp only [List.mem_flatMap, List.mem_map, List.mem_range] at hx hy
    obtain ⟨_, _, w, _, rfl⟩ := hx
    obtain ⟨_, _, w', _, rfl⟩ := hy
    exact h (by injection e)

theorem cells_apart (sz : List (List Nat)) : (cells sz).Pairwise Apart :=
  List.Pairwise.imp_of_mem (fun ha hb h => apart_of_mem ha hb h) (cells_nodup sz)

/-! ### The visit as one loop over the cells -/

theorem forLoop_map_range {σ γ : Type _} (n : Nat) (g : γ → σ → Option σ) (c : Nat → γ) (s : σ) :
    forLoop n (fun w s => g (c w) s) s = ((List.range n).map c).foldlM (fun s c => g c s) s := by
  induction n with
  | zero => rfl
  | succ n ih => rw [forLoop_succ, ih, List.range_succ, List.map_append, List.foldlM_append]; simp

theorem visit_params {σ : Type _} (f : Cell → σ → Option σ) (l : Nat) (ps : List Nat) (m : Nat)
    (hm : m ≤ ps.length) (s : σ) (d : Nat) :
    forLoop m (fun p (sd : σ × Nat) => (rd ps p).bind fun n =>
        (forLoop n (fun w s => f ⟨l, p, sd.2, w⟩ s) sd.1).map fun s => (s, sd.2 + 1)) (s, d) =
      (((List.range m).flatMap fun p => (List.range (ps.getD p 0)).map fun w =>
        (⟨l, p, d + p, w⟩ : Cell)).foldlM (fun s c => f c s) s).map fun s => (s, d + m) := by
  induction m with
  | zero => rfl
  | succ m ih =>
    rw [forLoop_succ, ih (by omega), List.range_succ, List.flatMap_append, List.foldlM_append]
    cases h : ((List.range m).flatMap fun p => (List.range (ps.getD p 0)).map fun w =>
        (⟨l, p, d + p, w⟩ : Cell)).foldlM (fun s c => f c s) s with
    | none => rfl
    | some s' =>
      simp only [Option.map_some, Option.bind_some, List.flatMap_singleton]
      rw [rd_getD 0 (by omega)]
      simp only [Option.bind_some]
      rw [forLoop_map_range _ f (fun w => ⟨l, m, d + m, w⟩)]
      rfl

theorem visit_eq {σ : Type _} (sz : List (List Nat)) (f : Cell → σ → Option σ) (s : σ) :
    visit sz f s = (cells sz).foldlM (fun s c => f c s) s := by
  have key : ∀ k, k ≤ sz.length → forLoop k (fun l (sd : σ × Nat) =>
      (rd sz l).bind fun ps =>
        forLoop ps.length (fun p sd =>
          (rd ps p).bind fun n =>
            (forLoop n (fun w s => f ⟨l, p, sd.2, w⟩ s) sd.1).map fun s => (s, sd.2 + 1)) sd)
      (s, 0) = (((List.range k).flatMap fun l =>
        (List.range (sz.getD l []).length).flatMap fun p =>
          (List.range ((sz.getD l []).getD p 0)).map fun w =>
            (⟨l, p, base sz l + p, w⟩ : Cell)).foldlM (fun s c => f c s) s).map
              fun s => (s, base sz k) := by
    intro k
    induction k with
    | zero => intro _; simp [base]
    | succ k ih =>
      intro hk
      rw [forLoop_succ, ih (by omega), List.range_succ, List.flatMap_append, List.foldlM_append]
      generalize ((List.range k).flatMap fun l =>
        (List.range (sz.getD l []).length).flatMap fun p =>
          (List.range ((sz.getD l []).getD p 0)).map fun w =>
            (⟨l, p, base sz l + p, w⟩ : Cell)).foldlM (fun s c => f c s) s = o
      cases o with
      | none => rfl
      | some s' =>
        simp only [Option.map_some, Option.bind_some, List.flatMap_singleton]
        rw [rd_getD [] (by omega)]
        simp only [Option.bind_some]
        rw [visit_params f k (sz.getD k []) _ (Nat.le_refl _), base_succ (by omega)]
        rfl
  unfold visit cells
  rw [key _ (Nat.le_refl _)]
  generalize List.foldlM (fun s c => f c s) s _ = o
  cases o <;> rfl

/-! ### Flat positions -/

theorem flatten_base (ws : List (List (List R))) (l p : Nat) (hp : p < (ws.getD l []).length) :
    ws.flatten[base (sizes ws) l + p]? = (ws.getD l [])[p]? := by
  induction ws generalizing l with
  | nil => simp at hp
  | cons a ws ih =>
    cases l with
    | zero =>
      have hp' : p < a.length := by simpa using hp
      simp [base, sizes, List.getElem?_append, hp']
    | succ l =>
      have := ih l (by simpa using hp)
      have e : base (sizes (a :: ws)) (l + 1) = a.length + base (sizes ws) l := by
        simp [base, sizes]
      rw [e, List.flatten_cons, List.getElem?_append_right (by omega)]
      rw [show a.length + base (sizes ws) l + p - a.length = base (sizes ws) l + p by omega, this]
      simp

theorem sizes_getD (ws : List (List (List R))) (l : Nat) :
    (sizes ws).getD l [] = (ws.getD l []).map List.length := by
  unfold sizes
  rw [List.getD_eq_getElem?_getD, List.getD_eq_getElem?_getD, List.getElem?_map]
  cases ws[l]? <;> rfl

theorem sizes_getD_getD (ws : List (List (List R))) (l p : Nat) :
    ((sizes ws).getD l []).getD p 0 = ((ws.getD l []).getD p []).length := by
  rw [sizes_getD]
  generalize ws.getD l [] = r
  rw [List.getD_eq_getElem?_getD, List.getD_eq_getElem?_getD, List.getElem?_map]
  cases r[p]? <;> rfl

/-- A weight exists exactly at the cells. -/
theorem at3_isSome_iff (ws : List (List (List R))) (l p e : Nat) :
    (at3 ws l p e).isSome ↔ (⟨l, p, base (sizes ws) l + p, e⟩ : Cell) ∈ cells (sizes ws) := by
  rw [mem_cells]
  dsimp only
  rw [sizes_getD_getD, sizes_getD, List.length_map]
  unfold at3 at2 rd
  have hs : (sizes ws).length = ws.length := by simp [sizes]
  rw [hs]
  rw [List.getD_eq_getElem?_getD, List.getD_eq_getElem?_getD]
  rcases Nat.lt_or_ge l ws.length with h | h
  · rw [List.getElem?_eq_getElem h]
    simp only [Option.bind_some, Option.getD_some]
    rcases Nat.lt_or_ge p ws[l].length with h2 | h2
    · rw [List.getElem?_eq_getElem h2]
      simp [h, h2]
    · rw [List.getElem?_eq_none h2]
      simp
  · rw [List.getElem?_eq_none h]
    simp

/-- The flat buffers have an entry for every weight. -/
def Covers (sz : List (List Nat)) (b : List (List R)) : Prop :=
  ∀ c ∈ cells sz, (at2 b c.flat c.elem).isSome

theorem covers_clearAll [Zero R] {sz : List (List Nat)} {b : List (List R)} (h : Covers sz b) :
    Covers sz (b.map (·.map fun _ => (0 : R))) := by
  intro c hc
  have := h c hc
  unfold at2 rd at this ⊢
  rw [List.getElem?_map]
  cases hb : b[c.flat]? with
  | none => simp [hb] at this
  | some r =>
    rw [hb] at this
    simpa using this

theorem at2_clearAll [Field R] (b : List (List R)) (i j : Nat) :
    at2 (clearAll b) i j = (at2 b i j).map fun _ => 0 := by
  unfold clearAll at2 rd
  rw [List.getElem?_map]
  cases b[i]? with
  | none => rfl
  | some r => simp only [Option.map_some, Option.bind_some, List.getElem?_map]

theorem at2_flatten (ws : List (List (List R))) {c : Cell} (hc : c ∈ cells (sizes ws)) :
    at2 ws.flatten c.flat c.elem = at3 ws c.node c.param c.elem := by
  obtain ⟨h1, h2, h3, h4⟩ := mem_cells.1 hc
  rw [sizes_getD, List.length_map] at h2
  have h1' : c.node < ws.length := by simpa [sizes] using h1
  unfold at3 at2 rd
  rw [h4, flatten_base ws _ _ h2, List.getD_eq_getElem?_getD, List.getElem?_eq_getElem h1']
  simp

theorem covers_flatten (ws : List (List (List R))) : Covers (sizes ws) ws.flatten := by
  intro c hc
  rw [at2_flatten ws hc, at3_isSome_iff]
  obtain ⟨h1, h2, h3, h4⟩ := mem_cells.1 hc
  obtain ⟨l, p, f, w⟩ := c
  dsimp only at h4
  subst h4
  exact hc

theorem mem_cells_at3 {ws : List (List (List R))} {c : Cell} (hc : c ∈ cells (sizes ws)) :
    (at3 ws c.node c.param c.elem).isSome := by
  rw [← at2_flatten ws hc]
  exact covers_flatten ws c hc

/-! ### One optimisation step -/

section
variable [Field R] [LinearOrder R]

/-- New weight, step and slope of one weight. -/
def after (cfg : Settings R) (lr layerLr : R) (first : Bool) (w g s q : R) : R × R × R :=
  match cfg.method with
  | .gradientDescent =>
    let step := lr * direction cfg layerLr g w + cfg.momentum * s
    (w - step, step, q)
  | .quickprop =>
    let step := quickStep cfg.mu lr first (direction cfg layerLr g w) q s
    (w + step, step, direction cfg layerLr g w)

/-- The flag after a weight. -/
def flagAfter (cfg : Settings R) (first : Bool) : Bool :=
  match cfg.method with
  | .gradientDescent => first
  | .quickprop => false

theorem updateWeight_spec {cfg : Settings R} {lr layerLr w g s q : R} {localLr : List R} {c : Cell}
    {st : State R} (h1 : rd localLr c.node = some layerLr)
    (h2 : at3 st.weights c.node c.param c.elem = some w)
    (h3 : at2 st.accumulated c.flat c.elem = some g)
    (h4 : at2 st.lastDeltas c.flat c.elem = some s)
    (h5 : at2 st.lastGradients c.flat c.elem = some q) :
    ∃ st', updateWeight cfg lr localLr c st = some st' ∧ sizes st'.weights = sizes st.weights ∧
      st'.accumulated = st.accumulated ∧ st'.firstIteration = flagAfter cfg st.firstIteration ∧
      at3 st'.weights c.node c.param c.elem =
        some (after cfg lr layerLr st.firstIteration w g s q).1 ∧
      at2 st'.lastDeltas c.flat c.elem =
        some (after cfg lr layerLr st.firstIteration w g s q).2.1 ∧
      at2 st'.lastGradients c.flat c.elem =
        some (after cfg lr layerLr st.firstIteration w g s q).2.2 ∧
      ∀ c', Apart c c' → at3 st'.weights c'.node c'.param c'.elem =
          at3 st.weights c'.node c'.param c'.elem ∧
        at2 st'.lastDeltas c'.flat c'.elem = at2 st.lastDeltas c'.flat c'.elem ∧
        at2 st'.lastGradients c'.flat c'.elem = at2 st.lastGradients c'.flat c'.elem := by
  unfold updateWeight after flagAfter
  rw [h1, h2, h3, h4]
  simp only [Option.bind_some]
  cases hm : cfg.method with
  | gradientDescent =>
    dsimp only
    obtain ⟨ws, e1⟩ := set3_ok h2 (w - (lr * direction cfg layerLr g w + cfg.momentum * s))
    obtain ⟨ld, e2⟩ := set2_ok h4 (lr * direction cfg layerLr g w + cfg.momentum * s)
    refine ⟨{ st with weights := ws, lastDeltas := ld }, by rw [e1, Option.bind_some, e2, Option.map_some],
      set3_sizes e1, rfl, rfl, ?_, ?_, h5, ?_⟩
    · dsimp only; rw [at3_set3 e1, if_pos ⟨rfl, rfl, rfl⟩]
    · dsimp only; rw [at2_set2 e2, if_pos ⟨rfl, rfl⟩]
    · intro c' hc
      dsimp only
      refine ⟨?_, ?_, rfl⟩
      · rw [at3_set3 e1, if_neg (fun e => hc.1 ⟨e.1.symm, e.2.1.symm, e.2.2.symm⟩)]
      · rw [at2_set2 e2, if_neg (fun e => hc.2 ⟨e.1.symm, e.2.symm⟩)]
  | quickprop =>
    dsimp only
    rw [h5]
    simp only [Option.bind_some]
    generalize quickStep cfg.mu lr st.firstIteration (direction cfg layerLr g w) q s = z
    obtain ⟨ws, e1⟩ := set3_ok h2 (w + z)
    obtain ⟨ld, e2⟩ := set2_ok h4 z
    obtain ⟨lg, e3⟩ := set2_ok h5 (direction cfg layerLr g w)
    refine ⟨{ st with weights := ws, lastDeltas := ld, lastGradients := lg, firstIteration := false },
      by rw [e1, Option.bind_some, e2, Option.bind_some, e3, Option.map_some],
      set3_sizes e1, rfl, rfl, ?_, ?_, ?_, ?_⟩
    · dsimp only; rw [at3_set3 e1, if_pos ⟨rfl, rfl, rfl⟩]
    · dsimp only; rw [at2_set2 e2, if_pos ⟨rfl, rfl⟩]
    · dsimp only; rw [at2_set2 e3, if_pos ⟨rfl, rfl⟩]
    · intro c' hc
      dsimp only
      refine ⟨?_, ?_, ?_⟩
      · rw [at3_set3 e1, if_neg (fun e => hc.1 ⟨e.1.symm, e.2.1.symm, e.2.2.symm⟩)]
      · rw [at2_set2 e2, if_neg (fun e => hc.2 ⟨e.1.symm, e.2.symm⟩)]
      · rw [at2_set2 e3, if_neg (fun e => hc.2 ⟨e.1.symm, e.2.symm⟩)]

/-- Everything a cell needs can be read. -/
def Readable (localLr : List R) (st : State R) (c : Cell) : Prop :=
  (rd localLr c.node).isSome ∧ (at3 st.weights c.node c.param c.elem).isSome ∧
  (at2 st.accumulated c.flat c.elem).isSome ∧ (at2 st.lastDeltas c.flat c.elem).isSome ∧
  (at2 st.lastGradients c.flat c.elem).isSome

theorem fold_update {cfg : Settings R} {lr : R} {localLr : List R} (cs : List Cell) (st : State R)
    (hap : cs.Pairwise Apart) (hrd : ∀ c ∈ cs, Readable localLr st c) :
    ∃ st', cs.foldlM (fun st c => updateWeight cfg lr localLr c st) st = some st' ∧
      sizes st'.weights = sizes st.weights ∧ st'.accumulated = st.accumulated ∧
      (cs ≠ [] → st'.firstIteration = flagAfter cfg st.firstIteration) ∧
      (∀ c ∈ cs, ∀ layerLr w g s q, rd localLr c.node = some layerLr →
        at3 st.weights c.node c.param c.elem = some w →
        at2 st.accumulated c.flat c.elem = some g → at2 st.lastDeltas c.flat c.elem = some s →
        at2 st.lastGradients c.flat c.elem = some q →
        ∃ first, first = (if cs.head? = some c then st.firstIteration
            else flagAfter cfg st.firstIteration) ∧
          at3 st'.weights c.node c.param c.elem = some (after cfg lr layerLr first w g s q).1 ∧
          at2 st'.lastDeltas c.flat c.elem = some (after cfg lr layerLr first w g s q).2.1 ∧
          at2 st'.lastGradients c.flat c.elem = some (after cfg lr layerLr first w g s q).2.2) ∧
      ∀ c', (∀ c ∈ cs, Apart c c') → at3 st'.weights c'.node c'.param c'.elem =
          at3 st.weights c'.node c'.param c'.elem ∧
        at2 st'.lastDeltas c'.flat c'.elem = at2 st.lastDeltas c'.flat c'.elem ∧
        at2 st'.lastGradients c'.flat c'.elem = at2 st.lastGradients c'.flat c'.elem := by
  induction cs generalizing st with
  | nil =>
    refine ⟨st, rfl, rfl, rfl, fun h => absurd rfl h, by simp, fun c' _ => ⟨rfl, rfl, rfl⟩⟩
  | cons c cs ih =>
    obtain ⟨hc, hcs⟩ := List.pairwise_cons.1 hap
    obtain ⟨r1, r2, r3, r4, r5⟩ := hrd c (by simp)
    obtain ⟨a1, k1⟩ := Option.isSome_iff_exists.1 r1
    obtain ⟨a2, k2⟩ := Option.isSome_iff_exists.1 r2
    obtain ⟨a3, k3⟩ := Option.isSome_iff_exists.1 r3
    obtain ⟨a4, k4⟩ := Option.isSome_iff_exists.1 r4
    obtain ⟨a5, k5⟩ := Option.isSome_iff_exists.1 r5
    obtain ⟨st1, u1, u2, u3, u4, u5, u6, u7, u8⟩ := updateWeight_spec (cfg := cfg) (lr := lr) k1 k2 k3 k4 k5
    obtain ⟨st2, v1, v2, v3, v4, v5, v6⟩ := ih st1 hcs (by
      intro c' hc'
      obtain ⟨t1, t2, t3, t4, t5⟩ := hrd c' (List.mem_cons_of_mem _ hc')
      obtain ⟨e1, e2, e3⟩ := u8 c' (hc c' hc')
      exact ⟨t1, by rw [e1]; exact t2, by rw [u3]; exact t3, by rw [e2]; exact t4,
        by rw [e3]; exact t5⟩)
    have hidem : ∀ b, flagAfter cfg (flagAfter cfg b) = flagAfter cfg b := by
      intro b; unfold flagAfter; cases cfg.method <;> rfl
    refine ⟨st2, ?_, v2.trans u2, v3.trans u3, ?_, ?_, ?_⟩
    · rw [List.foldlM_cons, u1]; exact v1
    · intro _
      cases cs with
      | nil =>
        rw [List.foldlM_nil] at v1
        injection v1 with v1
        rw [← v1, u4]
      | cons d ds => rw [v4 (by simp), u4, hidem]
    · intro c' hc' layerLr w g s q h1 h2 h3 h4 h5
      rcases List.mem_cons.1 hc' with e | hmem
      · subst e
        obtain ⟨w1, w2, w3⟩ := v6 c' (fun d hd => (hc d hd).symm)
        rw [k1] at h1; rw [k2] at h2; rw [k3] at h3; rw [k4] at h4; rw [k5] at h5
        injection h1 with h1; injection h2 with h2; injection h3 with h3; injection h4 with h4
        injection h5 with h5
        subst h1 h2 h3 h4 h5
        exact ⟨_, rfl, by rw [w1, u5]; simp, by rw [w2, u6]; simp, by rw [w3, u7]; simp⟩
      · have hne : c ≠ c' := by
          rintro rfl
          exact (hc c hmem).1 ⟨rfl, rfl, rfl⟩
        obtain ⟨e1, e2, e3⟩ := u8 c' (hc c' hmem)
        obtain ⟨f, f1, f2, f3, f4⟩ := v5 c' hmem layerLr w g s q h1 (by rw [e1]; exact h2)
          (by rw [u3]; exact h3) (by rw [e2]; exact h4) (by rw [e3]; exact h5)
        refine ⟨f, ?_, f2, f3, f4⟩
        rw [f1, u4, hidem, ite_self, List.head?_cons, if_neg (by simpa using hne)]
    · intro c' hc'
      obtain ⟨w1, w2, w3⟩ := v6 c' (fun d hd => hc' d (List.mem_cons_of_mem _ hd))
      obtain ⟨e1, e2, e3⟩ := u8 c' (hc' c (by simp))
      exact ⟨w1.trans e1, w2.trans e2, w3.trans e3⟩

/-- The buffers of a trainer fit its network. -/
structure Aligned (localLr : List R) (st : State R) : Prop where
  lr : localLr.length = st.weights.length
  deltas : Covers (sizes st.weights) st.lastDeltas
  gradients : Covers (sizes st.weights) st.lastGradients
  acc : Covers (sizes st.weights) st.accumulated

theorem Aligned.readable {localLr : List R} {st : State R} (h : Aligned localLr st) {c : Cell}
    (hc : c ∈ cells (sizes st.weights)) : Readable localLr st c := by
  refine ⟨?_, mem_cells_at3 hc, h.acc c hc, h.deltas c hc, h.gradients c hc⟩
  have h1 := (mem_cells.1 hc).1
  rw [show (sizes st.weights).length = st.weights.length by simp [sizes]] at h1
  rw [rd_isSome, h.lr]
  exact h1

theorem applyGradients_spec {cfg : Settings R} (lr : R) {localLr : List R} {st : State R}
    (h : Aligned localLr st) :
    ∃ st', applyGradients cfg lr localLr st = some st' ∧ Aligned localLr st' ∧
      sizes st'.weights = sizes st.weights ∧ st'.accumulated = st.accumulated ∧
      (cells (sizes st.weights) ≠ [] → st'.firstIteration = flagAfter cfg st.firstIteration) ∧
      (∀ c ∈ cells (sizes st.weights), ∀ layerLr w g s q, rd localLr c.node = some layerLr →
        at3 st.weights c.node c.param c.elem = some w →
        at2 st.accumulated c.flat c.elem = some g → at2 st.lastDeltas c.flat c.elem = some s →
        at2 st.lastGradients c.flat c.elem = some q →
        ∃ first, first = (if (cells (sizes st.weights)).head? = some c then st.firstIteration
            else flagAfter cfg st.firstIteration) ∧
          at3 st'.weights c.node c.param c.elem = some (after cfg lr layerLr first w g s q).1 ∧
          at2 st'.lastDeltas c.flat c.elem = some (after cfg lr layerLr first w g s q).2.1 ∧
          at2 st'.lastGradients c.flat c.elem = some (after cfg lr layerLr first w g s q).2.2) := by
  obtain ⟨st', h1, h2, h3, h4, h5, _⟩ := fold_update (cfg := cfg) (lr := lr) (localLr := localLr)
    (cells (sizes st.weights)) st (cells_apart _) (fun c hc => h.readable hc)
  refine ⟨st', by rw [applyGradients, visit_eq]; exact h1, ?_, h2, h3, h4, h5⟩
  have hl : st'.weights.length = st.weights.length := by
    have := congrArg List.length h2
    simpa [sizes] using this
  have hall : ∀ c ∈ cells (sizes st.weights), (at2 st'.lastDeltas c.flat c.elem).isSome ∧
      (at2 st'.lastGradients c.flat c.elem).isSome := by
    intro c hc
    obtain ⟨r1, r2, r3, r4, r5⟩ := h.readable hc
    obtain ⟨a1, k1⟩ := Option.isSome_iff_exists.1 r1
    obtain ⟨a2, k2⟩ := Option.isSome_iff_exists.1 r2
    obtain ⟨a3, k3⟩ := Option.isSome_iff_exists.1 r3
    obtain ⟨a4, k4⟩ := Option.isSome_iff_exists.1 r4
    obtain ⟨a5, k5⟩ := Option.isSome_iff_exists.1 r5
    obtain ⟨f, _, _, e1, e2⟩ := h5 c hc a1 a2 a3 a4 a5 k1 k2 k3 k4 k5
    rw [e1, e2]
    exact ⟨rfl, rfl⟩
  refine ⟨by rw [hl]; exact h.lr, ?_, ?_, ?_⟩
  · rw [h2]; exact fun c hc => (hall c hc).1
  · rw [h2]; exact fun c hc => (hall c hc).2
  · rw [h2, h3]; exact h.acc

/-! ### Accumulation -/

theorem fold_accumulate (grads : List (List (List R))) (cs : List Cell) (acc : List (List R))
    (hap : cs.Pairwise Apart)
    (hrd : ∀ c ∈ cs, (at2 acc c.flat c.elem).isSome ∧ (at3 grads c.node c.param c.elem).isSome) :
    ∃ acc', cs.foldlM (fun acc c => (at2 acc c.flat c.elem).bind fun a =>
        (at3 grads c.node c.param c.elem).bind fun g => set2 acc c.flat c.elem (a + g)) acc =
          some acc' ∧
      (∀ c ∈ cs, ∀ a g, at2 acc c.flat c.elem = some a →
        at3 grads c.node c.param c.elem = some g → at2 acc' c.flat c.elem = some (a + g)) ∧
      ∀ c', (∀ c ∈ cs, Apart c c') → at2 acc' c'.flat c'.elem = at2 acc c'.flat c'.elem := by
  induction cs generalizing acc with
  | nil => exact ⟨acc, rfl, by simp, fun _ _ => rfl⟩
  | cons c cs ih =>
    obtain ⟨hc, hcs⟩ := List.pairwise_cons.1 hap
    obtain ⟨r1, r2⟩ := hrd c (by simp)
    obtain ⟨a1, k1⟩ := Option.isSome_iff_exists.1 r1
    obtain ⟨a2, k2⟩ := Option.isSome_iff_exists.1 r2
    obtain ⟨acc1, e1⟩ := set2_ok k1 (a1 + a2)
    have hsame : ∀ c', Apart c c' → at2 acc1 c'.flat c'.elem = at2 acc c'.flat c'.elem := by
      intro c' h
      rw [at2_set2 e1, if_neg (fun e => h.2 ⟨e.1.symm, e.2.symm⟩)]
    obtain ⟨acc2, v1, v2, v3⟩ := ih acc1 hcs (by
      intro c' hc'
      obtain ⟨t1, t2⟩ := hrd c' (List.mem_cons_of_mem _ hc')
      exact ⟨by rw [hsame c' (hc c' hc')]; exact t1, t2⟩)
    refine ⟨acc2, ?_, ?_, ?_⟩
    · rw [List.foldlM_cons, k1, k2]
      simp only [Option.bind_some]
      rw [e1]
      exact v1
    · intro c' hc' a g h1 h2
      rcases List.mem_cons.1 hc' with e | hmem
      · subst e
        rw [k1] at h1; rw [k2] at h2
        injection h1 with h1; injection h2 with h2
        subst h1 h2
        rw [v3 c' (fun d hd => (hc d hd).symm), at2_set2 e1, if_pos ⟨rfl, rfl⟩]
      · exact v2 c' hmem a g (by rw [hsame c' (hc c' hmem)]; exact h1) h2
    · intro c' hc'
      rw [v3 c' (fun d hd => hc' d (List.mem_cons_of_mem _ hd)), hsame c' (hc' c (by simp))]

theorem accumulate_spec {grads : List (List (List R))} {acc : List (List R)}
    (h : Covers (sizes grads) acc) :
    ∃ acc', accumulate grads acc = some acc' ∧ Covers (sizes grads) acc' ∧
      ∀ c ∈ cells (sizes grads), ∀ a g, at2 acc c.flat c.elem = some a →
        at3 grads c.node c.param c.elem = some g → at2 acc' c.flat c.elem = some (a + g) := by
  obtain ⟨acc', h1, h2, _⟩ := fold_accumulate grads (cells (sizes grads)) acc (cells_apart _)
    (fun c hc => ⟨h c hc, mem_cells_at3 hc⟩)
  refine ⟨acc', by rw [accumulate, visit_eq]; exact h1, ?_, h2⟩
  intro c hc
  obtain ⟨a, k1⟩ := Option.isSome_iff_exists.1 (h c hc)
  obtain ⟨g, k2⟩ := Option.isSome_iff_exists.1 (mem_cells_at3 hc)
  rw [h2 c hc a g k1 k2]
  rfl

/-- The accumulated gradient of several passes. -/
theorem accumulate_loop {sz : List (List Nat)} (grads : Nat → List (List (List R))) (n : Nat)
    {acc : List (List R)} (hsz : ∀ b, b < n → sizes (grads b) = sz) (h : Covers sz acc)
    (h0 : ∀ c ∈ cells sz, at2 acc c.flat c.elem = some 0) :
    ∃ acc', forLoop n (fun b acc => accumulate (grads b) acc) acc = some acc' ∧ Covers sz acc' ∧
      ∀ c ∈ cells sz, at2 acc' c.flat c.elem =
        some (∑ b ∈ Finset.range n, (at3 (grads b) c.node c.param c.elem).getD 0) := by
  apply forLoop_inv (P := fun k acc' => Covers sz acc' ∧ ∀ c ∈ cells sz, at2 acc' c.flat c.elem =
        some (∑ b ∈ Finset.range k, (at3 (grads b) c.node c.param c.elem).getD 0))
  · exact ⟨h, by simpa using h0⟩
  · rintro k acc1 hk ⟨i1, i2⟩
    have hs := hsz k hk
    obtain ⟨acc2, e1, e2, e3⟩ := accumulate_spec (grads := grads k) (acc := acc1) (by rw [hs]; exact i1)
    rw [hs] at e2 e3
    refine ⟨acc2, e1, e2, ?_⟩
    intro c hc
    obtain ⟨g, k2⟩ := Option.isSome_iff_exists.1 (mem_cells_at3 (ws := grads k) (by rw [hs]; exact hc))
    rw [e3 c hc _ g (i2 c hc) k2, Finset.sum_range_succ, k2]
    rfl

/-- One iteration of an epoch. -/
theorem iteration_spec {cfg : Settings R} (lr : R) {localLr : List R} {st : State R}
    (h : Aligned localLr st) (grads : Nat → List (List (List R)))
    (hsz : ∀ b, b < cfg.sbatchsize → sizes (grads b) = sizes st.weights) :
    ∃ st', ((forLoop cfg.sbatchsize (fun b acc => accumulate (grads b) acc)
        (clearAll st.accumulated)).bind
      fun acc => applyGradients cfg lr localLr { st with accumulated := acc }) = some st' ∧
      Aligned localLr st' ∧ sizes st'.weights = sizes st.weights ∧
      (cells (sizes st.weights) ≠ [] → st'.firstIteration = flagAfter cfg st.firstIteration) ∧
      (∀ c ∈ cells (sizes st.weights), ∀ layerLr w s q, rd localLr c.node = some layerLr →
        at3 st.weights c.node c.param c.elem = some w →
        at2 st.lastDeltas c.flat c.elem = some s →
        at2 st.lastGradients c.flat c.elem = some q →
        ∃ first g, first = (if (cells (sizes st.weights)).head? = some c then st.firstIteration
            else flagAfter cfg st.firstIteration) ∧
          g = ∑ b ∈ Finset.range cfg.sbatchsize, (at3 (grads b) c.node c.param c.elem).getD 0 ∧
          at3 st'.weights c.node c.param c.elem = some (after cfg lr layerLr first w g s q).1 ∧
          at2 st'.lastDeltas c.flat c.elem = some (after cfg lr layerLr first w g s q).2.1 ∧
          at2 st'.lastGradients c.flat c.elem = some (after cfg lr layerLr first w g s q).2.2) := by
  obtain ⟨acc, a1, a2, a3⟩ := accumulate_loop (sz := sizes st.weights) grads cfg.sbatchsize
    (acc := clearAll st.accumulated) hsz (covers_clearAll h.acc) (by
      intro c hc
      obtain ⟨a, k⟩ := Option.isSome_iff_exists.1 (h.acc c hc)
      rw [at2_clearAll, k]; rfl)
  obtain ⟨st', s1, s2, s3, _, s5, s6⟩ := applyGradients_spec (cfg := cfg) lr
    (st := { st with accumulated := acc }) ⟨h.lr, h.deltas, h.gradients, a2⟩
  refine ⟨st', by rw [a1]; exact s1, s2, s3, s5, ?_⟩
  intro c hc layerLr w s q h1 h2 h3 h4
  obtain ⟨f, f1, f2, f3, f4⟩ := s6 c hc layerLr w _ s q h1 h2 (a3 c hc) h3 h4
  exact ⟨f, _, f1, rfl, f2, f3, f4⟩

/-- A loop as a sequence of states. -/
theorem forLoop_seq {σ : Type _} {n : Nat} {f : Nat → σ → Option σ} {s : σ} (P : σ → Prop)
    (Q : Nat → σ → σ → Prop) (h0 : P s)
    (hstep : ∀ i s, i < n → P s → ∃ s', f i s = some s' ∧ P s' ∧ Q i s s') :
    ∃ seq : Nat → σ, seq 0 = s ∧ forLoop n f s = some (seq n) ∧ (∀ i, i ≤ n → P (seq i)) ∧
      ∀ i, i < n → Q i (seq i) (seq (i + 1)) := by
  induction n with
  | zero => exact ⟨fun _ => s, rfl, rfl, fun _ _ => h0, fun i hi => by omega⟩
  | succ n ih =>
    obtain ⟨seq, h1, h2, h3, h4⟩ := ih (fun i s hi => hstep i s (by omega))
    obtain ⟨s', e1, e2, e3⟩ := hstep n (seq n) (by omega) (h3 n (Nat.le_refl _))
    refine ⟨fun i => if i ≤ n then seq i else s', by simpa using h1, ?_, ?_, ?_⟩
    · rw [forLoop_succ, h2]
      simpa using e1
    · intro i hi
      dsimp only
      split
      · exact h3 i (by omega)
      · exact e2
    · intro i hi
      dsimp only
      rw [if_pos (by omega)]
      rcases Nat.lt_or_ge i n with h | h
      · rw [if_pos (by omega)]; exact h4 i h
      · have : i = n := by omega
        subst this
        rw [if_neg (by omega)]; exact e3

end

end CN24.Trainer
