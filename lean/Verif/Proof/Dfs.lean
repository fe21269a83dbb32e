import Verif.Model.NetGraph
import Mathlib.Logic.Relation
import Mathlib.Data.Finset.Card
import Mathlib.Data.Finset.Filter
import Mathlib.Data.Finset.Image

/-! Depth-first traversals of the network graph. -/

namespace CN24.Net

/-! ### Heights -/

/-- In a finite graph without cycles, counting the nodes that can be reached gives a number that
decreases along every edge. -/
theorem exists_height (nodes : List Nat) (E : Nat → Nat → Prop)
    (hin : ∀ a b, E a b → b ∈ nodes) (hac : ∀ n, ¬ Relation.TransGen E n n) :
    ∃ μ : Nat → Nat, ∀ a b, E a b → μ b < μ a := by
  classical
  refine ⟨fun n => (nodes.toFinset.filter fun m => Relation.TransGen E n m).card, ?_⟩
  intro a b hab
  apply Finset.card_lt_card
  rw [Finset.ssubset_iff_subset_ne]
  refine ⟨?_, ?_⟩
  · intro m hm
    rw [Finset.mem_filter] at hm ⊢
    exact ⟨hm.1, (Relation.TransGen.single hab).trans hm.2⟩
  · intro e
    have hb : b ∈ nodes.toFinset.filter fun m => Relation.TransGen E a m := by
      rw [Finset.mem_filter, List.mem_toFinset]
      exact ⟨hin a b hab, .single hab⟩
    rw [← e, Finset.mem_filter] at hb
    exact hac b hb.2

/-- Heights bounded over a list. -/
theorem exists_bound (nodes : List Nat) (μ : Nat → Nat) : ∃ N, ∀ n ∈ nodes, μ n < N := by
  induction nodes with
  | nil => exact ⟨0, by simp⟩
  | cons n l ih =>
    obtain ⟨N, hN⟩ := ih
    refine ⟨max N (μ n + 1), ?_⟩
    intro k hk
    rcases List.mem_cons.1 hk with rfl | hk
    · omega
    · have := hN k hk; omega

/-- The common shape of the traversals: successors first, then the node. -/
def dfs (succ : Nat → List Nat) : Nat → Nat → Visit Nat → Option (Visit Nat)
  | 0, _, _ => none
  | fuel + 1, n, st =>
    if st.visited n then some st
    else
      ((succ n).foldlM (fun st m => dfs succ fuel m st) st).map fun st =>
        { visited := fun k => if k = n then true else st.visited k, log := st.log ++ [n] }

/-- What holds of every intermediate state of a traversal that started with the flags `V0`. -/
structure DfsInv (In : Nat → Prop) (succ : Nat → List Nat) (V0 : Nat → Bool) (st : Visit Nat) :
    Prop where
  nodup : st.log.Nodup
  mem : ∀ n ∈ st.log, In n ∧ V0 n = false
  vis : ∀ n, st.visited n = true ↔ V0 n = true ∨ n ∈ st.log
  order : ∀ pre n post, st.log = pre ++ n :: post → ∀ m ∈ succ n, m ∈ pre ∨ V0 m = true

theorem DfsInv.start (In : Nat → Prop) (succ : Nat → List Nat) (V0 : Nat → Bool) :
    DfsInv In succ V0 ⟨V0, []⟩ :=
  ⟨by simp, by simp, by simp, by simp⟩

theorem DfsInv.push {In : Nat → Prop} {succ : Nat → List Nat} {V0 : Nat → Bool} {st : Visit Nat}
    (h : DfsInv In succ V0 st) {n : Nat} (hn : In n) (hv : st.visited n = false)
    (hs : ∀ m ∈ succ n, st.visited m = true) :
    DfsInv In succ V0
      ⟨fun k => if k = n then true else st.visited k, st.log ++ [n]⟩ := by
  have hnv : V0 n = false ∧ n ∉ st.log := by
    have := (h.vis n).not
    rw [hv] at this
    simpa using this
  refine ⟨?_, ?_, ?_, ?_⟩
  · rw [List.nodup_append]
    refine ⟨h.nodup, by simp, ?_⟩
    intro a ha b hb
    simp only [List.mem_singleton] at hb
    subst hb
    intro e; subst e; exact hnv.2 ha
  · intro k hk
    rcases List.mem_append.1 hk with hk | hk
    · exact h.mem k hk
    · simp only [List.mem_singleton] at hk; subst hk; exact ⟨hn, hnv.1⟩
  · intro k
    by_cases hk : k = n
    · subst hk; simp
    · have := h.vis k
      simp [hk, this]
  · intro pre k post he m hm
    have he' : st.log ++ [n] = pre ++ k :: post := he
    rcases List.append_eq_append_iff.1 he' with ⟨as, h1, h2⟩ | ⟨bs, h1, h2⟩
    · -- the entry is the new one
      cases as with
      | nil =>
        simp only [List.append_nil] at h1
        simp only [List.nil_append, List.cons.injEq] at h2
        obtain ⟨h2, -⟩ := h2
        subst h2
        rw [h1]
        have := (h.vis m).1 (hs m hm)
        exact this.symm
      | cons a as => simp at h2
    · cases bs with
      | nil =>
        simp only [List.nil_append, List.cons.injEq] at h2
        obtain ⟨h2, -⟩ := h2
        subst h2
        simp only [List.append_nil] at h1
        rw [← h1]
        exact ((h.vis m).1 (hs m hm)).symm
      | cons b bs =>
        simp only [List.cons_append, List.cons.injEq] at h2
        obtain ⟨h2, -⟩ := h2
        subst h2
        exact h.order pre _ _ h1 m hm

section
variable {In : Nat → Prop} {succ : Nat → List Nat} {V0 : Nat → Bool} {μ : Nat → Nat}

theorem dfs_spec (hc : ∀ n, In n → ∀ m ∈ succ n, In m ∧ μ m < μ n) :
    ∀ (fuel n : Nat) (st : Visit Nat), In n → μ n < fuel → DfsInv In succ V0 st →
      ∃ st', dfs succ fuel n st = some st' ∧ DfsInv In succ V0 st' ∧ st'.visited n = true ∧
        (∀ k, st.visited k = true → st'.visited k = true) ∧
        (∀ k, st'.visited k = true → st.visited k = true ∨ μ k ≤ μ n) := by
  intro fuel
  induction fuel with
  | zero => intro n st _ h; omega
  | succ fuel ih =>
    intro n st hn hf hi
    unfold dfs
    by_cases hv : st.visited n = true
    · rw [if_pos hv]
      exact ⟨st, rfl, hi, hv, fun _ h => h, fun _ h => .inl h⟩
    · rw [if_neg hv]
      have hfold : ∀ (l : List Nat), (∀ m ∈ l, In m ∧ μ m < μ n) → ∀ st, DfsInv In succ V0 st →
          ∃ st', l.foldlM (fun st m => dfs succ fuel m st) st = some st' ∧
            DfsInv In succ V0 st' ∧ (∀ m ∈ l, st'.visited m = true) ∧
            (∀ k, st.visited k = true → st'.visited k = true) ∧
            (∀ k, st'.visited k = true → st.visited k = true ∨ μ k < μ n) := by
        intro l
        induction l with
        | nil => intro _ st hi; exact ⟨st, rfl, hi, by simp, fun _ h => h, fun _ h => .inl h⟩
        | cons m l ihl =>
          intro hl st hi
          obtain ⟨hm, hl⟩ := List.forall_mem_cons.1 hl
          obtain ⟨s1, e1, i1, v1, g1, b1⟩ := ih m st hm.1 (by omega) hi
          obtain ⟨s2, e2, i2, v2, g2, b2⟩ := ihl hl s1 i1
          refine ⟨s2, ?_, i2, ?_, fun k h => g2 k (g1 k h), ?_⟩
          · rw [List.foldlM_cons, e1]; exact e2
          · intro k hk
            rcases List.mem_cons.1 hk with rfl | hk
            · exact g2 _ v1
            · exact v2 k hk
          · intro k hk
            rcases b2 k hk with h | h
            · rcases b1 k h with h | h
              · exact .inl h
              · right; omega
            · exact .inr h
      obtain ⟨s1, e1, i1, v1, g1, b1⟩ := hfold (succ n) (hc n hn) st hi
      rw [e1]
      have hvn : s1.visited n = false := by
        cases h : s1.visited n with
        | false => rfl
        | true =>
          rcases b1 n h with h | h
          · exact absurd h hv
          · omega
      refine ⟨_, rfl, i1.push hn hvn v1, by simp, ?_, ?_⟩
      · intro k hk
        by_cases e : k = n
        · simp [e]
        · simp only [if_neg e]; exact g1 k hk
      · intro k hk
        by_cases e : k = n
        · right; simp [e]
        · simp only [if_neg e] at hk
          rcases b1 k hk with h | h
          · exact .inl h
          · right; omega

/-- A traversal from every node of a list. -/
theorem dfs_all (hc : ∀ n, In n → ∀ m ∈ succ n, In m ∧ μ m < μ n) (fuel : Nat) :
    ∀ (l : List Nat), (∀ n ∈ l, In n ∧ μ n < fuel) → ∀ st, DfsInv In succ V0 st →
      ∃ st', l.foldlM (fun st m => dfs succ fuel m st) st = some st' ∧
        DfsInv In succ V0 st' ∧ (∀ m ∈ l, st'.visited m = true) ∧
        (∀ k, st.visited k = true → st'.visited k = true) := by
  intro l
  induction l with
  | nil => intro _ st hi; exact ⟨st, rfl, hi, by simp, fun _ h => h⟩
  | cons m l ihl =>
    intro hl st hi
    obtain ⟨hm, hl⟩ := List.forall_mem_cons.1 hl
    obtain ⟨s1, e1, i1, v1, g1, -⟩ := dfs_spec hc fuel m st hm.1 hm.2 hi
    obtain ⟨s2, e2, i2, v2, g2⟩ := ihl hl s1 i1
    refine ⟨s2, ?_, i2, ?_, fun k h => g2 k (g1 k h)⟩
    · rw [List.foldlM_cons, e1]; exact e2
    · intro k hk
      rcases List.mem_cons.1 hk with rfl | hk
      · exact g2 _ v1
      · exact v2 k hk

end

/-- On a node that reaches a cycle of unvisited nodes, no recursion depth suffices; other nodes do
not visit the cycle. -/
theorem dfs_cycle {succ : Nat → List Nat} {C : Nat → Prop}
    (hC : ∀ n, C n → ∃ pre m post, succ n = pre ++ m :: post ∧ C m) :
    ∀ (fuel n : Nat) (st : Visit Nat), (∀ k, C k → st.visited k = false) →
      (C n → dfs succ fuel n st = none) ∧
      ∀ st', dfs succ fuel n st = some st' → ∀ k, C k → st'.visited k = false := by
  intro fuel
  induction fuel with
  | zero => intro n st _; exact ⟨fun _ => rfl, fun st' h => by simp [dfs] at h⟩
  | succ fuel ih =>
    have hfold : ∀ (l : List Nat) (st st' : Visit Nat), (∀ k, C k → st.visited k = false) →
        l.foldlM (fun st m => dfs succ fuel m st) st = some st' →
        (∀ k, C k → st'.visited k = false) ∧ ∀ m ∈ l, ¬ C m := by
      intro l
      induction l with
      | nil => intro st st' h e; simp at e; subst e; exact ⟨h, by simp⟩
      | cons m l ihl =>
        intro st st' h e
        rw [List.foldlM_cons] at e
        cases e1 : dfs succ fuel m st with
        | none => rw [e1] at e; simp at e
        | some s1 =>
          rw [e1] at e
          have := ihl s1 st' ((ih m st h).2 s1 e1) e
          refine ⟨this.1, ?_⟩
          intro k hk
          rcases List.mem_cons.1 hk with rfl | hk
          · intro hck
            rw [(ih k st h).1 hck] at e1
            cases e1
          · exact this.2 k hk
    have hnone : ∀ n st, (∀ k, C k → st.visited k = false) → C n →
        dfs succ (fuel + 1) n st = none := by
      intro n st h hn
      unfold dfs
      rw [if_neg (by simp [h n hn])]
      cases e : (succ n).foldlM (fun st m => dfs succ fuel m st) st with
      | none => rfl
      | some st' =>
        obtain ⟨pre, m, post, hs, hm⟩ := hC n hn
        exact absurd hm ((hfold _ st st' h e).2 m (by rw [hs]; simp))
    intro n st h
    refine ⟨hnone n st h, ?_⟩
    intro st' e k hk
    by_cases hn : C n
    · rw [hnone n st h hn] at e; cases e
    · unfold dfs at e
      split at e
      · simp at e; subst e; exact h k hk
      · cases e1 : (succ n).foldlM (fun st m => dfs succ fuel m st) st with
        | none => rw [e1] at e; simp at e
        | some s1 =>
          rw [e1] at e
          simp at e
          subst e
          have : k ≠ n := by intro e; subst e; exact hn hk
          simp [this, (hfold _ st s1 h e1).1 k hk]

theorem dfs_cycle_all {succ : Nat → List Nat} {C : Nat → Prop}
    (hC : ∀ n, C n → ∃ pre m post, succ n = pre ++ m :: post ∧ C m) (fuel : Nat) :
    ∀ (l : List Nat) (st : Visit Nat), (∀ k, C k → st.visited k = false) → (∃ n ∈ l, C n) →
      l.foldlM (fun st m => dfs succ fuel m st) st = none := by
  intro l
  induction l with
  | nil => rintro _ _ ⟨n, hn, -⟩; simp at hn
  | cons m l ih =>
    rintro st hv ⟨n, hn, hc⟩
    rw [List.foldlM_cons]
    cases e : dfs succ fuel m st with
    | none => rfl
    | some s1 =>
      rcases List.mem_cons.1 hn with rfl | hn
      · rw [(dfs_cycle hC fuel n st hv).1 hc] at e; cases e
      · exact ih s1 ((dfs_cycle hC fuel m st hv).2 s1 e) ⟨n, hn, hc⟩

/-- A larger recursion depth does not change the result. -/
theorem dfs_mono {succ : Nat → List Nat} : ∀ (fuel n : Nat) (st st' : Visit Nat),
    dfs succ fuel n st = some st' → dfs succ (fuel + 1) n st = some st' := by
  intro fuel
  induction fuel with
  | zero => intro n st st' h; simp [dfs] at h
  | succ fuel ih =>
    intro n st st' h
    unfold dfs at h ⊢
    by_cases hv : st.visited n = true
    · rw [if_pos hv] at h ⊢; exact h
    · rw [if_neg hv] at h ⊢
      have hfold : ∀ (l : List Nat) (st st' : Visit Nat),
          l.foldlM (fun st m => dfs succ fuel m st) st = some st' →
          l.foldlM (fun st m => dfs succ (fuel + 1) m st) st = some st' := by
        intro l
        induction l with
        | nil => intro st st' h; exact h
        | cons m l ihl =>
          intro st st' h
          rw [List.foldlM_cons] at h ⊢
          cases e : dfs succ fuel m st with
          | none => rw [e] at h; simp at h
          | some s1 =>
            rw [e] at h
            rw [ih m st s1 e]
            exact ihl s1 st' h
      cases e : (succ n).foldlM (fun st m => dfs succ fuel m st) st with
      | none => rw [e] at h; simp at h
      | some s1 =>
        rw [e] at h
        rw [hfold _ st s1 e]
        exact h

theorem dfs_all_mono {succ : Nat → List Nat} {fuel fuel' : Nat} (hf : fuel ≤ fuel') :
    ∀ (l : List Nat) (st st' : Visit Nat),
      l.foldlM (fun st m => dfs succ fuel m st) st = some st' →
      l.foldlM (fun st m => dfs succ fuel' m st) st = some st' := by
  intro l
  induction l with
  | nil => intro st st' h; exact h
  | cons m l ih =>
    intro st st' h
    rw [List.foldlM_cons] at h ⊢
    cases e : dfs succ fuel m st with
    | none => rw [e] at h; simp at h
    | some s1 =>
      rw [e] at h
      have : dfs succ fuel' m st = some s1 := by
        obtain ⟨d, rfl⟩ := Nat.exists_eq_add_of_le hf
        clear h hf ih
        induction d with
        | zero => exact e
        | succ d ihd => exact dfs_mono _ _ _ _ ihd
      rw [this]
      exact ih s1 st' h

/-- The flags of nodes outside a closed set do not matter. -/
def Agree (In : Nat → Prop) (a b : Visit Nat) : Prop :=
  a.log = b.log ∧ ∀ n, In n → a.visited n = b.visited n

theorem dfs_agree {In : Nat → Prop} {succ : Nat → List Nat} (hc : ∀ n, In n → ∀ m ∈ succ n, In m) :
    ∀ (fuel n : Nat) (a b a' : Visit Nat), In n → Agree In a b → dfs succ fuel n a = some a' →
      ∃ b', dfs succ fuel n b = some b' ∧ Agree In a' b' := by
  intro fuel
  induction fuel with
  | zero => intro n a b a' _ _ h; simp [dfs] at h
  | succ fuel ih =>
    intro n a b a' hn hab h
    unfold dfs at h ⊢
    rw [← hab.2 n hn]
    by_cases hv : a.visited n = true
    · rw [if_pos hv] at h ⊢
      cases h
      exact ⟨b, rfl, hab⟩
    · rw [if_neg hv] at h ⊢
      have hfold : ∀ (l : List Nat) (a b a' : Visit Nat), (∀ m ∈ l, In m) → Agree In a b →
          l.foldlM (fun st m => dfs succ fuel m st) a = some a' →
          ∃ b', l.foldlM (fun st m => dfs succ fuel m st) b = some b' ∧ Agree In a' b' := by
        intro l
        induction l with
        | nil => intro a b a' _ hab h; simp at h; subst h; exact ⟨b, rfl, hab⟩
        | cons m l ihl =>
          intro a b a' hl hab h
          obtain ⟨hm, hl⟩ := List.forall_mem_cons.1 hl
          rw [List.foldlM_cons] at h
          cases e : dfs succ fuel m a with
          | none => rw [e] at h; simp at h
          | some s1 =>
            rw [e] at h
            obtain ⟨t1, e1, h1⟩ := ih m a b s1 hm hab e
            obtain ⟨t2, e2, h2⟩ := ihl s1 t1 a' hl h1 h
            refine ⟨t2, ?_, h2⟩
            rw [List.foldlM_cons, e1]
            exact e2
      cases e : (succ n).foldlM (fun st m => dfs succ fuel m st) a with
      | none => rw [e] at h; simp at h
      | some s1 =>
        rw [e] at h
        obtain ⟨t1, e1, h1⟩ := hfold _ a b s1 (hc n hn) hab e
        rw [e1]
        simp only [Option.map_some, Option.some.injEq] at h
        subst h
        refine ⟨_, rfl, by simp [h1.1], ?_⟩
        intro k hk
        by_cases e : k = n
        · simp [e]
        · simp [e, h1.2 k hk]

theorem dfs_all_agree {In : Nat → Prop} {succ : Nat → List Nat}
    (hc : ∀ n, In n → ∀ m ∈ succ n, In m) (fuel : Nat) :
    ∀ (l : List Nat) (a b a' : Visit Nat), (∀ m ∈ l, In m) → Agree In a b →
      l.foldlM (fun st m => dfs succ fuel m st) a = some a' →
      ∃ b', l.foldlM (fun st m => dfs succ fuel m st) b = some b' ∧ Agree In a' b' := by
  intro l
  induction l with
  | nil => intro a b a' _ hab h; simp at h; subst h; exact ⟨b, rfl, hab⟩
  | cons m l ihl =>
    intro a b a' hl hab h
    obtain ⟨hm, hl⟩ := List.forall_mem_cons.1 hl
    rw [List.foldlM_cons] at h
    cases e : dfs succ fuel m a with
    | none => rw [e] at h; simp at h
    | some s1 =>
      rw [e] at h
      obtain ⟨t1, e1, h1⟩ := dfs_agree hc fuel m a b s1 hm hab e
      obtain ⟨t2, e2, h2⟩ := ihl s1 t1 a' hl h1 h
      refine ⟨t2, ?_, h2⟩
      rw [List.foldlM_cons, e1]
      exact e2

/-- The traversal of a finite closed acyclic graph, from flags that are cleared on its nodes. -/
theorem traverse {nodes : List Nat} {succ : Nat → List Nat} {μ : Nat → Nat}
    (hc : ∀ n ∈ nodes, ∀ m ∈ succ n, m ∈ nodes ∧ μ m < μ n) :
    ∃ N log, log.Nodup ∧ (∀ n, n ∈ log ↔ n ∈ nodes) ∧
      (∀ pre n post, log = pre ++ n :: post → ∀ m ∈ succ n, m ∈ pre) ∧
      ∀ fuel, N ≤ fuel → ∀ flags : Nat → Bool, ∃ v,
        nodes.foldlM (fun st n => dfs succ fuel n st)
          { visited := fun n => if n ∈ nodes then false else flags n, log := [] } = some ⟨v, log⟩ := by
  obtain ⟨N, hN⟩ := exists_bound nodes μ
  obtain ⟨st, h1, h2, h3, -⟩ := dfs_all (In := (· ∈ nodes)) (V0 := fun _ => false) (μ := μ) hc N nodes
    (fun n hn => ⟨hn, hN n hn⟩) ⟨fun _ => false, []⟩ (DfsInv.start _ _ _)
  refine ⟨N, st.log, h2.nodup, ?_, ?_, ?_⟩
  · intro n
    constructor
    · intro h; exact (h2.mem n h).1
    · intro h
      rcases (h2.vis n).1 (h3 n h) with h | h
      · cases h
      · exact h
  · intro pre n post he m hm
    rcases h2.order pre n post he m hm with h | h
    · exact h
    · cases h
  · intro fuel hf flags
    obtain ⟨b, hb, hab⟩ := dfs_all_agree (In := (· ∈ nodes)) (fun n hn m hm => (hc n hn m hm).1) fuel nodes
      ⟨fun _ => false, []⟩ { visited := fun n => if n ∈ nodes then false else flags n, log := [] } st
      (fun _ h => h) ⟨rfl, by intro n hn; simp [hn]⟩ (dfs_all_mono hf _ _ _ h1)
    refine ⟨b.visited, ?_⟩
    rw [hb, hab.1]

/-! ### The traversals are depth-first searches -/

theorem ffNode_eq (h : Nat → Node) (fuel n : Nat) (st : Visit Nat) :
    ffNode h fuel n st = dfs (fun n => (h n).inputs.map (·.node)) fuel n st := by
  induction fuel generalizing n st with
  | zero => rfl
  | succ fuel ih =>
    unfold ffNode dfs
    simp only [List.foldlM_map, ih]

theorem initNode_eq (h : Nat → Node) (fuel n : Nat) (st : Visit Nat) :
    initNode h fuel n st = dfs (fun n => (h n).inputs.map (·.node)) fuel n st := by
  induction fuel generalizing n st with
  | zero => rfl
  | succ fuel ih =>
    unfold initNode dfs
    simp only [List.foldlM_map, ih]

/-- Reading a traversal with decorated log entries. -/
def Visit.deco {ε : Type} (f : Nat → ε) (st : Visit Nat) : Visit ε := ⟨st.visited, st.log.map f⟩

theorem bpNode_eq (h : Nat → Node) (fuel n : Nat) (st : Visit Nat) :
    bpNode h fuel n (st.deco fun n => (n, (h n).inputs.foldl (fun d c => d || c.backprop) false)) =
      (dfs (fun n => (h n).bps.map (·.node)) fuel n st).map
        (Visit.deco fun n => (n, (h n).inputs.foldl (fun d c => d || c.backprop) false)) := by
  induction fuel generalizing n st with
  | zero => rfl
  | succ fuel ih =>
    unfold bpNode dfs
    by_cases hv : st.visited n = true
    · rw [if_pos hv, if_pos (by exact hv)]; rfl
    · rw [if_neg hv, if_neg (by exact hv)]
      have hfold : ∀ (l : List BConn) (st : Visit Nat),
          l.foldlM (fun st c => bpNode h fuel c.node st) (st.deco fun n =>
            (n, (h n).inputs.foldl (fun d c => d || c.backprop) false)) =
          ((l.map (·.node)).foldlM
            (fun st m => dfs (fun n => (h n).bps.map (·.node)) fuel m st) st).map
            (Visit.deco fun n => (n, (h n).inputs.foldl (fun d c => d || c.backprop) false)) := by
        intro l
        induction l with
        | nil => intro st; rfl
        | cons c l ihl =>
          intro st
          rw [List.map_cons, List.foldlM_cons, List.foldlM_cons, ih]
          cases dfs (fun n => (h n).bps.map (·.node)) fuel c.node st with
          | none => rfl
          | some s1 => exact ihl s1
      rw [hfold]
      cases ((h n).bps.map (·.node)).foldlM
          (fun st m => dfs (fun n => (h n).bps.map (·.node)) fuel m st) st with
      | none => rfl
      | some s1 => simp [Visit.deco]

theorem weightNode_eq (h : Nat → Node) (fuel n : Nat) (st : Visit Nat) :
    weightNode h fuel n (st.deco fun n => (n, (h n).bps.map (·.node))) =
      (dfs (fun n => (h n).bps.map (·.node)) fuel n st).map
        (Visit.deco fun n => (n, (h n).bps.map (·.node))) := by
  induction fuel generalizing n st with
  | zero => rfl
  | succ fuel ih =>
    unfold weightNode dfs
    by_cases hv : st.visited n = true
    · rw [if_pos hv, if_pos (by exact hv)]; rfl
    · rw [if_neg hv, if_neg (by exact hv)]
      have hfold : ∀ (l : List BConn) (st : Visit Nat),
          l.foldlM (fun st c => weightNode h fuel c.node st)
            (st.deco fun n => (n, (h n).bps.map (·.node))) =
          ((l.map (·.node)).foldlM
            (fun st m => dfs (fun n => (h n).bps.map (·.node)) fuel m st) st).map
            (Visit.deco fun n => (n, (h n).bps.map (·.node))) := by
        intro l
        induction l with
        | nil => intro st; rfl
        | cons c l ihl =>
          intro st
          rw [List.map_cons, List.foldlM_cons, List.foldlM_cons, ih]
          cases dfs (fun n => (h n).bps.map (·.node)) fuel c.node st with
          | none => rfl
          | some s1 => exact ihl s1
      rw [hfold]
      cases ((h n).bps.map (·.node)).foldlM
          (fun st m => dfs (fun n => (h n).bps.map (·.node)) fuel m st) st with
      | none => rfl
      | some s1 => simp [Visit.deco]

theorem foldlM_deco {ε : Type} {f : Nat → ε} {F : Nat → Visit ε → Option (Visit ε)}
    {G : Nat → Visit Nat → Option (Visit Nat)}
    (hFG : ∀ n st, F n (st.deco f) = (G n st).map (Visit.deco f)) (l : List Nat) (st : Visit Nat) :
    l.foldlM (fun st n => F n st) (st.deco f) =
      (l.foldlM (fun st n => G n st) st).map (Visit.deco f) := by
  induction l generalizing st with
  | nil => rfl
  | cons n l ih =>
    rw [List.foldlM_cons, List.foldlM_cons, hFG]
    cases G n st with
    | none => rfl
    | some s1 => exact ih s1


end CN24.Net
