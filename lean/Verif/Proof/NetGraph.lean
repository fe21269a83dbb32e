import Verif.Proof.Dfs

/-! The bookkeeping of the graph: adding nodes and inserting accumulation nodes. -/

namespace CN24.Net

@[simp] theorem setNode_self (h : Nat → Node) (n : Nat) (v : Node) : setNode h n v n = v := by
  simp [setNode]

theorem setNode_ne {h : Nat → Node} {n k : Nat} {v : Node} (e : k ≠ n) : setNode h n v k = h k := by
  simp [setNode, e]

theorem setNode_apply (h : Nat → Node) (n k : Nat) (v : Node) :
    setNode h n v k = if k = n then v else h k := rfl

/-- The registered consumers of every node are exactly the back-propagating connections of the
nodes of the graph. -/
def Cons (g : Graph) : Prop :=
  ∀ s r b, (g.heap s).bps.count ⟨r, b⟩ =
    if r ∈ g.nodes then (g.heap r).inputs.count ⟨s, b, true⟩ else 0

/-- Input nodes have no back-propagating readers. -/
def InpOk (g : Graph) : Prop :=
  ∀ r ∈ g.nodes, ∀ c ∈ (g.heap r).inputs, c.backprop = true → (g.heap c.node).isInput = false

/-! ### `AddNode` -/

/-- The registration loop of `addNode`. -/
def register (n : Nat) (cs : List Conn) (h : Nat → Node) : Nat → Node :=
  cs.foldl (fun h c =>
    if c.backprop && !(h c.node).isInput then
      setNode h c.node { h c.node with bps := (h c.node).bps ++ [⟨n, c.buffer⟩] }
    else h) h

theorem register_spec (n : Nat) (cs : List Conn) (h : Nat → Node) (k : Nat) :
    register n cs h k = { h k with
      bps := (h k).bps ++
        (cs.filter (fun c => c.node = k ∧ c.backprop = true ∧ (h k).isInput = false)).map
          (fun c => ⟨n, c.buffer⟩) } := by
  induction cs generalizing h with
  | nil => simp [register]
  | cons c cs ih =>
    unfold register
    rw [List.foldl_cons]
    change register n cs _ k = _
    rw [ih]
    by_cases hc : (c.backprop && !(h c.node).isInput) = true
    · rw [if_pos hc]
      simp only [Bool.and_eq_true, Bool.not_eq_true'] at hc
      by_cases hk : k = c.node
      · subst hk
        simp only [setNode_self]
        rw [List.filter_cons_of_pos (by simpa using ⟨hc.1, hc.2⟩)]
        simp
      · rw [setNode_ne hk, List.filter_cons_of_neg (by simp; intro e; exact absurd e.symm hk)]
    · rw [if_neg hc]
      simp only [Bool.and_eq_true, Bool.not_eq_true'] at hc
      rw [List.filter_cons_of_neg]
      simp only [decide_eq_true_eq]
      rintro ⟨e, h1, h2⟩
      subst e
      exact hc ⟨h1, h2⟩

theorem addNode_nodes (g : Graph) (n : Nat) : (addNode g n).nodes = g.nodes ++ [n] := rfl
theorem addNode_next (g : Graph) (n : Nat) : (addNode g n).next = g.next := rfl

/-- Everything `addNode` does to a node object. -/
theorem addNode_heap (g : Graph) (n k : Nat) :
    (addNode g n).heap k =
      { g.heap k with
        named := (g.heap k).named || decide (k = n),
        bps := (g.heap k).bps ++
          ((g.heap n).inputs.filter (fun c =>
            c.node = k ∧ c.backprop = true ∧ (g.heap k).isInput = false)).map
            (fun c => ⟨n, c.buffer⟩),
        inputs := if k = n then (g.heap n).inputs.map (fun c =>
            if c.backprop && (g.heap c.node).isInput then { c with backprop := false } else c)
          else (g.heap k).inputs } := by
  unfold addNode
  change setNode (register n (g.heap n).inputs (setNode g.heap n { g.heap n with named := true })) n
    { register n (g.heap n).inputs (setNode g.heap n { g.heap n with named := true }) n with
      inputs := _ } k = _
  by_cases hk : k = n
  · subst hk
    rw [setNode_self, register_spec]
    simp
  · rw [setNode_ne hk, register_spec, setNode_ne hk]
    simp [hk]

theorem count_map_filter (cs : List Conn) (n s b : Nat) (P : Bool) :
    ((cs.filter fun c => c.node = s ∧ c.backprop = true ∧ P = false).map
      fun c => (⟨n, c.buffer⟩ : BConn)).count ⟨n, b⟩ =
      if P then 0 else cs.count ⟨s, b, true⟩ := by
  induction cs with
  | nil => simp
  | cons c cs ih =>
    cases P with
    | true => simp
    | false =>
      simp only [Bool.false_eq_true, if_false] at ih ⊢
      by_cases hc : c.node = s ∧ c.backprop = true
      · rw [List.filter_cons_of_pos (by simpa using hc), List.map_cons]
        by_cases hb : c.buffer = b
        · have : c = ⟨s, b, true⟩ := by cases c; simp_all
          rw [this, List.count_cons_self, List.count_cons_self, ih]
        · rw [List.count_cons_of_ne, List.count_cons_of_ne, ih]
          · intro e; rw [e] at hb; exact hb rfl
          · intro e
            have := congrArg BConn.buffer e
            exact hb this
      · rw [List.filter_cons_of_neg (by simpa using hc), List.count_cons_of_ne, ih]
        intro e; rw [e] at hc; simp at hc

theorem count_map_other (cs : List Conn) (n r b : Nat) (p : Conn → Bool) (h : r ≠ n) :
    ((cs.filter p).map fun c => (⟨n, c.buffer⟩ : BConn)).count ⟨r, b⟩ = 0 := by
  rw [List.count_eq_zero]
  intro hm
  obtain ⟨c, -, e⟩ := List.mem_map.1 hm
  exact h (congrArg BConn.node e).symm

theorem count_clear (cs : List Conn) (f : Nat → Bool) (s b : Nat) :
    (cs.map fun c => if c.backprop && f c.node then { c with backprop := false } else c).count
      ⟨s, b, true⟩ = if f s then 0 else cs.count ⟨s, b, true⟩ := by
  induction cs with
  | nil => simp
  | cons c cs ih =>
    rw [List.map_cons, List.count_cons, List.count_cons, ih]
    by_cases hc : c = ⟨s, b, true⟩
    · subst hc
      cases hf : f s <;> simp
    · have : ¬ (if c.backprop && f c.node then { c with backprop := false } else c) =
          (⟨s, b, true⟩ : Conn) := by
        split
        · intro e; have := congrArg Conn.backprop e; simp at this
        · exact hc
      have h1 : ((if c.backprop && f c.node then { c with backprop := false } else c) ==
          (⟨s, b, true⟩ : Conn)) = false := by rw [beq_eq_false_iff_ne]; exact this
      have h2 : (c == (⟨s, b, true⟩ : Conn)) = false := by rw [beq_eq_false_iff_ne]; exact hc
      rw [h1, h2]
      simp

theorem addNode_cons {g : Graph} {n : Nat} (hg : Cons g) (hn : n ∉ g.nodes) :
    Cons (addNode g n) := by
  intro s r b
  have := hg s r b
  rw [addNode_heap, addNode_heap, addNode_nodes]
  simp only
  rw [List.count_append, this]
  by_cases hr : r = n
  · subst hr
    rw [if_neg hn, count_map_filter, if_pos (by simp : r ∈ g.nodes ++ [r]), if_pos rfl,
      count_clear _ (fun k => (g.heap k).isInput)]
    simp
  · rw [count_map_other _ _ _ _ _ hr, if_neg hr]
    by_cases hm : r ∈ g.nodes
    · simp [hm]
    · simp [hm, hr]

theorem addNode_inpOk {g : Graph} {n : Nat} (hg : InpOk g) (hn : n ∉ g.nodes) :
    InpOk (addNode g n) := by
  intro r hr c hc hb
  rw [addNode_heap] at hc
  rw [addNode_heap]
  simp only at hc ⊢
  rw [addNode_nodes] at hr
  by_cases hrn : r = n
  · subst hrn
    rw [if_pos rfl] at hc
    obtain ⟨c', hc', e⟩ := List.mem_map.1 hc
    split at e
    · subst e; simp at hb
    · rename_i h
      subst e
      simpa [hb] using h
  · rw [if_neg hrn] at hc
    exact hg r (by simpa [hrn] using hr) c hc hb

/-! ### Redirection -/

/-- What may happen to a connection while the readers of `s` are moved to `ga`. -/
def Moved (s ga : Nat) (c c' : Conn) : Prop :=
  c' = c ∨ (c = ⟨s, 0, true⟩ ∧ c'.node = ga ∧ c'.backprop = true)

/-- The effect of redirecting some connections from `(s, 0)` to the buffers `js` of `ga`. -/
structure Red (s ga : Nat) (cs : List Conn) (js : List Nat) (cs' : List Conn) : Prop where
  moved : List.Forall₂ (Moved s ga) cs cs'
  src : cs'.count ⟨s, 0, true⟩ + js.length = cs.count ⟨s, 0, true⟩
  dst : ∀ j, cs'.count ⟨ga, j, true⟩ = cs.count ⟨ga, j, true⟩ + js.count j
  other : ∀ x : Conn, x ≠ ⟨s, 0, true⟩ → x.node ≠ ga → cs'.count x = cs.count x

theorem Red.refl (s ga : Nat) (cs : List Conn) : Red s ga cs [] cs := by
  refine ⟨?_, by simp, by simp, by simp⟩
  induction cs with
  | nil => exact .nil
  | cons c cs ih => exact .cons (.inl rfl) ih

theorem Red.keep {s ga : Nat} {cs cs' : List Conn} {js : List Nat} (c : Conn)
    (h : Red s ga cs js cs') : Red s ga (c :: cs) js (c :: cs') := by
  refine ⟨.cons (.inl rfl) h.moved, ?_, ?_, ?_⟩
  · have := h.src
    rw [List.count_cons, List.count_cons]; omega
  · intro j
    have := h.dst j
    rw [List.count_cons, List.count_cons]; omega
  · intro x h1 h2
    have := h.other x h1 h2
    rw [List.count_cons, List.count_cons]; omega

theorem Red.move {s ga : Nat} {cs cs' : List Conn} {js : List Nat} (b : Nat) (hne : s ≠ ga)
    (h : Red s ga cs js cs') :
    Red s ga (⟨s, 0, true⟩ :: cs) (b :: js) (⟨ga, b, true⟩ :: cs') := by
  refine ⟨.cons (.inr ⟨rfl, rfl, rfl⟩) h.moved, ?_, ?_, ?_⟩
  · have := h.src
    rw [List.count_cons_of_ne (by intro e; exact hne (congrArg Conn.node e).symm),
      List.count_cons_self, List.length_cons]; omega
  · intro j
    have := h.dst j
    rw [List.count_cons_of_ne (b := (⟨s, 0, true⟩ : Conn))
      (by intro e; exact hne (congrArg Conn.node e))]
    by_cases e : b = j
    · subst e; rw [List.count_cons_self, List.count_cons_self]; omega
    · rw [List.count_cons_of_ne (by intro e'; exact e (congrArg Conn.buffer e')),
        List.count_cons_of_ne e]; omega
  · intro x h1 h2
    have := h.other x h1 h2
    rw [List.count_cons_of_ne h1.symm,
      List.count_cons_of_ne (by intro e; rw [← e] at h2; exact h2 rfl), this]

/-- All back-propagating connections from `s` use buffer 0. -/
def Zero (s : Nat) (cs : List Conn) : Prop :=
  ∀ c ∈ cs, c.node = s → c.backprop = true → c.buffer = 0

theorem redirect_pos {s ga : Nat} : ∀ (cs : List Conn) (k b : Nat), Zero s cs → 0 < k →
    redirect s ga cs k b = (cs, k, b)
  | [], _, _, _, _ => rfl
  | c :: cs, k, b, hz, hk => by
    unfold redirect
    rw [if_neg, redirect_pos cs k b (fun c hc => hz c (List.mem_cons_of_mem _ hc)) hk]
    rintro ⟨h1, h2, h3⟩
    have := hz c (by simp) h1 h3
    omega

theorem redirect_one {s ga : Nat} (hne : s ≠ ga) : ∀ (cs : List Conn) (b : Nat), Zero s cs → 0 < b →
    ∃ js, Red s ga cs js (redirect s ga cs 0 b).1 ∧
      ((cs.count ⟨s, 0, true⟩ = 0 ∧ js = [] ∧ (redirect s ga cs 0 b).2 = (0, b)) ∨
       (0 < cs.count ⟨s, 0, true⟩ ∧ js = [b] ∧ (redirect s ga cs 0 b).2 = (b, b + 1)))
  | [], b, _, _ => ⟨[], Red.refl _ _ _, .inl ⟨by simp, rfl, rfl⟩⟩
  | c :: cs, b, hz, hb => by
    have hz' : Zero s cs := fun c hc => hz c (List.mem_cons_of_mem _ hc)
    by_cases hc : c.node = s ∧ c.buffer = 0 ∧ c.backprop = true
    · have hc' : c = ⟨s, 0, true⟩ := by cases c; simp_all
      refine ⟨[b], ?_, .inr ⟨by subst hc'; simp, rfl, ?_⟩⟩
      · unfold redirect
        rw [if_pos hc, redirect_pos cs b (b + 1) hz' hb]
        subst hc'
        exact Red.move b hne (Red.refl _ _ _)
      · unfold redirect
        rw [if_pos hc, redirect_pos cs b (b + 1) hz' hb]
    · obtain ⟨js, h1, h2⟩ := redirect_one hne cs b hz' hb
      have hc' : c ≠ ⟨s, 0, true⟩ := by intro e; rw [e] at hc; simp at hc
      refine ⟨js, ?_, ?_⟩
      · unfold redirect
        rw [if_neg hc]
        exact h1.keep c
      · unfold redirect
        rw [if_neg hc, List.count_cons_of_ne hc']
        exact h2

theorem redirect_first {s ga : Nat} (hne : s ≠ ga) : ∀ (cs : List Conn), Zero s cs →
    ∃ js, Red s ga cs js (redirect s ga cs 0 0).1 ∧
      ((cs.count ⟨s, 0, true⟩ = 0 ∧ js = [] ∧ (redirect s ga cs 0 0).2 = (0, 0)) ∨
       (cs.count ⟨s, 0, true⟩ = 1 ∧ js = [0] ∧ (redirect s ga cs 0 0).2 = (0, 1)) ∨
       (2 ≤ cs.count ⟨s, 0, true⟩ ∧ js = [0, 1] ∧ (redirect s ga cs 0 0).2 = (1, 2)))
  | [], _ => ⟨[], Red.refl _ _ _, .inl ⟨by simp, rfl, rfl⟩⟩
  | c :: cs, hz => by
    have hz' : Zero s cs := fun c hc => hz c (List.mem_cons_of_mem _ hc)
    by_cases hc : c.node = s ∧ c.buffer = 0 ∧ c.backprop = true
    · have hc' : c = ⟨s, 0, true⟩ := by cases c; simp_all
      obtain ⟨js, h1, h2⟩ := redirect_one hne cs 1 hz' (by omega)
      refine ⟨0 :: js, ?_, ?_⟩
      · unfold redirect
        rw [if_pos hc]
        subst hc'
        exact Red.move 0 hne h1
      · unfold redirect
        rw [if_pos hc]
        subst hc'
        rw [List.count_cons_self]
        rcases h2 with ⟨e1, e2, e3⟩ | ⟨e1, e2, e3⟩
        · exact .inr (.inl ⟨by omega, by rw [e2], e3⟩)
        · exact .inr (.inr ⟨by omega, by rw [e2], e3⟩)
    · obtain ⟨js, h1, h2⟩ := redirect_first hne cs hz'
      have hc' : c ≠ ⟨s, 0, true⟩ := by intro e; rw [e] at hc; simp at hc
      refine ⟨js, ?_, ?_⟩
      · unfold redirect
        rw [if_neg hc]
        exact h1.keep c
      · unfold redirect
        rw [if_neg hc, List.count_cons_of_ne hc']
        exact h2

theorem Red.zero {s ga : Nat} {cs cs' : List Conn} {js : List Nat} (hne : s ≠ ga)
    (h : Red s ga cs js cs') (hz : Zero s cs) : Zero s cs' := by
  intro c hc h1 h2
  by_contra hb
  have hx : c ≠ ⟨s, 0, true⟩ := by intro e; rw [e] at hb; exact hb rfl
  have := h.other c hx (by rw [h1]; exact hne)
  have hc' : 0 < cs'.count c := List.count_pos_iff.2 hc
  rw [this, List.count_pos_iff] at hc'
  exact hb (hz c hc' h1 h2)

/-! ### The outer loop -/

/-- What the redirection leaves alone. -/
structure Frame (s ga : Nat) (h h' : Nat → Node) : Prop where
  rest : ∀ k, h' k = { h k with inputs := (h' k).inputs, bps := (h' k).bps }
  bps : ∀ k, k ≠ ga → (h' k).bps = (h k).bps
  moved : ∀ k, List.Forall₂ (Moved s ga) (h k).inputs (h' k).inputs
  own : (h' ga).inputs = (h ga).inputs
  other : ∀ k (x : Conn), x ≠ ⟨s, 0, true⟩ → x.node ≠ ga →
    (h' k).inputs.count x = (h k).inputs.count x

theorem forall₂_refl_moved (s ga : Nat) (cs : List Conn) : List.Forall₂ (Moved s ga) cs cs :=
  (Red.refl s ga cs).moved

theorem Frame.refl (s ga : Nat) (h : Nat → Node) : Frame s ga h h :=
  ⟨fun _ => rfl, fun _ _ => rfl, fun _ => forall₂_refl_moved _ _ _, rfl, fun _ _ _ _ => rfl⟩

theorem Moved.trans {s ga : Nat} (hne : s ≠ ga) {a b c : Conn} (h1 : Moved s ga a b)
    (h2 : Moved s ga b c) : Moved s ga a c := by
  rcases h1 with rfl | ⟨e, h3, h4⟩
  · exact h2
  · rcases h2 with rfl | ⟨e', -, -⟩
    · exact .inr ⟨e, h3, h4⟩
    · rw [e'] at h3; exact absurd h3 hne

theorem forall₂_moved_trans {s ga : Nat} (hne : s ≠ ga) {a b c : List Conn}
    (h1 : List.Forall₂ (Moved s ga) a b) (h2 : List.Forall₂ (Moved s ga) b c) :
    List.Forall₂ (Moved s ga) a c := by
  induction h1 generalizing c with
  | nil => cases h2; exact .nil
  | cons h _ ih =>
    cases h2 with
    | cons h' t' => exact .cons (h.trans hne h') (ih t')

theorem forall₂_moved_mem {s ga : Nat} {cs cs' : List Conn} (h : List.Forall₂ (Moved s ga) cs cs')
    {c : Conn} (hc : c ∈ cs') : c ∈ cs ∨ (c.node = ga ∧ c.backprop = true) := by
  induction h with
  | nil => simp at hc
  | cons h1 h2 ih =>
    rcases List.mem_cons.1 hc with rfl | hc
    · rcases h1 with e | ⟨-, e1, e2⟩
      · left; rw [e]; simp
      · exact .inr ⟨e1, e2⟩
    · rcases ih hc with e | e
      · exact .inl (List.mem_cons_of_mem _ e)
      · exact .inr e

theorem Frame.trans {s ga : Nat} (hne : s ≠ ga) {h1 h2 h3 : Nat → Node} (a : Frame s ga h1 h2)
    (b : Frame s ga h2 h3) : Frame s ga h1 h3 := by
  refine ⟨?_, ?_, ?_, by rw [b.own, a.own], ?_⟩
  · intro k
    have e1 := a.rest k
    have e2 := b.rest k
    rw [e1] at e2
    exact e2
  · intro k hk; rw [b.bps k hk, a.bps k hk]
  · intro k; exact forall₂_moved_trans hne (a.moved k) (b.moved k)
  · intro k x h h'; rw [b.other k x h h', a.other k x h h']

/-- One iteration: the entry `(r, 0)`. -/
theorem step_frame {s ga r : Nat} {h : Nat → Node} {js : List Nat} {cs : List Conn} (v : BConn)
    (hr : r ≠ ga) (hR : Red s ga (h r).inputs js cs) :
    Frame s ga h (setNode (setNode h r { h r with inputs := cs }) ga
      { h ga with bps := (h ga).bps ++ [v] }) := by
  refine ⟨?_, ?_, ?_, ?_, ?_⟩
  · intro k
    by_cases e : k = ga
    · subst e; simp
    · rw [setNode_ne e]
      by_cases e' : k = r
      · subst e'; simp
      · rw [setNode_ne e']
  · intro k e
    rw [setNode_ne e]
    by_cases e' : k = r
    · subst e'; simp
    · rw [setNode_ne e']
  · intro k
    by_cases e : k = ga
    · subst e; simp only [setNode_self]; exact forall₂_refl_moved _ _ _
    · rw [setNode_ne e]
      by_cases e' : k = r
      · subst e'; simp only [setNode_self]; exact hR.moved
      · rw [setNode_ne e']; exact forall₂_refl_moved _ _ _
  · simp
  · intro k x h1 h2
    by_cases e : k = ga
    · subst e; simp
    · rw [setNode_ne e]
      by_cases e' : k = r
      · subst e'; simp only [setNode_self]; exact hR.other x h1 h2
      · rw [setNode_ne e']

theorem redirectAll_spec {s ga : Nat} (hne : s ≠ ga) (N : List Nat) (hga : ga ∉ N) :
    ∀ (Q : List BConn) (h : Nat → Node) (b : Nat) (debt : Option Nat),
      (∀ e ∈ Q, e.buffer = 0 ∧ e.node ∈ N) → (∀ r ∈ N, Zero s (h r).inputs) →
      (∀ r ∈ N, (h r).inputs.count ⟨s, 0, true⟩ + (if debt = some r then 1 else 0) =
        Q.count ⟨r, 0⟩) →
      (∀ r ∈ N, ∀ j, (h r).inputs.count ⟨ga, j, true⟩ =
        (h ga).bps.count ⟨r, j⟩ + if debt = some r ∧ j = 0 then 1 else 0) →
      (∀ j, (h ga).bps.countP (fun e => e.buffer = j) +
        (if debt.isSome = true ∧ j = 0 then 1 else 0) = if j < b then 1 else 0) →
      (h ga).bps.length + (if debt.isSome then 1 else 0) = b →
      (∀ e ∈ (h ga).bps, e.node ∈ N) → (∀ r, debt = some r → r ∈ N) →
      let h' := redirectAll s ga (Q ++ [⟨ga, 0⟩]) h b
      Frame s ga h h' ∧ (∀ r ∈ N, (h' r).inputs.count ⟨s, 0, true⟩ = 0) ∧
      (∀ r ∈ N, ∀ j, (h' r).inputs.count ⟨ga, j, true⟩ = (h' ga).bps.count ⟨r, j⟩) ∧
      (∀ j, (h' ga).bps.countP (fun e => e.buffer = j) =
        if j < (h ga).bps.length + Q.length then 1 else 0) ∧
      (∀ e ∈ (h' ga).bps, e.node ∈ N) := by
  intro Q
  induction Q with
  | nil =>
    intro h b debt _ _ h1 h2 h3 h4 h5 h6
    have hd : debt = none := by
      cases debt with
      | none => rfl
      | some r =>
        have := h1 r (h6 r rfl)
        simp at this
    subst hd
    have e : redirectAll s ga ([] ++ [⟨ga, 0⟩]) h b = h := by simp [redirectAll]
    simp only [e]
    refine ⟨Frame.refl _ _ _, fun r hr => by simpa using h1 r hr, fun r hr j => by simpa using h2 r hr j,
      ?_, h5⟩
    intro j
    have := h3 j
    simp at this h4 ⊢
    rw [this, h4]
  | cons e Q ih =>
    intro h b debt hQ hz h1 h2 h3 h4 h5 h6
    obtain ⟨⟨hb0, hrN⟩, hQ'⟩ := List.forall_mem_cons.1 hQ
    obtain ⟨r, eb⟩ := e
    simp only at hb0 hrN
    subst hb0
    have hrga : r ≠ ga := fun e => hga (e ▸ hrN)
    -- the state after this entry
    have key : ∃ js k b' debt', Red s ga (h r).inputs js (redirect s ga (h r).inputs 0 b).1 ∧
        (redirect s ga (h r).inputs 0 b).2 = (k, b') ∧
        -- readers
        (∀ q ∈ N, (h q).inputs.count ⟨s, 0, true⟩ - (if q = r then js.length else 0) +
          (if debt' = some q then 1 else 0) = Q.count ⟨q, 0⟩) ∧
        (∀ q ∈ N, ∀ j, (h q).inputs.count ⟨ga, j, true⟩ + (if q = r then js.count j else 0) =
          (h ga).bps.count ⟨q, j⟩ + (if q = r ∧ k = j then 1 else 0) +
            if debt' = some q ∧ j = 0 then 1 else 0) ∧
        (∀ j, (h ga).bps.countP (fun e => e.buffer = j) + (if k = j then 1 else 0) +
          (if debt'.isSome = true ∧ j = 0 then 1 else 0) = if j < b' then 1 else 0) ∧
        (h ga).bps.length + 1 + (if debt'.isSome then 1 else 0) = b' ∧
        (∀ q, debt' = some q → q ∈ N) := by
      have hcount : ∀ q, List.count (⟨q, 0⟩ : BConn) (⟨r, 0⟩ :: Q) =
          Q.count ⟨q, 0⟩ + if q = r then 1 else 0 := by
        intro q
        by_cases e : q = r
        · subst e; simp
        · rw [List.count_cons_of_ne (by intro e'; exact e (congrArg BConn.node e').symm), if_neg e]
          omega
      have h1r := h1 r hrN
      rw [hcount, if_pos rfl] at h1r
      by_cases hb : b = 0
      · -- the first entry
        subst hb
        have hd : debt = none := by
          cases debt with
          | none => rfl
          | some q => have := h3 0; simp at this
        subst hd
        have hnil : (h ga).bps = [] := by simpa using h4
        simp only [reduceCtorEq, if_false, Nat.add_zero] at h1r
        obtain ⟨js, hR, hcase⟩ := redirect_first hne (h r).inputs (hz r hrN)
        rcases hcase with ⟨e1, e2, e3⟩ | ⟨e1, e2, e3⟩ | ⟨e1, e2, e3⟩
        · omega
        · refine ⟨js, 0, 1, none, hR, e3, ?_, ?_, ?_, by simp [hnil], by simp⟩
          · intro q hq
            have := h1 q hq
            rw [hcount] at this
            subst e2
            simp only [reduceCtorEq, if_false, Nat.add_zero, List.length_singleton] at this ⊢
            by_cases e : q = r
            · rw [if_pos e] at this ⊢; omega
            · rw [if_neg e] at this ⊢; omega
          · intro q hq j
            have := h2 q hq j
            subst e2
            simp only [reduceCtorEq, false_and, if_false, Nat.add_zero] at this ⊢
            rw [this]
            by_cases e : q = r
            · subst e
              by_cases ej : 0 = j
              · subst ej; simp
              · simp [ej]
            · simp [e]
          · intro j
            simp only [hnil, List.countP_nil]
            by_cases ej : 0 = j
            · subst ej; simp
            · simp [ej]; omega
        · refine ⟨js, 1, 2, some r, hR, e3, ?_, ?_, ?_, by simp [hnil], ?_⟩
          · intro q hq
            have := h1 q hq
            rw [hcount] at this
            subst e2
            simp only [reduceCtorEq, if_false, Nat.add_zero, Option.some.injEq,
              List.length_cons, List.length_nil] at this ⊢
            by_cases e : q = r
            · subst e; simp at this ⊢; omega
            · rw [if_neg e] at this ⊢
              rw [if_neg (fun e' => e e'.symm)]; omega
          · intro q hq j
            have := h2 q hq j
            subst e2
            simp only [reduceCtorEq, false_and, if_false, Nat.add_zero, Option.some.injEq] at this ⊢
            rw [this]
            by_cases e : q = r
            · subst e
              by_cases ej : 0 = j
              · subst ej; simp
              · by_cases ej1 : 1 = j
                · subst ej1; simp
                · have : j ≠ 0 := fun h => ej h.symm
                  simp [ej, ej1, this, List.count_cons]
            · simp [e]; exact fun e' => absurd e'.symm e
          · intro j
            simp only [hnil, List.countP_nil]
            by_cases ej : 0 = j
            · subst ej; simp
            · by_cases ej1 : 1 = j
              · subst ej1; simp
              · have : j ≠ 0 := fun h => ej h.symm
                simp [ej1, this]; omega
          · intro q e; cases e; exact hrN
      · -- later entries
        obtain ⟨js, hR, hcase⟩ := redirect_one hne (h r).inputs b (hz r hrN) (by omega)
        rcases hcase with ⟨e1, e2, e3⟩ | ⟨e1, e2, e3⟩
        · -- the debt of this reader is resolved
          have hd : debt = some r := by
            by_contra hd
            rw [if_neg hd] at h1r; omega
          subst hd
          refine ⟨js, 0, b, none, hR, e3, ?_, ?_, ?_, ?_, by simp⟩
          · intro q hq
            have := h1 q hq
            rw [hcount] at this
            subst e2
            simp only [Option.some.injEq, reduceCtorEq, if_false, List.length_nil, ite_self] at this ⊢
            by_cases e : q = r
            · subst e; simp at this; omega
            · rw [if_neg e, if_neg (fun e' => e e'.symm)] at this; omega
          · intro q hq j
            have := h2 q hq j
            subst e2
            simp only [Option.some.injEq, reduceCtorEq, false_and, if_false, List.count_nil, ite_self]
              at this ⊢
            rw [this]
            by_cases e : q = r
            · subst e
              by_cases ej : 0 = j
              · subst ej; simp
              · have : j ≠ 0 := fun h => ej h.symm
                simp [ej, this]
            · simp [e]; exact fun e' => absurd e'.symm e
          · intro j
            have := h3 j
            simp only [Option.isSome_some, true_and, Option.isSome_none, Bool.false_eq_true, false_and,
              if_false, Nat.add_zero] at this ⊢
            rw [← this]
            by_cases ej : 0 = j
            · subst ej; simp
            · have : j ≠ 0 := fun h => ej h.symm
              simp [ej, this]
          · simp at h4 ⊢; omega
        · refine ⟨js, b, b + 1, debt, hR, e3, ?_, ?_, ?_, ?_, h6⟩
          · intro q hq
            have := h1 q hq
            rw [hcount] at this
            subst e2
            by_cases e : q = r
            · subst e; simp at this ⊢; omega
            · rw [if_neg e] at this ⊢; omega
          · intro q hq j
            have := h2 q hq j
            subst e2
            rw [this]
            by_cases e : q = r
            · subst e
              by_cases ej : b = j
              · subst ej; simp; omega
              · simp [ej, List.count_cons]
            · simp [e]
          · intro j
            have := h3 j
            have hlt : (if j < b + 1 then 1 else 0) = (if j < b then 1 else 0) + if b = j then 1 else 0 := by
              by_cases e : b = j
              · subst e; simp
              · by_cases e' : j < b
                · simp [e, e']; omega
                · rw [if_neg (by omega), if_neg e', if_neg e]
            rw [hlt, ← this]; omega
          · omega
    obtain ⟨js, k, b', debt', hR, hrk, k1, k2, k3, k4, k5⟩ := key
    have hfr := step_frame (h := h) ⟨r, k⟩ hrga hR
    have hstep : redirectAll s ga (⟨r, 0⟩ :: Q ++ [⟨ga, 0⟩]) h b =
        redirectAll s ga (Q ++ [⟨ga, 0⟩])
          (setNode (setNode h r { h r with inputs := (redirect s ga (h r).inputs 0 b).1 }) ga
            { h ga with bps := (h ga).bps ++ [⟨r, k⟩] }) b' := by
      rw [List.cons_append]
      conv => lhs; unfold redirectAll
      rw [if_pos hrga]
      simp only [hrk, setNode_ne hrga.symm]
    generalize hh1 : setNode (setNode h r { h r with inputs := (redirect s ga (h r).inputs 0 b).1 }) ga
            { h ga with bps := (h ga).bps ++ [⟨r, k⟩] } = hn at hfr hstep
    have hgab : (hn ga).bps = (h ga).bps ++ [⟨r, k⟩] := by rw [← hh1]; simp
    have hin : ∀ q ∈ N, (hn q).inputs = if q = r then (redirect s ga (h r).inputs 0 b).1
        else (h q).inputs := by
      intro q hq
      have : q ≠ ga := fun e => hga (e ▸ hq)
      rw [← hh1, setNode_ne this]
      by_cases e : q = r
      · subst e; simp
      · rw [setNode_ne e, if_neg e]
    have hz' : ∀ q ∈ N, Zero s (hn q).inputs := by
      intro q hq
      rw [hin q hq]
      split
      · exact hR.zero hne (hz r hrN)
      · exact hz q hq
    have := ih hn b' debt' hQ' hz' (by
        intro q hq
        rw [← k1 q hq, hin q hq]
        by_cases e : q = r
        · subst e
          rw [if_pos rfl, if_pos rfl]
          have := hR.src; omega
        · rw [if_neg e, if_neg e]; simp) (by
        intro q hq j
        rw [hin q hq, hgab, List.count_append]
        have := k2 q hq j
        have hc1 : List.count (⟨q, j⟩ : BConn) [⟨r, k⟩] = if q = r ∧ k = j then 1 else 0 := by
          by_cases e : q = r ∧ k = j
          · rw [e.1, e.2]; simp
          · rw [if_neg e, List.count_eq_zero]
            simp only [List.mem_singleton, BConn.mk.injEq]
            rintro ⟨a, b⟩; exact e ⟨a, b.symm⟩
        rw [hc1]
        by_cases e : q = r
        · subst e
          rw [if_pos rfl, hR.dst]
          rw [if_pos rfl] at this
          exact this
        · rw [if_neg e]
          rw [if_neg e] at this
          exact this) (by
        intro j
        rw [hgab, List.countP_append]
        have := k3 j
        have hc1 : List.countP (fun e : BConn => decide (e.buffer = j)) [⟨r, k⟩] =
            if k = j then 1 else 0 := by
          by_cases e : k = j <;> simp [e]
        rw [hc1]
        exact this) (by rw [hgab]; simpa using k4) (by
        rw [hgab]
        intro e he
        rcases List.mem_append.1 he with he | he
        · exact h5 e he
        · simp only [List.mem_singleton] at he; subst he; exact hrN) k5
    rw [hstep]
    obtain ⟨t1, t2, t3, t4, t5⟩ := this
    refine ⟨hfr.trans hne t1, t2, t3, ?_, t5⟩
    intro j
    rw [t4 j, hgab]
    simp only [List.length_append, List.length_cons, List.length_nil]
    have : (h ga).bps.length + (0 + 1) + Q.length = (h ga).bps.length + (Q.length + 1) := by omega
    rw [this]

/-! ### Inserting one accumulation node -/

/-- The invariant of the insertion. -/
structure GInv (g : Graph) : Prop where
  cons : Cons g
  inp : InpOk g
  node_lt : ∀ n ∈ g.nodes, n < g.next
  conn_lt : ∀ r ∈ g.nodes, ∀ c ∈ (g.heap r).inputs, c.node < g.next
  zero : ∀ r ∈ g.nodes, ∀ c ∈ (g.heap r).inputs, c.backprop = true →
    (g.heap c.node).isGA = false → c.buffer = 0

theorem GInv.entry {g : Graph} (h : GInv g) {s : Nat} {e : BConn} (he : e ∈ (g.heap s).bps) :
    e.node ∈ g.nodes ∧ ⟨s, e.buffer, true⟩ ∈ (g.heap e.node).inputs := by
  have h1 : 0 < (g.heap s).bps.count e := List.count_pos_iff.2 he
  have h2 := h.cons s e.node e.buffer
  rw [h2] at h1
  split at h1
  · rename_i hm; exact ⟨hm, List.count_pos_iff.1 h1⟩
  · omega

/-- An accumulation node with `n` buffers that reads buffer 0 of `s`. -/
def gaNode (s n : Nat) (bps : List BConn) : Node :=
  { inputs := [⟨s, 0, true⟩], bps := bps, buffers := n, isGA := true, named := true }

/-- The outcome of an insertion at `s`. -/
structure Inserted (g : Graph) (s : Nat) (g' : Graph) : Prop where
  nodes : g'.nodes = g.nodes ++ [g.next]
  next : g'.next = g.next + 1
  node : g'.heap g.next = gaNode s (g.heap s).bps.length (g'.heap g.next).bps
  used : ∀ j, (g'.heap g.next).bps.countP (fun e => e.buffer = j) =
    if j < (g.heap s).bps.length then 1 else 0
  src : (g'.heap s).bps = [⟨g.next, 0⟩]
  bps : ∀ k, k ≠ g.next → k ≠ s → (g'.heap k).bps = (g.heap k).bps
  moved : ∀ k, k ≠ g.next → List.Forall₂ (Moved s g.next) (g.heap k).inputs (g'.heap k).inputs
  rest : ∀ k, k ≠ g.next →
    g'.heap k = { g.heap k with inputs := (g'.heap k).inputs, bps := (g'.heap k).bps }

theorem insertGA_spec {g : Graph} (hg : GInv g) {s : Nat} (hs : s ∈ g.nodes)
    (hl : 1 < (g.heap s).bps.length) (hga : (g.heap s).isGA = false) :
    ∃ g', insertGA g s = (true, g') ∧ Inserted g s g' ∧ GInv g' := by
  have hne : s ≠ g.next := Nat.ne_of_lt (hg.node_lt s hs)
  have hgan : g.next ∉ g.nodes := fun h => Nat.lt_irrefl _ (hg.node_lt _ h)
  have hsin : (g.heap s).isInput = false := by
    cases e : (g.heap s).bps with
    | nil => rw [e] at hl; simp at hl
    | cons x l =>
      obtain ⟨h1, h2⟩ := hg.entry (s := s) (e := x) (by rw [e]; simp)
      exact hg.inp x.node h1 _ h2 rfl
  generalize hnode : ({ inputs := [{ node := s }], buffers := (g.heap s).bps.length, isGA := true } : Node)
    = node
  generalize hg0 : ({ g with heap := setNode g.heap g.next node, next := g.next + 1 } : Graph) = g0
  have g0h : ∀ k, k ≠ g.next → g0.heap k = g.heap k := by
    intro k hk; rw [← hg0]; exact setNode_ne hk
  have g0n : g0.heap g.next = node := by rw [← hg0]; simp
  have g0nodes : g0.nodes = g.nodes := by rw [← hg0]
  generalize hg1 : addNode g0 g.next = g1
  have g1h : ∀ k, k ≠ g.next → k ≠ s → g1.heap k = g.heap k := by
    intro k h1 h2
    rw [← hg1, addNode_heap, g0h k h1, g0n, if_neg h1, ← hnode]
    rw [List.filter_cons_of_neg (by simp; intro e; exact absurd e.symm h2)]
    simp [h1]
  have g1s : g1.heap s = { g.heap s with bps := (g.heap s).bps ++ [⟨g.next, 0⟩] } := by
    rw [← hg1, addNode_heap, g0h s hne, g0n, if_neg hne, ← hnode]
    rw [List.filter_cons_of_pos (by simpa using hsin)]
    simp [hne]
  have g1ga : g1.heap g.next = gaNode s (g.heap s).bps.length [] := by
    rw [← hg1, addNode_heap, g0n, if_pos rfl, ← hnode]
    rw [List.filter_cons_of_neg (by simp [hne])]
    simp [g0h s hne, hsin, gaNode]
  have g1nodes : g1.nodes = g.nodes ++ [g.next] := by rw [← hg1, addNode_nodes, g0nodes]
  have g1next : g1.next = g.next + 1 := by rw [← hg1, addNode_next, ← hg0]
  have g1in : ∀ k, k ≠ g.next → (g1.heap k).inputs = (g.heap k).inputs := by
    intro k hk
    by_cases e : k = s
    · subst e; rw [g1s]
    · rw [g1h k hk e]
  have hN : ∀ r ∈ g.nodes, r ≠ g.next := fun r hr e => hgan (e ▸ hr)
  -- the redirection
  have hgano : ∀ r ∈ g.nodes, ∀ j, (g.heap r).inputs.count ⟨g.next, j, true⟩ = 0 := by
    intro r hr j
    rw [List.count_eq_zero]
    intro hm
    exact Nat.lt_irrefl _ (hg.conn_lt r hr _ hm)
  have spec := redirectAll_spec hne g.nodes hgan (g.heap s).bps g1.heap 0 none
    (by
      intro e he
      obtain ⟨h1, h2⟩ := hg.entry he
      exact ⟨hg.zero _ h1 _ h2 rfl hga, h1⟩)
    (by
      intro r hr c hc h1 h2
      rw [g1in r (hN r hr)] at hc
      exact hg.zero r hr c hc h2 (by rw [h1]; exact hga))
    (by
      intro r hr
      rw [g1in r (hN r hr), hg.cons s r 0, if_pos hr]
      simp)
    (by
      intro r hr j
      rw [g1in r (hN r hr), hgano r hr j, g1ga]
      simp [gaNode])
    (by intro j; rw [g1ga]; simp [gaNode]) (by rw [g1ga]; simp [gaNode]) (by rw [g1ga]; simp [gaNode]) (by simp)
  generalize hh' : redirectAll s g.next ((g.heap s).bps ++ [⟨g.next, 0⟩]) g1.heap 0 = h' at spec
  obtain ⟨fr, sp1, sp2, sp3, sp4⟩ := spec
  have hzero_s : ∀ r ∈ g.nodes, ∀ b, (h' r).inputs.count ⟨s, b, true⟩ = 0 := by
    intro r hr b
    by_cases hb : b = 0
    · subst hb; exact sp1 r hr
    · rw [fr.other r ⟨s, b, true⟩ (by simp [hb]) hne, g1in r (hN r hr), List.count_eq_zero]
      intro hm
      exact hb (hg.zero r hr _ hm rfl hga)
  refine ⟨{
    g1 with heap := setNode h' s { h' s with bps := (h' s).bps.filter fun e => e.node = g.next } },
    ?_, ?_, ?_⟩
  · unfold insertGA
    rw [if_pos ⟨hl, hga⟩]
    simp only
    rw [hnode, hg0, hg1, g1s]
    simp only [hh']
  · have hsb : (h' s).bps = (g.heap s).bps ++ [⟨g.next, 0⟩] := by rw [fr.bps s hne, g1s]
    constructor
    · exact g1nodes
    · exact g1next
    · simp only [setNode_ne hne.symm]
      have := fr.rest g.next
      rw [fr.own, g1ga] at this
      exact this
    · simp only [setNode_ne hne.symm]
      intro j
      rw [sp3 j, g1ga]
      simp [gaNode]
    · simp only [setNode_self, hsb, List.filter_append]
      rw [List.filter_eq_nil_iff.2]
      · simp
      · intro e he
        have := (hg.entry he).1
        simpa using hN _ this
    · intro k h1 h2
      simp only [setNode_ne h2]
      rw [fr.bps k h1, g1h k h1 h2]
    · intro k h1
      have hm := fr.moved k
      rw [g1in k h1] at hm
      by_cases e : k = s
      · subst e; simpa using hm
      · simp only [setNode_ne e]; exact hm
    · intro k h1
      have hr := fr.rest k
      by_cases e : k = s
      · subst e
        simp only [setNode_self]
        rw [g1s] at hr
        rw [hr]
      · simp only [setNode_ne e]
        rw [g1h k h1 e] at hr
        exact hr
  · have hinp : ∀ k, (setNode h' s { h' s with bps := (h' s).bps.filter fun e => e.node = g.next } k).inputs
        = (h' k).inputs := by
      intro k
      by_cases e : k = s
      · subst e; simp
      · rw [setNode_ne e]
    have hsb : (h' s).bps = (g.heap s).bps ++ [⟨g.next, 0⟩] := by rw [fr.bps s hne, g1s]
    have hgain : (h' g.next).inputs = [⟨s, 0, true⟩] := by rw [fr.own, g1ga]; rfl
    have hflag : ∀ k, k ≠ g.next → (h' k).isInput = (g.heap k).isInput ∧
        (h' k).isGA = (g.heap k).isGA := by
      intro k hk
      rw [fr.rest k]
      by_cases e : k = s
      · subst e; rw [g1s]; exact ⟨rfl, rfl⟩
      · rw [g1h k hk e]; exact ⟨rfl, rfl⟩
    have hflag' : ∀ k, k ≠ g.next →
        (setNode h' s { h' s with bps := (h' s).bps.filter fun e => e.node = g.next } k).isInput =
          (g.heap k).isInput ∧
        (setNode h' s { h' s with bps := (h' s).bps.filter fun e => e.node = g.next } k).isGA =
          (g.heap k).isGA := by
      intro k hk
      by_cases e : k = s
      · subst e; rw [setNode_self]; exact hflag k hk
      · rw [setNode_ne e]; exact hflag k hk
    have hgafl : (h' g.next).isInput = false ∧ (h' g.next).isGA = true := by
      rw [fr.rest g.next, g1ga]; exact ⟨rfl, rfl⟩
    have hflagga : (setNode h' s { h' s with bps := (h' s).bps.filter fun e => e.node = g.next }
        g.next).isInput = false ∧
        (setNode h' s { h' s with bps := (h' s).bps.filter fun e => e.node = g.next }
        g.next).isGA = true := by
      rw [setNode_ne hne.symm]; exact hgafl
    -- a connection in the new graph
    have hconn : ∀ r ∈ g.nodes, ∀ c ∈ (h' r).inputs,
        c ∈ (g.heap r).inputs ∨ (c.node = g.next ∧ c.backprop = true) := by
      intro r hr c hc
      have hm := fr.moved r
      rw [g1in r (hN r hr)] at hm
      exact forall₂_moved_mem hm hc
    constructor
    · -- consistency
      intro q r b
      simp only
      rw [hinp, g1nodes]
      by_cases hqs : q = s
      · subst hqs
        rw [setNode_self]
        simp only [hsb, List.filter_append]
        rw [List.filter_eq_nil_iff.2 (by
          intro e he
          simpa using hN _ (hg.entry he).1)]
        simp only [List.nil_append, decide_true, List.filter_cons_of_pos, List.filter_nil]
        by_cases hrn : r ∈ g.nodes
        · rw [if_pos (List.mem_append_left _ hrn), hzero_s r hrn b, List.count_eq_zero]
          intro hm
          simp only [List.mem_singleton, BConn.mk.injEq] at hm
          exact hN r hrn hm.1
        · by_cases hrg : r = g.next
          · subst hrg
            rw [if_pos (by simp), hgain]
            by_cases hb : b = 0
            · subst hb; simp
            · rw [List.count_eq_zero.2 (by simp [hb]), List.count_eq_zero.2 (by simp [hb])]
          · rw [if_neg (by simp [hrn, hrg]), List.count_eq_zero]
            simp [hrg]
      · rw [setNode_ne hqs]
        by_cases hqg : q = g.next
        · subst hqg
          by_cases hrn : r ∈ g.nodes
          · rw [if_pos (List.mem_append_left _ hrn), sp2 r hrn b]
          · have hz : (h' g.next).bps.count ⟨r, b⟩ = 0 := by
              rw [List.count_eq_zero]
              intro hm; exact hrn (sp4 _ hm)
            rw [hz]
            by_cases hrg : r = g.next
            · subst hrg
              rw [if_pos (by simp), hgain, List.count_eq_zero.2]
              simp [hne.symm]
            · rw [if_neg (by simp [hrn, hrg])]
        · rw [fr.bps q hqg, g1h q hqg hqs, hg.cons q r b]
          by_cases hrn : r ∈ g.nodes
          · rw [if_pos hrn, if_pos (List.mem_append_left _ hrn),
              fr.other r ⟨q, b, true⟩ (by simp [hqs]) hqg, g1in r (hN r hrn)]
          · rw [if_neg hrn]
            by_cases hrg : r = g.next
            · subst hrg
              rw [if_pos (by simp), hgain, List.count_eq_zero.2]
              simp [hqs]
            · rw [if_neg (by simp [hrn, hrg])]
    · intro r hr c hc hb
      simp only at hr hc ⊢
      rw [hinp] at hc
      rw [g1nodes] at hr
      by_cases hcn : c.node = g.next
      · rw [hcn]; exact hflagga.1
      · rw [(hflag' c.node hcn).1]
        by_cases hrn : r ∈ g.nodes
        · rcases hconn r hrn c hc with h | ⟨h, -⟩
          · exact hg.inp r hrn c h hb
          · exact absurd h hcn
        · have hrg : r = g.next := by simpa [hrn] using hr
          subst hrg
          rw [hgain] at hc
          simp only [List.mem_singleton] at hc
          subst hc
          exact hsin
    · intro n hn
      simp only at hn ⊢
      rw [g1nodes] at hn
      rw [g1next]
      rcases List.mem_append.1 hn with h | h
      · have := hg.node_lt n h; omega
      · simp only [List.mem_singleton] at h; omega
    · intro r hr c hc
      simp only at hr hc ⊢
      rw [hinp] at hc
      rw [g1nodes] at hr
      rw [g1next]
      by_cases hrn : r ∈ g.nodes
      · rcases hconn r hrn c hc with h | ⟨h, -⟩
        · have := hg.conn_lt r hrn c h; omega
        · omega
      · have hrg : r = g.next := by simpa [hrn] using hr
        subst hrg
        rw [hgain] at hc
        simp only [List.mem_singleton] at hc
        subst hc
        have := hg.node_lt s hs
        simp only; omega
    · intro r hr c hc hb hcga
      simp only at hr hc hcga
      rw [hinp] at hc
      rw [g1nodes] at hr
      by_cases hcn : c.node = g.next
      · rw [hcn, hflagga.2] at hcga; cases hcga
      · rw [(hflag' c.node hcn).2] at hcga
        by_cases hrn : r ∈ g.nodes
        · rcases hconn r hrn c hc with h | ⟨h, -⟩
          · exact hg.zero r hrn c h hb hcga
          · exact absurd h hcn
        · have hrg : r = g.next := by simpa [hrn] using hr
          subst hrg
          rw [hgain] at hc
          simp only [List.mem_singleton] at hc
          subst hc
          rfl

/-! ### The loops of `Initialize` -/

/-- What may have happened to a connection of the original graph `g0`: nothing, or its source had
several readers and it now leads to an accumulation node that reads the same buffer. -/
def Rerouted (g0 g : Graph) (c c' : Conn) : Prop :=
  c' = c ∨ (c.backprop = true ∧ c'.backprop = true ∧ 1 < (g0.heap c.node).bps.length ∧
    c'.node ∈ g.nodes ∧ c'.node ∉ g0.nodes ∧ (g.heap c'.node).isGA = true ∧
    (g.heap c'.node).inputs = [c])

/-- The state after the nodes `P` of `g0` have been handled. -/
structure Progress (g0 g : Graph) (P : List Nat) : Prop where
  inv : GInv g
  next : g0.next ≤ g.next
  nodes : ∃ extra, g.nodes = g0.nodes ++ extra
  handled : ∀ s ∈ P, s ∈ g0.nodes ∧ (g.heap s).bps.length ≤ 1
  pending : ∀ s ∈ g0.nodes, s ∉ P → (g.heap s).bps = (g0.heap s).bps
  rest : ∀ k ∈ g0.nodes,
    g.heap k = { g0.heap k with inputs := (g.heap k).inputs, bps := (g.heap k).bps }
  ga : ∀ k ∈ g.nodes, k ∉ g0.nodes → g0.next ≤ k ∧ ∃ s ∈ P, s ∈ g0.nodes ∧
    1 < (g0.heap s).bps.length ∧
    g.heap k = gaNode s (g0.heap s).bps.length (g.heap k).bps ∧
    ∀ j, (g.heap k).bps.countP (fun e => e.buffer = j) =
      if j < (g0.heap s).bps.length then 1 else 0
  conns : ∀ r ∈ g0.nodes, List.Forall₂ (Rerouted g0 g) (g0.heap r).inputs (g.heap r).inputs

theorem Progress.refl {g : Graph} (hg : GInv g) : Progress g g [] := by
  refine ⟨hg, Nat.le_refl _, ⟨[], by simp⟩, by simp, fun _ _ _ => rfl, fun _ _ => rfl,
    fun k h h' => absurd h h', ?_⟩
  intro r _
  generalize (g.heap r).inputs = l
  induction l with
  | nil => exact .nil
  | cons c l ih => exact .cons (.inl rfl) ih

theorem Progress.step {g0 g : Graph} {P : List Nat} (h : Progress g0 g P)
    (hnoga : ∀ n ∈ g0.nodes, (g0.heap n).isGA = false) {s : Nat} (hs : s ∈ g0.nodes) :
    Progress g0 (insertGA g s).2 (s :: P) := by
  obtain ⟨extra, hex⟩ := h.nodes
  have hsg : s ∈ g.nodes := by rw [hex]; exact List.mem_append_left _ hs
  have hsga : (g.heap s).isGA = false := by rw [h.rest s hs]; exact hnoga s hs
  by_cases hl : 1 < (g.heap s).bps.length
  · obtain ⟨g', he, hi, hinv⟩ := insertGA_spec h.inv hsg hl hsga
    rw [he]
    simp only
    have hsP : s ∉ P := fun hp => by have := (h.handled s hp).2; omega
    have hsb : (g.heap s).bps = (g0.heap s).bps := h.pending s hs hsP
    have hlt : ∀ k ∈ g.nodes, k ≠ g.next := fun k hk => Nat.ne_of_lt (h.inv.node_lt k hk)
    have hin0 : ∀ k ∈ g0.nodes, k ∈ g.nodes := fun k hk => by rw [hex]; exact List.mem_append_left _ hk
    have hga' : ∀ k ∈ g.nodes, k ∉ g0.nodes → g'.heap k = g.heap k := by
      intro k hk hk0
      obtain ⟨-, s0, hs0, hs0g, -, hk1, -⟩ := h.ga k hk hk0
      have hks : k ≠ s := fun e => hk0 (e ▸ hs)
      have h1 := hi.rest k (hlt k hk)
      rw [hi.bps k (hlt k hk) hks] at h1
      have h2 := hi.moved k (hlt k hk)
      have hs0s : s0 ≠ s := fun e => hsP (e ▸ hs0)
      have h3 : (g'.heap k).inputs = (g.heap k).inputs := by
        rw [hk1] at h2 ⊢
        simp only [gaNode] at h2 ⊢
        generalize (g'.heap k).inputs = l at h2
        cases h2 with
        | cons a b =>
          cases b
          rcases a with rfl | ⟨a, -⟩
          · rfl
          · exact absurd (congrArg Conn.node a) hs0s
      rw [h3] at h1
      exact h1
    refine ⟨hinv, by rw [hi.next]; have := h.next; omega, ⟨extra ++ [g.next], by
      rw [hi.nodes, hex, List.append_assoc]⟩, ?_, ?_, ?_, ?_, ?_⟩
    · intro q hq
      rcases List.mem_cons.1 hq with rfl | hq
      · rw [hi.src]; exact ⟨hs, by simp⟩
      · have hqs : q ≠ s := fun e => hsP (e ▸ hq)
        obtain ⟨hq0, hql⟩ := h.handled q hq
        rw [hi.bps q (hlt q (hin0 q hq0)) hqs]; exact ⟨hq0, hql⟩
    · intro q hq hqP
      have hqs : q ≠ s := fun e => hqP (by rw [e]; simp)
      rw [hi.bps q (hlt q (hin0 q hq)) hqs]
      exact h.pending q hq (fun hp => hqP (List.mem_cons_of_mem _ hp))
    · intro k hk
      have h1 := hi.rest k (hlt k (hin0 k hk))
      have h2 := h.rest k hk
      rw [h2] at h1
      exact h1
    · intro k hk hk0
      rw [hi.nodes] at hk
      rcases List.mem_append.1 hk with hk | hk
      · obtain ⟨a, s0, hs0, b, c, d, e⟩ := h.ga k hk hk0
        rw [hga' k hk hk0]
        exact ⟨a, s0, List.mem_cons_of_mem _ hs0, b, c, d, e⟩
      · simp only [List.mem_singleton] at hk
        subst hk
        refine ⟨h.next, s, by simp, hs, by rw [← hsb]; exact hl, ?_, ?_⟩
        · rw [← hsb]; exact hi.node
        · rw [← hsb]; exact hi.used
    · intro r hr
      have h1 := h.conns r hr
      have h2 := hi.moved r (hlt r (hin0 r hr))
      generalize (g.heap r).inputs = l1 at h1 h2
      generalize (g0.heap r).inputs = l0 at h1
      generalize (g'.heap r).inputs = l2 at h2
      induction h1 generalizing l2 with
      | nil => cases h2; exact .nil
      | cons a _ ih =>
        cases h2 with
        | cons b t =>
          refine .cons ?_ (ih _ t)
          rcases b with rfl | ⟨b1, b2, b3⟩
          · rcases a with a | ⟨a1, a2, a3, a4, a5, a6, a7⟩
            · exact .inl a
            · refine .inr ⟨a1, a2, a3, ?_, a5, ?_, ?_⟩
              · rw [hi.nodes]; exact List.mem_append_left _ a4
              · rw [hga' _ a4 a5]; exact a6
              · rw [hga' _ a4 a5]; exact a7
          · rcases a with a | ⟨-, -, -, -, a5, -⟩
            · subst a
              refine .inr ⟨by rw [b1], b3, ?_, ?_, ?_, ?_, ?_⟩
              · rw [b1]; simp only; rw [← hsb]; exact hl
              · rw [b2, hi.nodes]; simp
              · rw [b2]; intro hm; exact hlt _ (hin0 _ hm) rfl
              · rw [b2, hi.node]; rfl
              · rw [b2, hi.node, b1]; rfl
            · rw [b1] at a5; exact absurd hs a5
  · have he : insertGA g s = (false, g) := by
      unfold insertGA
      rw [if_neg]
      intro hh; exact hl hh.1
    rw [he]
    simp only
    refine ⟨h.inv, h.next, h.nodes, ?_, ?_, h.rest, ?_, h.conns⟩
    · intro q hq
      rcases List.mem_cons.1 hq with rfl | hq
      · exact ⟨hs, by omega⟩
      · exact h.handled q hq
    · intro q hq hqP
      exact h.pending q hq (fun hp => hqP (List.mem_cons_of_mem _ hp))
    · intro k hk hk0
      obtain ⟨a, s0, hs0, b⟩ := h.ga k hk hk0
      exact ⟨a, s0, List.mem_cons_of_mem _ hs0, b⟩

theorem pass_progress {g0 : Graph} (hnoga : ∀ n ∈ g0.nodes, (g0.heap n).isGA = false) :
    ∀ (l : List Nat), (∀ n ∈ l, n ∈ g0.nodes) → ∀ (st : Bool × Graph) (P : List Nat),
      Progress g0 st.2 P →
      Progress g0 (l.foldl (fun st n => let r := insertGA st.2 n; (st.1 || r.1, r.2)) st).2
        (l.reverse ++ P) := by
  intro l
  induction l with
  | nil => intro _ st P h; exact h
  | cons n l ih =>
    intro hl st P h
    obtain ⟨hn, hl⟩ := List.forall_mem_cons.1 hl
    rw [List.foldl_cons]
    have := ih hl _ (n :: P) (by exact h.step hnoga hn : Progress g0 (st.1 || (insertGA st.2 n).1,
      (insertGA st.2 n).2).2 (n :: P))
    rw [List.reverse_cons, List.append_assoc]
    exact this

theorem pass_idle {g : Graph} (l : List Nat)
    (h : ∀ n ∈ l, (g.heap n).bps.length ≤ 1 ∨ (g.heap n).isGA = true) :
    l.foldl (fun st n => let r := insertGA st.2 n; (st.1 || r.1, r.2)) (false, g) = (false, g) := by
  induction l with
  | nil => rfl
  | cons n l ih =>
    obtain ⟨hn, hl⟩ := List.forall_mem_cons.1 h
    have he : insertGA g n = (false, g) := by
      unfold insertGA
      rw [if_neg]
      rintro ⟨h1, h2⟩
      rcases hn with h | h
      · omega
      · rw [h] at h2; cases h2
    rw [List.foldl_cons]
    simp only [he, Bool.or_false]
    exact ih hl

theorem pass_again {g0 g : Graph} (hp : Progress g0 g g0.nodes.reverse) :
    insertPass g = (false, g) := by
  unfold insertPass
  apply pass_idle
  intro n hn
  by_cases h0 : n ∈ g0.nodes
  · exact .inl (hp.handled n (by simpa using h0)).2
  · obtain ⟨-, s, -, -, -, h, -⟩ := hp.ga n hn h0
    right; rw [h]; rfl

/-- The loop of `Initialize` ends after at most two rounds. -/
theorem insertAll_spec {g0 : Graph} (hg : GInv g0)
    (hnoga : ∀ n ∈ g0.nodes, (g0.heap n).isGA = false) :
    ∃ g, (∀ fuel, 2 ≤ fuel → insertAll fuel g0 = some g) ∧ Progress g0 g g0.nodes.reverse := by
  have hp := pass_progress hnoga g0.nodes (fun _ h => h) (false, g0) [] (Progress.refl hg)
  rw [List.append_nil] at hp
  change Progress g0 (insertPass g0).2 g0.nodes.reverse at hp
  refine ⟨_, ?_, hp⟩
  intro fuel hf
  obtain ⟨fuel, rfl⟩ : ∃ k, fuel = k + 2 := ⟨fuel - 2, by omega⟩
  have hidle := pass_again hp
  unfold insertAll
  simp only
  by_cases hb : (insertPass g0).1 = true
  · rw [if_pos hb]
    unfold insertAll
    simp only [hidle, Bool.false_eq_true, if_false]
  · rw [if_neg hb]

/-! ### Readers -/

theorem List.one_le_count_of_getElem? {α : Type} [DecidableEq α] {l : List α} {i : Nat} {a : α}
    (h : l[i]? = some a) : 1 ≤ l.count a :=
  List.count_pos_iff.2 (List.mem_of_getElem? h)

theorem two_le_count {α : Type} [DecidableEq α] {l : List α} {i j : Nat} {a : α}
    (hi : l[i]? = some a) (hj : l[j]? = some a) (hne : i ≠ j) : 2 ≤ l.count a := by
  induction l generalizing i j with
  | nil => simp at hi
  | cons x l ih =>
    cases i with
    | zero =>
      cases j with
      | zero => exact absurd rfl hne
      | succ j =>
        simp at hi hj
        subst hi
        rw [List.count_cons_self]
        have := List.one_le_count_of_getElem? hj
        omega
    | succ i =>
      cases j with
      | zero =>
        simp at hi hj
        subst hj
        rw [List.count_cons_self]
        have := List.one_le_count_of_getElem? hi
        omega
      | succ j =>
        simp at hi hj
        have := ih hi hj (by omega)
        rw [List.count_cons]
        omega

/-- If at most one registered consumer uses a buffer, at most one connection reads it. -/
theorem unique_reader {g : Graph} (hg : Cons g) {s b : Nat}
    (h1 : (g.heap s).bps.countP (fun e => e.buffer = b) ≤ 1) {r r' i i' : Nat}
    (hr : r ∈ g.nodes) (hr' : r' ∈ g.nodes)
    (hi : (g.heap r).inputs[i]? = some ⟨s, b, true⟩)
    (hi' : (g.heap r').inputs[i']? = some ⟨s, b, true⟩) : r = r' ∧ i = i' := by
  have hc := hg s r b
  have hc' := hg s r' b
  rw [if_pos hr] at hc
  rw [if_pos hr'] at hc'
  have hle : ∀ q, (g.heap s).bps.count ⟨q, b⟩ ≤ (g.heap s).bps.countP (fun e => e.buffer = b) := by
    intro q
    unfold List.count
    apply List.countP_mono_left
    intro x _ hx
    have : x = ⟨q, b⟩ := by simpa using hx
    simp [this]
  by_cases e : r = r'
  · subst e
    refine ⟨rfl, ?_⟩
    by_contra hne
    have := two_le_count hi hi' hne
    have := hle r
    omega
  · exfalso
    have a1 := List.one_le_count_of_getElem? hi
    have a2 := List.one_le_count_of_getElem? hi'
    rw [← hc] at a1
    rw [← hc'] at a2
    have : ∀ (l : List BConn), l.count ⟨r, b⟩ + l.count ⟨r', b⟩ ≤ l.countP (fun e => e.buffer = b) := by
      intro l
      induction l with
      | nil => simp
      | cons x l ih =>
        rw [List.count_cons, List.count_cons, List.countP_cons]
        by_cases h1 : x = ⟨r, b⟩
        · subst h1
          have h2 : ((⟨r, b⟩ : BConn) == ⟨r', b⟩) = false := by
            rw [beq_eq_false_iff_ne]; intro h; exact e (congrArg BConn.node h)
          rw [h2]; simp; omega
        · by_cases h2 : x = ⟨r', b⟩
          · subst h2
            have h3 : ((⟨r', b⟩ : BConn) == ⟨r, b⟩) = false := by
              rw [beq_eq_false_iff_ne]; exact h1
            rw [h3]; simp; omega
          · have h3 : (x == ⟨r, b⟩) = false := by rw [beq_eq_false_iff_ne]; exact h1
            have h4 : (x == ⟨r', b⟩) = false := by rw [beq_eq_false_iff_ne]; exact h2
            rw [h3, h4]; simp; omega
    have := this (g.heap s).bps
    omega

end CN24.Net
