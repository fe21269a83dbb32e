import Verif.Proof.NetGraph
import Verif.Proof.Params
import Verif.Props.Stream

/-
Property theorems about the network graph: C19 (forward pass), C20 (backward pass), C21 (gradient
accumulation), C22 (parameter files), C23 (completeness check), C60 (initialisation order).
-/

namespace CN24.Net
open Tensor Props

/-! ### Specification of the graph structure -/

/-- The node `a` of the graph has an input connection that leads to `b`. -/
def Reads (g : Graph) (a b : Nat) : Prop := a ∈ g.nodes ∧ ∃ c ∈ (g.heap a).inputs, c.node = b

/-- The node `r` receives, through a back-propagating connection, an output of `s`. -/
def Consumes (g : Graph) (r s : Nat) : Prop :=
  r ∈ g.nodes ∧ ∃ c ∈ (g.heap r).inputs, c.node = s ∧ c.backprop = true

/-- Connections stay inside the graph. -/
def Closed (g : Graph) : Prop := ∀ a b, Reads g a b → b ∈ g.nodes

/-- No node reads from itself, directly or through others. -/
def Acyclic (g : Graph) : Prop := ∀ n, ¬ Relation.TransGen (Reads g) n n

theorem exists_rank {g : Graph} (hc : Closed g) (ha : Acyclic g) :
    ∃ μ : Nat → Nat, ∀ a b, Reads g a b → μ b < μ a :=
  exists_height g.nodes (Reads g) hc ha

/-! ### C19 -/

/-- C19: in a closed graph without cycles a forward pass ends and calls every layer exactly once,
each after the layers it reads from.  The calls are the same in every run, whatever the flags left
by earlier passes; any recursion depth from some `N` on suffices. -/
theorem C19_feedForward_order (g : Graph) (hc : Closed g) (ha : Acyclic g) :
    ∃ N log, log.Nodup ∧ (∀ n, n ∈ log ↔ n ∈ g.nodes) ∧
      (∀ pre n post, log = pre ++ n :: post → ∀ c ∈ (g.heap n).inputs, c.node ∈ pre) ∧
      ∀ fuel, N ≤ fuel → ∀ flags, ∃ v, feedForward g fuel flags = some ⟨v, log⟩ := by
  obtain ⟨μ, hμ⟩ := exists_rank hc ha
  obtain ⟨N, log, h1, h2, h3, h4⟩ := traverse (nodes := g.nodes)
    (succ := fun n => (g.heap n).inputs.map (·.node)) (μ := μ) (by
      intro n hn m hm
      obtain ⟨c, hcm, rfl⟩ := List.mem_map.1 hm
      exact ⟨hc n _ ⟨hn, c, hcm, rfl⟩, hμ n _ ⟨hn, c, hcm, rfl⟩⟩)
  refine ⟨N, log, h1, h2, ?_, ?_⟩
  · intro pre n post he c hcm
    exact h3 pre n post he c.node (List.mem_map.2 ⟨c, hcm, rfl⟩)
  · intro fuel hf flags
    obtain ⟨v, hv⟩ := h4 fuel hf flags
    refine ⟨v, ?_⟩
    unfold feedForward
    simp only [ffNode_eq]
    exact hv

/-- Running layers in the order of a log: the layer of node `n` computes its buffers from the
contents of the buffers it is connected to. -/
def runLayers {β : Type} (g : Graph) (F : Nat → List β → Nat → β) (log : List Nat)
    (env : Nat → Nat → β) : Nat → Nat → β :=
  log.foldl (fun env n k =>
    if k = n then F n ((g.heap n).inputs.map fun c => env c.node c.buffer) else env k) env

theorem runLayers_fix {β : Type} (g : Graph) (F : Nat → List β → Nat → β) (env : Nat → Nat → β) :
    ∀ (log : List Nat), log.Nodup →
      (∀ pre n post, log = pre ++ n :: post → ∀ c ∈ (g.heap n).inputs, c.node ∈ pre) →
      (∀ n ∈ log, runLayers g F log env n =
        F n ((g.heap n).inputs.map fun c => runLayers g F log env c.node c.buffer)) := by
  intro log
  induction log using List.reverseRecOn with
  | nil => simp
  | append_singleton log m ih =>
    intro hn ho k hk
    have hn' := List.nodup_append.1 hn
    have hm : m ∉ log := fun h => hn'.2.2 m h m (by simp) rfl
    have ho' : ∀ pre n post, log = pre ++ n :: post → ∀ c ∈ (g.heap n).inputs, c.node ∈ pre := by
      intro pre n post he
      exact ho pre n (post ++ [m]) (by rw [he]; simp)
    have ih := ih hn'.1 ho'
    have hlast := ho log m [] rfl
    have hrun : ∀ q, runLayers g F (log ++ [m]) env q =
        if q = m then F m ((g.heap m).inputs.map fun c => runLayers g F log env c.node c.buffer)
        else runLayers g F log env q := by
      intro q; simp [runLayers, List.foldl_append]
    have hin : ∀ n, (∀ c ∈ (g.heap n).inputs, c.node ∈ log) →
        ((g.heap n).inputs.map fun c => runLayers g F (log ++ [m]) env c.node c.buffer) =
        (g.heap n).inputs.map fun c => runLayers g F log env c.node c.buffer := by
      intro n h
      apply List.map_congr_left
      intro c hc
      rw [hrun, if_neg (by intro e; exact hm (e ▸ h c hc))]
    by_cases e : k = m
    · subst e
      rw [hrun, if_pos rfl, hin k hlast]
    · have hkl : k ∈ log := by
        rcases List.mem_append.1 hk with h | h
        · exact h
        · simp at h; exact absurd h e
      rw [hrun, if_neg e, ih k hkl, hin k]
      intro c hc
      obtain ⟨pre, post, he⟩ := List.append_of_mem hkl
      have := ho' pre k post he c hc
      rw [he]; exact List.mem_append_left _ this

theorem runLayers_det {β : Type} (g : Graph) (F : Nat → List β → Nat → β) (env env' : Nat → Nat → β) :
    ∀ (log : List Nat),
      (∀ pre n post, log = pre ++ n :: post → ∀ c ∈ (g.heap n).inputs, c.node ∈ pre) →
      ∀ n ∈ log, runLayers g F log env n = runLayers g F log env' n := by
  intro log
  induction log using List.reverseRecOn with
  | nil => simp
  | append_singleton log m ih =>
    intro ho k hk
    have ho' : ∀ pre n post, log = pre ++ n :: post → ∀ c ∈ (g.heap n).inputs, c.node ∈ pre := by
      intro pre n post he
      exact ho pre n (post ++ [m]) (by rw [he]; simp)
    have hrun : ∀ env q, runLayers g F (log ++ [m]) env q =
        if q = m then F m ((g.heap m).inputs.map fun c => runLayers g F log env c.node c.buffer)
        else runLayers g F log env q := by
      intro env q; simp [runLayers, List.foldl_append]
    rw [hrun, hrun]
    by_cases e : k = m
    · rw [if_pos e, if_pos e]
      congr 1
      apply List.map_congr_left
      intro c hc
      rw [ih ho' c.node (ho log m [] rfl c hc)]
    · rw [if_neg e, if_neg e]
      refine ih ho' k ?_
      rcases List.mem_append.1 hk with h | h
      · exact h
      · simp at h; exact absurd h e

/-- C19: after a forward pass the buffers of every node are what its layer computes from the final
contents of the buffers it reads, whatever the buffers contained before, and the pass gives the
same contents when it is repeated. -/
theorem C19_feedForward_values (g : Graph) (hc : Closed g) (ha : Acyclic g) {β : Type}
    (F : Nat → List β → Nat → β) :
    ∃ N log, (∀ fuel, N ≤ fuel → ∀ flags, ∃ v, feedForward g fuel flags = some ⟨v, log⟩) ∧
      ∀ env, (∀ n ∈ g.nodes, runLayers g F log env n =
          F n ((g.heap n).inputs.map fun c => runLayers g F log env c.node c.buffer)) ∧
        ∀ env', ∀ n ∈ g.nodes, runLayers g F log env n = runLayers g F log env' n := by
  obtain ⟨N, log, h1, h2, h3, h4⟩ := C19_feedForward_order g hc ha
  refine ⟨N, log, h4, ?_⟩
  intro env
  refine ⟨?_, ?_⟩
  · intro n hn; exact runLayers_fix g F env log h1 h3 n ((h2 n).2 hn)
  · intro env' n hn; exact runLayers_det g F env env' log h3 n ((h2 n).2 hn)

/-- C19, why the graph must be acyclic: if a node of the graph reads from itself, directly or
through others, no recursion depth suffices. -/
theorem C19_cycle_diverges (g : Graph) (n : Nat)
    (hcyc : Relation.TransGen (Reads g) n n) (fuel : Nat) (flags : Nat → Bool) :
    feedForward g fuel flags = none := by
  have hmem : ∀ {a b}, Relation.TransGen (Reads g) a b → a ∈ g.nodes := by
    intro a b h
    induction h using Relation.TransGen.head_induction_on with
    | single h => exact h.1
    | head h _ _ => exact h.1
  unfold feedForward
  simp only [ffNode_eq]
  apply dfs_cycle_all (C := fun k => Relation.TransGen (Reads g) k k)
  · intro k hk
    obtain ⟨m, hkm, hmk⟩ := Relation.TransGen.head'_iff.1 hk
    obtain ⟨-, c, hcm, rfl⟩ := hkm
    have hin : c.node ∈ (g.heap k).inputs.map (·.node) := List.mem_map.2 ⟨c, hcm, rfl⟩
    obtain ⟨pre, post, he⟩ := List.append_of_mem hin
    refine ⟨pre, c.node, post, he, ?_⟩
    exact Relation.TransGen.tail' hmk ⟨hmem hk, c, hcm, rfl⟩
  · intro k hk
    simp [hmem hk]
  · exact ⟨n, hmem hcyc, hcyc⟩

/-! ### C20 -/

/-- Every back-propagating connection of the nodes of the graph is registered at its source, and
nothing else is. -/
def Registered (g : Graph) : Prop :=
  ∀ s r b, (g.heap s).bps.count ⟨r, b⟩ =
    if r ∈ g.nodes then (g.heap r).inputs.count ⟨s, b, true⟩ else 0

/-- `AddNode` for the nodes of a list. -/
def addNodes (g : Graph) (ns : List Nat) : Graph := ns.foldl addNode g

theorem addNodes_spec : ∀ (ns : List Nat) (g : Graph), Cons g → InpOk g → (g.nodes ++ ns).Nodup →
    Cons (addNodes g ns) ∧ InpOk (addNodes g ns) ∧ (addNodes g ns).nodes = g.nodes ++ ns ∧
      (addNodes g ns).next = g.next ∧
      ∀ k, ((addNodes g ns).heap k).isGA = (g.heap k).isGA ∧
        ((addNodes g ns).heap k).isInput = (g.heap k).isInput ∧
        ((addNodes g ns).heap k).isOutput = (g.heap k).isOutput ∧
        ((addNodes g ns).heap k).buffers = (g.heap k).buffers ∧
        ((addNodes g ns).heap k).inputs = (if k ∈ ns then
          (g.heap k).inputs.map fun c =>
            if c.backprop && (g.heap c.node).isInput then { c with backprop := false } else c
          else (g.heap k).inputs) := by
  intro ns
  induction ns with
  | nil =>
    intro g h1 h2 _
    exact ⟨h1, h2, by simp [addNodes], rfl, fun k => ⟨rfl, rfl, rfl, rfl, by simp [addNodes]⟩⟩
  | cons n ns ih =>
    intro g h1 h2 h3
    have hn : n ∉ g.nodes := by
      intro h
      exact (List.nodup_append.1 h3).2.2 n h n (by simp) rfl
    have hnns : n ∉ ns := by
      have := (List.nodup_append.1 h3).2.1
      exact (List.nodup_cons.1 this).1
    obtain ⟨a, b, c, d, e⟩ := ih (addNode g n) (addNode_cons h1 hn) (addNode_inpOk h2 hn)
      (by rw [addNode_nodes]; simpa using h3)
    refine ⟨a, b, ?_, d, ?_⟩
    · change (addNodes (addNode g n) ns).nodes = _
      rw [c, addNode_nodes]; simp
    · intro k
      obtain ⟨e1, e2, e3, e4, e5⟩ := e k
      have hin : ∀ q, ((addNode g n).heap q).isInput = (g.heap q).isInput := by
        intro q; rw [addNode_heap]
      change ((addNodes (addNode g n) ns).heap k).isGA = _ ∧ _
      refine ⟨by rw [e1, addNode_heap], by
        change ((addNodes (addNode g n) ns).heap k).isInput = _
        rw [e2, addNode_heap], by
        change ((addNodes (addNode g n) ns).heap k).isOutput = _
        rw [e3, addNode_heap], by
        change ((addNodes (addNode g n) ns).heap k).buffers = _
        rw [e4, addNode_heap], ?_⟩
      change ((addNodes (addNode g n) ns).heap k).inputs = _
      rw [e5]
      simp only [hin]
      by_cases hk : k = n
      · subst hk
        rw [if_neg hnns, if_pos (by simp), addNode_heap]
        simp
      · have hk' : ((addNode g n).heap k).inputs = (g.heap k).inputs := by
          rw [addNode_heap]; simp [hk]
        rw [hk']
        by_cases hkn : k ∈ ns
        · rw [if_pos hkn, if_pos (by simp [hkn])]
        · rw [if_neg hkn, if_neg (by simp [hk, hkn])]

/-- Node objects before anything was added to a graph. -/
def Start (g : Graph) : Prop := g.nodes = [] ∧ ∀ n, (g.heap n).bps = []

/-- C20: building a graph with `AddNode`, each node once and in any order, registers exactly the
back-propagating connections.  The connections are those of the user, except that connections from
input nodes do not propagate back. -/
theorem C20_addNode_registers (g : Graph) (hs : Start g) (ns : List Nat) (hn : ns.Nodup) :
    Registered (addNodes g ns) ∧ (addNodes g ns).nodes = ns ∧
      ∀ k ∈ ns, ((addNodes g ns).heap k).inputs = (g.heap k).inputs.map fun c =>
        if c.backprop && (g.heap c.node).isInput then { c with backprop := false } else c := by
  obtain ⟨a, b, c, -, e⟩ := addNodes_spec ns g
    (by intro s r b; rw [hs.1, hs.2]; simp) (by intro r hr; rw [hs.1] at hr; simp at hr)
    (by rw [hs.1]; simpa using hn)
  refine ⟨a, by rw [c, hs.1]; simp, ?_⟩
  intro k hk
  rw [(e k).2.2.2.2, if_pos hk]

theorem registered_entry {g : Graph} (h : Registered g) {s : Nat} {e : BConn}
    (he : e ∈ (g.heap s).bps) : e.node ∈ g.nodes ∧ ⟨s, e.buffer, true⟩ ∈ (g.heap e.node).inputs := by
  have h1 : 0 < (g.heap s).bps.count e := List.count_pos_iff.2 he
  have h2 := h s e.node e.buffer
  rw [h2] at h1
  split at h1
  · rename_i hm; exact ⟨hm, List.count_pos_iff.1 h1⟩
  · omega

theorem registered_of_consumes {g : Graph} (h : Registered g) {r s : Nat} (hc : Consumes g r s) :
    r ∈ (g.heap s).bps.map (·.node) := by
  obtain ⟨hr, c, hcm, rfl, hb⟩ := hc
  have h2 := h c.node r c.buffer
  rw [if_pos hr] at h2
  have hc' : c = ⟨c.node, c.buffer, true⟩ := by cases c; simp_all
  have : 0 < (g.heap r).inputs.count ⟨c.node, c.buffer, true⟩ := by
    rw [← hc']; exact List.count_pos_iff.2 hcm
  rw [← h2] at this
  exact List.mem_map.2 ⟨_, List.count_pos_iff.1 this, rfl⟩

theorem foldl_or (l : List Conn) (d : Bool) :
    l.foldl (fun d c => d || c.backprop) d = (d || l.any (·.backprop)) := by
  induction l generalizing d with
  | nil => simp
  | cons c l ih => rw [List.foldl_cons, ih]; simp [Bool.or_assoc]

/-- C20: in an acyclic graph a backward pass ends and calls every layer exactly once, each after all
layers that consume its output through a back-propagating connection.  Before the call the gradient
towards the inputs is enabled exactly if one of its input connections propagates back. -/
theorem C20_backPropagate_order (g : Graph) (hr : Registered g) (hc : Closed g) (ha : Acyclic g) :
    ∃ N log, (log.map Prod.fst).Nodup ∧ (∀ n, n ∈ log.map Prod.fst ↔ n ∈ g.nodes) ∧
      (∀ pre n e post, log = pre ++ (n, e) :: post →
        (∀ r, Consumes g r n → r ∈ pre.map Prod.fst) ∧
        (e = true ↔ ∃ c ∈ (g.heap n).inputs, c.backprop = true)) ∧
      ∀ fuel, N ≤ fuel → ∀ flags, ∃ v, backPropagate g fuel flags = some ⟨v, log⟩ := by
  obtain ⟨μ, hμ⟩ := exists_rank hc ha
  obtain ⟨M, hM⟩ := exists_bound g.nodes μ
  obtain ⟨N, log, h1, h2, h3, h4⟩ := traverse (nodes := g.nodes)
    (succ := fun n => (g.heap n).bps.map (·.node)) (μ := fun n => M - μ n) (by
      intro n hn m hm
      obtain ⟨e, he, rfl⟩ := List.mem_map.1 hm
      obtain ⟨a, b⟩ := registered_entry hr he
      refine ⟨a, ?_⟩
      have := hμ e.node n ⟨a, _, b, rfl⟩
      have := hM e.node a
      omega)
  let f : Nat → Nat × Bool := fun n => (n, (g.heap n).inputs.foldl (fun d c => d || c.backprop) false)
  have hfst : (log.map f).map Prod.fst = log := by
    rw [List.map_map]
    conv => rhs; rw [← List.map_id log]
    rfl
  refine ⟨N, log.map f, by rw [hfst]; exact h1, by rw [hfst]; exact h2, ?_, ?_⟩
  · intro pre n e post he
    obtain ⟨l1, l2, hl, hl1, hl2⟩ := List.map_eq_append_iff.1 he
    cases l2 with
    | nil => simp at hl2
    | cons m l2 =>
      simp only [List.map_cons, List.cons.injEq] at hl2
      obtain ⟨hm, -⟩ := hl2
      have hmn : m = n := congrArg Prod.fst hm
      subst hmn
      have hpre : pre.map Prod.fst = l1 := by
        rw [← hl1, List.map_map]
        conv => rhs; rw [← List.map_id l1]
        rfl
      refine ⟨?_, ?_⟩
      · intro r hcons
        rw [hpre]
        exact h3 l1 m l2 hl r (registered_of_consumes hr hcons)
      · have he' : e = (g.heap m).inputs.foldl (fun d c => d || c.backprop) false :=
          (congrArg Prod.snd hm).symm
        rw [he', foldl_or]
        simp
  · intro fuel hf flags
    obtain ⟨v, hv⟩ := h4 fuel hf flags
    refine ⟨v, ?_⟩
    unfold backPropagate
    have := foldlM_deco (f := f) (F := fun n st => bpNode g.heap fuel n st)
      (G := fun n st => dfs (fun n => (g.heap n).bps.map (·.node)) fuel n st)
      (fun n st => bpNode_eq g.heap fuel n st) g.nodes
      { visited := fun n => if n ∈ g.nodes then false else flags n, log := [] }
    rw [hv] at this
    exact this

/-! ### C21 -/

/-- A network as the user wires it: the node objects of the list `ns` are added in this order, their
connections lead to nodes of the list, no node is an accumulation node yet and back-propagating
connections that do not come from input nodes use the first buffer of their source.  (Every layer
of the library except input and accumulation layers has a single output buffer.) -/
structure Wired (g : Graph) (ns : List Nat) : Prop where
  start : Start g
  nodup : ns.Nodup
  old : ∀ n ∈ ns, n < g.next
  noGA : ∀ n ∈ ns, (g.heap n).isGA = false
  conn : ∀ n ∈ ns, ∀ c ∈ (g.heap n).inputs, c.node ∈ ns
  single : ∀ n ∈ ns, ∀ c ∈ (g.heap n).inputs, c.backprop = true →
    (g.heap c.node).isInput = false → c.buffer = 0

theorem wired_inv {g : Graph} {ns : List Nat} (h : Wired g ns) :
    GInv (addNodes g ns) ∧ (addNodes g ns).nodes = ns ∧
      (∀ n ∈ ns, ((addNodes g ns).heap n).isGA = false) ∧ Closed (addNodes g ns) := by
  obtain ⟨a, b, c, d, e⟩ := addNodes_spec ns g
    (by intro s r b; rw [h.start.1, h.start.2]; simp)
    (by intro r hr; rw [h.start.1] at hr; simp at hr)
    (by rw [h.start.1]; simpa using h.nodup)
  have hnodes : (addNodes g ns).nodes = ns := by rw [c, h.start.1]; simp
  have hconn : ∀ r ∈ ns, ∀ x ∈ ((addNodes g ns).heap r).inputs, ∃ y ∈ (g.heap r).inputs,
      x.node = y.node ∧ x.buffer = y.buffer ∧ (x.backprop = true →
        y.backprop = true ∧ (g.heap y.node).isInput = false) := by
    intro r hr x hx
    rw [(e r).2.2.2.2, if_pos hr] at hx
    obtain ⟨y, hy, rfl⟩ := List.mem_map.1 hx
    refine ⟨y, hy, ?_⟩
    split
    · exact ⟨rfl, rfl, by simp⟩
    · rename_i hyb
      refine ⟨rfl, rfl, ?_⟩
      intro hb
      simpa [hb] using hyb
  refine ⟨⟨a, b, ?_, ?_, ?_⟩, hnodes, ?_, ?_⟩
  · intro n hn; rw [d]; rw [hnodes] at hn; exact h.old n hn
  · intro r hr x hx
    rw [hnodes] at hr
    obtain ⟨y, hy, e1, -⟩ := hconn r hr x hx
    rw [d, e1]
    exact h.old _ (h.conn r hr y hy)
  · intro r hr x hx hb _
    rw [hnodes] at hr
    obtain ⟨y, hy, -, e2, e3⟩ := hconn r hr x hx
    rw [e2]
    exact h.single r hr y hy (e3 hb).1 (e3 hb).2
  · intro n hn; rw [(e n).1]; exact h.noGA n hn
  · rintro r b ⟨hr, x, hx, rfl⟩
    rw [hnodes] at hr ⊢
    obtain ⟨y, hy, e1, -⟩ := hconn r hr x hx
    rw [e1]
    exact h.conn r hr y hy

/-- C21: for a network as wired by the user, the rewriting in `Initialize` ends, and afterwards
1. every output buffer has at most one connection that propagates back into it;
2. every connection of the user's nodes is as before, or its source had more than one consumer and
   it now leads to a new accumulation node whose only input is the old connection (so the same data
   is read, see C50);
3. the new nodes are accumulation nodes with as many buffers as their source had consumers, each
   buffer being read by exactly one connection;
4. the nodes of the user keep their place in the list and everything else about them. -/
theorem C21_single_consumer_partial (g : Graph) (ns : List Nat) (h : Wired g ns) :
    ∃ g', (∀ fuel, 2 ≤ fuel → insertAll fuel (addNodes g ns) = some g') ∧
      (∀ s b r r' i i' : Nat, s ∈ g'.nodes → r ∈ g'.nodes → r' ∈ g'.nodes →
        (g'.heap r).inputs[i]? = some (⟨s, b, true⟩ : Conn) →
        (g'.heap r').inputs[i']? = some (⟨s, b, true⟩ : Conn) →
        r = r' ∧ i = i') ∧
      (∀ r ∈ ns, List.Forall₂ (fun c c' => c' = c ∨
        (c.backprop = true ∧ c'.backprop = true ∧ 1 < ((addNodes g ns).heap c.node).bps.length ∧
          c'.node ∈ g'.nodes ∧ c'.node ∉ ns ∧ (g'.heap c'.node).isGA = true ∧
          (g'.heap c'.node).inputs = [c]))
        ((addNodes g ns).heap r).inputs (g'.heap r).inputs) ∧
      (∀ k ∈ g'.nodes, k ∉ ns → ∃ s ∈ ns, 1 < ((addNodes g ns).heap s).bps.length ∧
        (g'.heap k).isGA = true ∧ (g'.heap k).inputs = [⟨s, 0, true⟩] ∧
        (g'.heap k).buffers = ((addNodes g ns).heap s).bps.length ∧
        ∀ b < (g'.heap k).buffers, ∃ r ∈ g'.nodes, ⟨k, b, true⟩ ∈ (g'.heap r).inputs) ∧
      (∃ extra, g'.nodes = ns ++ extra) ∧
      (∀ k ∈ ns, (g'.heap k).isInput = (g.heap k).isInput ∧
        (g'.heap k).isOutput = (g.heap k).isOutput ∧ (g'.heap k).buffers = (g.heap k).buffers ∧
        (g'.heap k).isGA = false) ∧
      Registered g' := by
  obtain ⟨hinv, hnodes, hnoga, -⟩ := wired_inv h
  obtain ⟨g', hfuel, hp⟩ := insertAll_spec hinv (by rw [hnodes]; exact hnoga)
  have hnodup := h.nodup
  obtain ⟨-, -, -, -, hflags⟩ := addNodes_spec ns g
    (by intro s r b; rw [h.start.1, h.start.2]; simp)
    (by intro r hr; rw [h.start.1] at hr; simp at hr)
    (by rw [h.start.1]; simpa using h.nodup)
  refine ⟨g', hfuel, ?_, ?_, ?_, ?_, ?_, hp.inv.cons⟩
  · intro s b r r' i i' hs hr hr' hi hi'
    apply unique_reader hp.inv.cons ?_ hr hr' hi hi'
    by_cases h0 : s ∈ (addNodes g ns).nodes
    · have := (hp.handled s (by simpa using h0)).2
      exact Nat.le_trans List.countP_le_length this
    · obtain ⟨-, q, -, -, -, -, hj⟩ := hp.ga s hs h0
      rw [hj b]
      split <;> omega
  · intro r hr
    have hc := hp.conns r (by rw [hnodes]; exact hr)
    unfold Rerouted at hc
    rw [hnodes] at hc
    exact hc
  · intro k hk hk0
    obtain ⟨-, s, -, hs, hl, he, hj⟩ := hp.ga k hk (by rw [hnodes]; exact hk0)
    rw [hnodes] at hs
    refine ⟨s, hs, hl, by rw [he]; rfl, by rw [he]; rfl, by rw [he]; rfl, ?_⟩
    intro b hb
    have hb' : b < ((addNodes g ns).heap s).bps.length := by rw [he] at hb; exact hb
    have := hj b
    rw [if_pos hb'] at this
    have hpos : 0 < (g'.heap k).bps.countP (fun e => e.buffer = b) := by omega
    rw [List.countP_pos_iff] at hpos
    obtain ⟨e, hem, heb⟩ := hpos
    obtain ⟨h1, h2⟩ := hp.inv.entry hem
    refine ⟨e.node, h1, ?_⟩
    have heb' : e.buffer = b := by simpa using heb
    rw [heb'] at h2
    exact h2
  · obtain ⟨extra, he⟩ := hp.nodes
    rw [hnodes] at he
    exact ⟨extra, he⟩
  · intro k hk
    have := hp.rest k (by rw [hnodes]; exact hk)
    rw [this]
    obtain ⟨f1, f2, f3, f4, -⟩ := hflags k
    exact ⟨f2, f3, f4, by rw [f1]; exact h.noGA k hk⟩

/-- C21: calling `Initialize` again inserts nothing. -/
theorem C21_idempotent (g : Graph) (ns : List Nat) (h : Wired g ns) (fuel : Nat) (hf : 2 ≤ fuel) :
    ∃ g', insertAll fuel (addNodes g ns) = some g' ∧ insertAll fuel g' = some g' := by
  obtain ⟨hinv, hnodes, hnoga, -⟩ := wired_inv h
  obtain ⟨g', hfuel, hp⟩ := insertAll_spec hinv (by rw [hnodes]; exact hnoga)
  refine ⟨g', hfuel fuel hf, ?_⟩
  obtain ⟨k, rfl⟩ : ∃ k, fuel = k + 1 := ⟨fuel - 1, by omega⟩
  unfold insertAll
  simp [pass_again hp]

/-- C21, the passes after `Initialize`: if the wiring of the user has no cycle, the rewritten graph
is closed and has no cycle either, so the theorems about forward and backward passes apply. -/
theorem C21_initialized_runs (g : Graph) (ns : List Nat) (h : Wired g ns)
    (ha : Acyclic (addNodes g ns)) :
    ∃ g', (∀ fuel, 2 ≤ fuel → insertAll fuel (addNodes g ns) = some g') ∧
      Closed g' ∧ Acyclic g' ∧ Registered g' := by
  obtain ⟨hinv, hnodes, hnoga, hclosed⟩ := wired_inv h
  obtain ⟨g', hfuel, hp⟩ := insertAll_spec hinv (by rw [hnodes]; exact hnoga)
  obtain ⟨μ, hμ⟩ := exists_rank hclosed ha
  have hold : ∀ n ∈ ns, n < (addNodes g ns).next := by
    intro n hn; exact hinv.node_lt n (by rw [hnodes]; exact hn)
  -- what a node of the new graph reads
  have hreads : ∀ a b, Reads g' a b →
      (a ∈ ns ∧ ((b ∈ ns ∧ Reads (addNodes g ns) a b) ∨
        (b ∈ g'.nodes ∧ b ∉ ns ∧ ∃ s, (g'.heap b).inputs = [⟨s, 0, true⟩] ∧ Reads (addNodes g ns) a s)))
      ∨ (a ∉ ns ∧ b ∈ ns ∧ (g'.heap a).inputs = [⟨b, 0, true⟩]) := by
    rintro a b ⟨haN, c', hc', rfl⟩
    by_cases hans : a ∈ ns
    · left
      refine ⟨hans, ?_⟩
      have hf := hp.conns a (by rw [hnodes]; exact hans)
      have hex : ∃ c ∈ ((addNodes g ns).heap a).inputs, Rerouted (addNodes g ns) g' c c' := by
        clear hfuel
        generalize ((addNodes g ns).heap a).inputs = l0 at hf
        generalize (g'.heap a).inputs = l1 at hf hc'
        induction hf with
        | nil => simp at hc'
        | cons x _ ih =>
          rcases List.mem_cons.1 hc' with rfl | hm
          · exact ⟨_, by simp, x⟩
          · obtain ⟨c, hc, hr⟩ := ih hm
            exact ⟨c, List.mem_cons_of_mem _ hc, hr⟩
      obtain ⟨c, hc, hr⟩ := hex
      have hread : Reads (addNodes g ns) a c.node := ⟨by rw [hnodes]; exact hans, c, hc, rfl⟩
      rcases hr with rfl | ⟨-, -, -, h4, h5, h6, h7⟩
      · left
        refine ⟨?_, hread⟩
        have := hclosed _ _ hread
        rwa [hnodes] at this
      · right
        rw [hnodes] at h5
        obtain ⟨-, s, -, -, -, he, -⟩ := hp.ga c'.node h4 (by rw [hnodes]; exact h5)
        refine ⟨h4, h5, c.node, ?_, hread⟩
        have h8 : (g'.heap c'.node).inputs = [⟨s, 0, true⟩] := by rw [he]; rfl
        rw [h8] at h7
        simp only [List.cons.injEq, and_true] at h7
        rw [h8, ← h7]
    · right
      obtain ⟨-, s, -, hs, -, he, -⟩ := hp.ga a haN (by rw [hnodes]; exact hans)
      have h8 : (g'.heap a).inputs = [⟨s, 0, true⟩] := by rw [he]; rfl
      rw [h8] at hc'
      simp only [List.mem_singleton] at hc'
      subst hc'
      rw [hnodes] at hs
      exact ⟨hans, hs, h8⟩
  refine ⟨g', hfuel, ?_, ?_, hp.inv.cons⟩
  · intro a b hab
    obtain ⟨extra, hex⟩ := hp.nodes
    rw [hnodes] at hex
    rcases hreads a b hab with ⟨-, ⟨hb, -⟩ | ⟨hb, -⟩⟩ | ⟨-, hb, -⟩
    · rw [hex]; exact List.mem_append_left _ hb
    · exact hb
    · rw [hex]; exact List.mem_append_left _ hb
  · -- a height for the new graph
    let ν : Nat → Nat := fun k => if k ∈ ns then 2 * μ k
      else 2 * μ (((g'.heap k).inputs.map (·.node)).headD 0) + 1
    have hν : ∀ a b, Reads g' a b → ν b < ν a := by
      intro a b hab
      rcases hreads a b hab with ⟨ha', ⟨hb, hr⟩ | ⟨-, hb, s, hs, hr⟩⟩ | ⟨ha', hb, hs⟩
      · have := hμ a b hr
        simp only [ν, if_pos ha', if_pos hb]
        omega
      · have := hμ a s hr
        simp only [ν, if_pos ha', if_neg hb, hs]
        simp
        omega
      · simp only [ν, if_neg ha', if_pos hb, hs]
        simp
    intro n hn
    have : ∀ {a b}, Relation.TransGen (Reads g') a b → ν b < ν a := by
      intro a b hab
      induction hab with
      | single h => exact hν _ _ h
      | tail _ h ih => exact Nat.lt_trans (hν _ _ h) ih
    exact Nat.lt_irrefl _ (this hn)

/-- A heap given by a list of nodes. -/
def heapOf (l : List Node) : Nat → Node := fun n => l.getD n {}

/-- Non-vacuity of C19 to C21: an input node, a layer reading it, two readers of that layer (one of
them twice) and a node that joins them. -/
def diamond : Graph :=
  { heap := heapOf [{ isInput := true, buffers := 4 }, { inputs := [⟨0, 0, true⟩] },
      { inputs := [⟨1, 0, true⟩, ⟨1, 0, true⟩] }, { inputs := [⟨1, 0, true⟩, ⟨0, 1, true⟩] },
      { inputs := [⟨2, 0, true⟩, ⟨3, 0, true⟩], isOutput := true }],
    next := 5 }

example : Wired diamond [4, 2, 0, 3, 1] := by
  refine ⟨⟨rfl, ?_⟩, by decide, by decide, by decide, by decide, by decide⟩
  intro n
  match n with
  | 0 => rfl
  | 1 => rfl
  | 2 => rfl
  | 3 => rfl
  | 4 => rfl
  | n + 5 => rfl

/-- The three readers of node 1 end up with one buffer each of the new node 5. -/
example : (insertAll 2 (addNodes diamond [4, 2, 0, 3, 1])).map (fun g =>
      (g.nodes, (g.heap 5).inputs, (g.heap 5).buffers, (g.heap 2).inputs, (g.heap 3).inputs)) =
    some ([4, 2, 0, 3, 1, 5], [⟨1, 0, true⟩], 3, [⟨5, 0, true⟩, ⟨5, 1, true⟩],
      [⟨5, 2, true⟩, ⟨0, 1, false⟩]) := by decide

example : ((insertAll 2 (addNodes diamond [4, 2, 0, 3, 1])).bind
      fun g => feedForward g 10 fun _ => true).map (·.log) = some [0, 1, 5, 2, 3, 4] := by decide

example : ((insertAll 2 (addNodes diamond [4, 2, 0, 3, 1])).bind
      fun g => backPropagate g 10 fun _ => true).map (·.log) =
    some [(4, true), (2, true), (0, false), (3, true), (5, true), (1, false)] := by decide

/-- C21, why a single buffer: a node whose second buffer has a reader of its own.  The reader of
buffer 1 is redirected to the accumulation node, which shows buffer 0: it reads other data than
before although no buffer had two consumers. -/
theorem C21_second_buffer_lost :
    ∃ g : Graph, g = addNodes { heap := heapOf [{ buffers := 2 }, { inputs := [⟨0, 0, true⟩] },
        { inputs := [⟨0, 1, true⟩] }], next := 3 } [0, 1, 2] ∧
      (insertAll 2 g).map (fun g' => ((g'.heap 3).isGA, (g'.heap 3).inputs, (g'.heap 2).inputs)) =
        some (true, [⟨0, 0, true⟩], [⟨3, 1, true⟩]) :=
  ⟨_, rfl, by decide⟩

/-! ### C60 -/

/-- C60: `Initialize` creates the outputs of and connects every layer exactly once, each after the
layers it reads from, if no node was initialised before; nodes that are already initialised are
left alone, so that a second call does nothing. -/
theorem C60_initialize_order (g : Graph) (hc : Closed g) (ha : Acyclic g) :
    ∃ N, ∀ fuel, N ≤ fuel → ∀ flags : Nat → Bool, ∃ st, initNodes g fuel flags = some st ∧
      st.log.Nodup ∧ (∀ n, n ∈ st.log ↔ n ∈ g.nodes ∧ flags n = false) ∧
      (∀ pre n post, st.log = pre ++ n :: post → ∀ c ∈ (g.heap n).inputs,
        c.node ∈ pre ∨ flags c.node = true) ∧
      (∀ n, st.visited n = true ↔ flags n = true ∨ n ∈ g.nodes) := by
  obtain ⟨μ, hμ⟩ := exists_rank hc ha
  obtain ⟨N, hN⟩ := exists_bound g.nodes μ
  refine ⟨N, ?_⟩
  intro fuel hf flags
  obtain ⟨st, h1, h2, h3, -⟩ := dfs_all (In := (· ∈ g.nodes))
    (succ := fun n => (g.heap n).inputs.map (·.node)) (V0 := flags) (μ := μ) (by
      intro n hn m hm
      obtain ⟨c, hcm, rfl⟩ := List.mem_map.1 hm
      exact ⟨hc n _ ⟨hn, c, hcm, rfl⟩, hμ n _ ⟨hn, c, hcm, rfl⟩⟩) fuel g.nodes
    (fun n hn => ⟨hn, Nat.lt_of_lt_of_le (hN n hn) hf⟩) ⟨flags, []⟩ (DfsInv.start _ _ _)
  have hlog : ∀ n, n ∈ st.log ↔ n ∈ g.nodes ∧ flags n = false := by
    intro n
    refine ⟨h2.mem n, ?_⟩
    rintro ⟨hn, hfl⟩
    rcases (h2.vis n).1 (h3 n hn) with h | h
    · rw [hfl] at h; cases h
    · exact h
  refine ⟨st, ?_, h2.nodup, hlog, ?_, ?_⟩
  · unfold initNodes
    simp only [initNode_eq]
    exact h1
  · intro pre n post he c hcm
    exact h2.order pre n post he c.node (List.mem_map.2 ⟨c, hcm, rfl⟩)
  · intro n
    rw [h2.vis n, hlog n]
    constructor
    · rintro (h | h)
      · exact .inl h
      · exact .inr h.1
    · rintro (h | h)
      · exact .inl h
      · cases hfl : flags n with
        | true => exact .inl rfl
        | false => exact .inr ⟨h, rfl⟩

/-- Counting the entries of a reader and its back-propagating connections. -/
theorem registered_count (s r : Nat) : ∀ (es : List BConn) (cs : List Conn),
    (∀ b, es.count ⟨r, b⟩ = cs.count ⟨s, b, true⟩) →
    (es.map (·.node)).count r = cs.countP fun c => c.node = s && c.backprop
  | [], cs, h => by
    rw [List.map_nil, List.count_nil]
    symm
    rw [List.countP_eq_zero]
    rintro ⟨n, b, f⟩ hc hp
    simp only [Bool.and_eq_true, decide_eq_true_eq] at hp
    obtain ⟨rfl, rfl⟩ := hp
    have := h b
    rw [List.count_nil] at this
    exact absurd (List.count_pos_iff.2 hc) (by omega)
  | e :: es, cs, h => by
    rw [List.map_cons, List.count_cons]
    by_cases he : e.node = r
    · have hb := h e.buffer
      have hee : e = ⟨r, e.buffer⟩ := by cases e; simp_all
      have hmem : (⟨s, e.buffer, true⟩ : Conn) ∈ cs := by
        rw [← List.count_pos_iff, ← hb, ← hee]
        simp
      have hp := List.perm_cons_erase hmem
      rw [hp.countP_eq, List.countP_cons, registered_count s r es (cs.erase ⟨s, e.buffer, true⟩) ?_]
      · simp [he]
      · intro b
        have := h b
        rw [hp.count_eq, List.count_cons, List.count_cons] at this
        by_cases hbe : e.buffer = b
        · subst hbe
          rw [← hee] at this ⊢
          simpa using this
        · rw [hee] at this
          simpa [hbe] using this
    · rw [registered_count s r es cs ?_]
      · simp [he]
      · intro b
        have := h b
        rw [List.count_cons] at this
        have hne : (e == (⟨r, b⟩ : BConn)) = false := by
          cases e
          simp at he
          simp [he]
        simpa [hne] using this

/-- C60: `InitializeWeights` informs every layer exactly once about the layers that consume its
output through back-propagating connections, after these have been informed themselves; each
consumer is listed as often as it has such connections. -/
theorem C60_initializeWeights_order (g : Graph) (hr : Registered g) (hc : Closed g)
    (ha : Acyclic g) :
    ∃ N log, (log.map Prod.fst).Nodup ∧ (∀ n, n ∈ log.map Prod.fst ↔ n ∈ g.nodes) ∧
      (∀ pre n l post, log = pre ++ (n, l) :: post →
        (∀ r, r ∈ l ↔ Consumes g r n) ∧ (∀ r ∈ l, r ∈ pre.map Prod.fst) ∧
        (∀ r ∈ g.nodes, l.count r = (g.heap r).inputs.countP fun c => c.node = n && c.backprop)) ∧
      ∀ fuel, N ≤ fuel → ∀ flags, ∃ v, initializeWeights g fuel flags = some ⟨v, log⟩ := by
  obtain ⟨μ, hμ⟩ := exists_rank hc ha
  obtain ⟨M, hM⟩ := exists_bound g.nodes μ
  obtain ⟨N, log, h1, h2, h3, h4⟩ := traverse (nodes := g.nodes)
    (succ := fun n => (g.heap n).bps.map (·.node)) (μ := fun n => M - μ n) (by
      intro n hn m hm
      obtain ⟨e, he, rfl⟩ := List.mem_map.1 hm
      obtain ⟨a, b⟩ := registered_entry hr he
      refine ⟨a, ?_⟩
      have := hμ e.node n ⟨a, _, b, rfl⟩
      have := hM e.node a
      omega)
  let f : Nat → Nat × List Nat := fun n => (n, (g.heap n).bps.map (·.node))
  have hfst : (log.map f).map Prod.fst = log := by
    rw [List.map_map]
    conv => rhs; rw [← List.map_id log]
    rfl
  refine ⟨N, log.map f, by rw [hfst]; exact h1, by rw [hfst]; exact h2, ?_, ?_⟩
  · intro pre n l post he
    obtain ⟨l1, l2, hl, hl1, hl2⟩ := List.map_eq_append_iff.1 he
    cases l2 with
    | nil => simp at hl2
    | cons m l2 =>
      simp only [List.map_cons, List.cons.injEq] at hl2
      obtain ⟨hm, -⟩ := hl2
      have hmn : m = n := congrArg Prod.fst hm
      subst hmn
      have hl' : l = (g.heap m).bps.map (·.node) := (congrArg Prod.snd hm).symm
      have hpre : pre.map Prod.fst = l1 := by
        rw [← hl1, List.map_map]
        conv => rhs; rw [← List.map_id l1]
        rfl
      refine ⟨?_, ?_, ?_⟩
      · intro r
        rw [hl']
        constructor
        · intro h
          obtain ⟨e, he, rfl⟩ := List.mem_map.1 h
          obtain ⟨a, b⟩ := registered_entry hr he
          exact ⟨a, _, b, rfl, rfl⟩
        · exact registered_of_consumes hr
      · intro r h
        rw [hl'] at h
        rw [hpre]
        exact h3 l1 m l2 hl r h
      · intro r hrn
        rw [hl']
        apply registered_count
        intro b
        rw [hr m r b, if_pos hrn]
  · intro fuel hf flags
    obtain ⟨v, hv⟩ := h4 fuel hf flags
    refine ⟨v, ?_⟩
    unfold initializeWeights
    have := foldlM_deco (f := f) (F := fun n st => weightNode g.heap fuel n st)
      (G := fun n st => dfs (fun n => (g.heap n).bps.map (·.node)) fuel n st)
      (fun n st => weightNode_eq g.heap fuel n st) g.nodes
      { visited := fun n => if n ∈ g.nodes then false else flags n, log := [] }
    rw [hv] at this
    exact this

example : ((insertAll 2 (addNodes diamond [4, 2, 0, 3, 1])).bind
      fun g => initNodes g 10 fun n => n = 0).map (·.log) = some [1, 5, 2, 3, 4] := by decide

example : ((insertAll 2 (addNodes diamond [4, 2, 0, 3, 1])).bind
      fun g => initializeWeights g 10 fun _ => false).map (·.log) =
    some [(4, []), (2, [4]), (0, []), (3, [4]), (5, [2, 2, 3]), (1, [5])] := by decide

/-! ### C23 -/

/-- C23, the part that holds: a graph reported complete has an input and an output node, no node is
both, every node has a name and every connection uses an existing buffer of the node it leads to. -/
theorem C23_complete_partial (g : Graph) (h : isComplete g = true) :
    (∃ n ∈ g.nodes, (g.heap n).isInput = true) ∧ (∃ n ∈ g.nodes, (g.heap n).isOutput = true) ∧
    ∀ n ∈ g.nodes, (g.heap n).named = true ∧
      ¬ ((g.heap n).isInput = true ∧ (g.heap n).isOutput = true) ∧
      ∀ c ∈ (g.heap n).inputs, c.buffer < (g.heap c.node).buffers := by
  unfold isComplete at h
  simp only [Bool.and_eq_true, List.all_eq_true, List.any_eq_true] at h
  obtain ⟨⟨h1, h2⟩, h3⟩ := h
  refine ⟨h2, h3, ?_⟩
  intro n hn
  obtain ⟨⟨a, b⟩, c⟩ := h1 n hn
  refine ⟨b, by rintro ⟨p, q⟩; simp [p, q] at c, ?_⟩
  intro x hx
  have := a x hx
  simpa [hn] using this

/-- C23 is false, connections: a graph is reported complete although a connection leads to a node
that was never added to it.  That node runs in the first forward pass only: its flag is not
cleared, so the second pass uses its old output. -/
theorem C23_foreign_node_accepted :
    ∃ g : Graph, isComplete g = true ∧ Reads g 2 0 ∧ 0 ∉ g.nodes ∧
      (feedForward g 5 fun _ => false).map (·.log) = some [1, 0, 2] ∧
      ((feedForward g 5 fun _ => false).bind fun st => feedForward g 5 st.visited).map (·.log) =
        some [1, 2] := by
  refine ⟨addNodes { heap := heapOf [{}, { isInput := true },
      { inputs := [⟨0, 0, true⟩, ⟨1, 0, true⟩], isOutput := true }] } [1, 2], by decide, ⟨by decide, ⟨0, 0, true⟩, by decide, rfl⟩, by decide,
    by decide, by decide⟩

/-- C23 is false, cycles: two nodes that read from each other are reported complete, and the forward
pass of the graph never ends. -/
theorem C23_cycle_accepted :
    ∃ g : Graph, isComplete g = true ∧ Closed g ∧ ∀ fuel flags, feedForward g fuel flags = none := by
  refine ⟨addNodes { heap := heapOf [{ isInput := true }, { inputs := [⟨0, 0, true⟩, ⟨2, 0, true⟩] },
    { inputs := [⟨1, 0, true⟩], isOutput := true }] } [0, 1, 2], by decide, ?_, ?_⟩
  · rintro a b ⟨ha, c, hc, rfl⟩
    revert a c
    decide
  · intro fuel flags
    apply C19_cycle_diverges _ 1
    exact Relation.TransGen.tail (.single ⟨by decide, ⟨2, 0, true⟩, by decide, rfl⟩)
        ⟨by decide, ⟨1, 0, true⟩, by decide, rfl⟩

/-! ### C22 -/

/-- The network that would be loaded if all parameters are restored. -/
def restored (saved : List (List (Tensor F32))) : List (List (Tensor (Option F32))) :=
  saved.map fun ps => ps.map fun t =>
    ⟨t.samples, t.width, t.height, t.maps, t.data.map some⟩

theorem restored_flatten (saved : List (List (Tensor F32))) :
    (restored saved).flatten = saved.flatten.map known := by
  unfold restored
  rw [List.map_flatten]
  rfl

theorem serializeParameters_eq (saved : List (List (Tensor F32))) :
    serializeParameters saved = saved.flatten.flatMap serialize := by
  unfold serializeParameters
  induction saved with
  | nil => rfl
  | cons ps saved ih => rw [List.flatMap_cons, List.flatten_cons, List.flatMap_append, ih]

/-- The number of nodes that `DeserializeParameters` visits. -/
def loadCount (lastLayer size : Nat) : Nat :=
  if lastLayer = 0 ∨ lastLayer ≥ size then size else lastLayer + 1

theorem deserializeParameters_eq {net : List (List (Tensor (Option F32)))} (hn : net ≠ [])
    (s : IStream) (k : Nat) :
    deserializeParameters net s k = loadLayers (loadCount k net.length) net s ∧
      loadCount k net.length ≤ net.length := by
  have hl : 0 < net.length := List.length_pos_iff.2 hn
  unfold deserializeParameters loadCount
  simp only
  by_cases h : k = 0 ∨ k ≥ net.length
  · rw [if_pos h, if_neg (by omega), if_pos h]
    exact ⟨by congr 1; omega, by omega⟩
  · rw [if_neg h, if_neg h]
    exact ⟨rfl, by omega⟩

/-- C22: the bytes written by `SerializeParameters`, possibly followed by others, restore every
parameter bit by bit into a network with the same numbers of parameters, whatever it contained.
With `last_layer = k`, `k` between 1 and the number of nodes, the nodes up to and including number
`k` are restored and the others keep their parameters; with `k = 0`, or a number that is too large,
all are restored. -/
theorem C22_restore (saved : List (List (Tensor F32)))
    (hs : ∀ ps ∈ saved, ∀ t ∈ ps, t.WF ∧ 0 < t.elements ∧ t.Fits) (hne : saved ≠ [])
    (net : List (List (Tensor (Option F32)))) (hl : net.map List.length = saved.map List.length)
    (rest : List Byte) (k : Nat) :
    ∃ s', deserializeParameters net { bytes := serializeParameters saved ++ rest } k =
      some (if k = 0 ∨ saved.length ≤ k then restored saved
        else (restored saved).take (k + 1) ++ net.drop (k + 1), s') := by
  have hlen : net.length = saved.length := by simpa using congrArg List.length hl
  have hnne : net ≠ [] := by intro e; rw [e] at hlen; simp at hlen; exact hne (List.length_eq_zero_iff.1 hlen.symm)
  obtain ⟨he, hle⟩ := deserializeParameters_eq hnne { bytes := serializeParameters saved ++ rest } k
  obtain ⟨head, s', h1, h2, h3⟩ := loadLayers_eq (loadCount k net.length) net
    { bytes := serializeParameters saved ++ rest } hle
  refine ⟨s', ?_⟩
  rw [he, h1]
  generalize hm : loadCount k net.length = m at *
  -- the loaded part
  have hsplit : serializeParameters saved ++ rest = (saved.take m).flatten.flatMap serialize ++
      ((saved.drop m).flatten.flatMap serialize ++ rest) := by
    rw [serializeParameters_eq, ← List.append_assoc, ← List.flatMap_append, ← List.flatten_append,
      List.take_append_drop]
  have hlenm : (net.take m).flatten.length = (saved.take m).flatten.length := by
    rw [List.length_flatten, List.length_flatten, List.map_take, List.map_take, hl]
  have hload := loadLayer_ok (saved.take m).flatten (by
      intro t ht
      obtain ⟨ps, hps, htp⟩ := List.mem_flatten.1 ht
      exact hs ps (List.mem_of_mem_take hps) t htp) (net.take m).flatten
    { bytes := serializeParameters saved ++ rest } ((saved.drop m).flatten.flatMap serialize ++ rest)
    hlenm (.inl ⟨rfl, rfl, Nat.zero_le _, by rw [← hsplit]; rfl⟩)
  rw [← h3] at hload
  have hhead : head = restored (saved.take m) := by
    apply flatten_inj
    · rw [h2, List.map_take, hl]
      simp [restored, List.map_take, Function.comp_def]
    · rw [restored_flatten]; exact hload.1
  rw [hhead]
  have hrt : restored (saved.take m) = (restored saved).take m := by simp [restored, List.map_take]
  rw [hrt]
  unfold loadCount at hm
  by_cases h : k = 0 ∨ k ≥ net.length
  · rw [if_pos h] at hm
    rw [if_pos (by rcases h with h | h; exact .inl h; right; omega), ← hm]
    rw [List.take_of_length_le (by simp [restored, hlen]), List.drop_of_length_le (Nat.le_refl _)]
    simp
  · rw [if_neg h] at hm
    rw [if_neg (by rw [← hlen]; exact h), ← hm]

/-- C22: whatever the file contains, loading with `last_layer = k ≥ 1` changes no parameter of the
nodes after number `k`, and no node gains or loses parameters. -/
theorem C22_later_nodes_kept (net : List (List (Tensor (Option F32)))) (s : IStream) (k : Nat)
    (hk : 1 ≤ k) (hkn : k < net.length) :
    ∃ net' s', deserializeParameters net s k = some (net', s') ∧
      net'.map List.length = net.map List.length ∧ net'.drop (k + 1) = net.drop (k + 1) := by
  have hnne : net ≠ [] := by intro e; rw [e] at hkn; simp at hkn
  obtain ⟨he, hle⟩ := deserializeParameters_eq hnne s k
  obtain ⟨head, s', h1, h2, -⟩ := loadLayers_eq (loadCount k net.length) net s hle
  have hm : loadCount k net.length = k + 1 := by
    unfold loadCount; rw [if_neg (by omega)]
  rw [hm] at h1 h2 he
  refine ⟨_, s', by rw [he, h1], ?_, ?_⟩
  · rw [List.map_append, h2, ← List.map_append, List.take_append_drop]
  · have hlen : head.length = k + 1 := by
      have := congrArg List.length h2
      simp at this
      omega
    rw [List.drop_append, List.drop_of_length_le (by omega), hlen]
    simp

/-- C22: loading from a file that was cut after any number `c` of bytes restores every parameter
whose record is complete, and changes at most one parameter more. -/
theorem C22_truncated (saved : List (List (Tensor F32)))
    (hs : ∀ ps ∈ saved, ∀ t ∈ ps, t.WF ∧ 0 < t.elements ∧ t.Fits) (hne : saved ≠ [])
    (net : List (List (Tensor (Option F32)))) (hl : net.map List.length = saved.map List.length)
    (c : Nat) :
    ∃ net' s' j mid, deserializeParameters net { bytes := (serializeParameters saved).take c } 0 =
        some (net', s') ∧
      net'.map List.length = net.map List.length ∧
      ((saved.flatten.take j).flatMap serialize).length ≤ c ∧
      (j = saved.flatten.length ∨ c < ((saved.flatten.take (j + 1)).flatMap serialize).length) ∧
      mid.length ≤ 1 ∧
      net'.flatten = (restored saved).flatten.take j ++ mid ++
        net.flatten.drop (j + mid.length) := by
  have hlen : net.length = saved.length := by simpa using congrArg List.length hl
  have hnne : net ≠ [] := by intro e; rw [e] at hlen; simp at hlen; exact hne (List.length_eq_zero_iff.1 hlen.symm)
  obtain ⟨he, hle⟩ := deserializeParameters_eq hnne { bytes := (serializeParameters saved).take c } 0
  obtain ⟨net', s', h1, h2, h3⟩ := loadLayers_eq (loadCount 0 net.length) net
    { bytes := (serializeParameters saved).take c } hle
  have hm : loadCount 0 net.length = net.length := by simp [loadCount]
  rw [hm] at h1 h2 h3 he
  rw [List.drop_of_length_le (Nat.le_refl _), List.append_nil] at h1
  rw [List.take_of_length_le (Nat.le_refl _)] at h2 h3
  have hall : ∀ t ∈ saved.flatten, Savable t := by
    intro t ht
    obtain ⟨ps, hps, htp⟩ := List.mem_flatten.1 ht
    exact hs ps hps t htp
  obtain ⟨j, j1, j2, j3⟩ := cut_decompose (l := saved.flatten) c
  have hfl : net.flatten.length = saved.flatten.length := by
    rw [List.length_flatten, List.length_flatten, hl]
  rw [serializeParameters_eq] at h1 h3 he
  rw [serializeParameters_eq]
  by_cases hj : j = saved.flatten.length
  · subst hj
    rw [List.take_length] at j1
    rw [List.take_of_length_le j1] at h1 h3 he ⊢
    have hload := loadLayer_ok saved.flatten hall net.flatten
      { bytes := saved.flatten.flatMap serialize } [] hfl
      (.inl ⟨rfl, rfl, Nat.zero_le _, by simp⟩)
    rw [← h3] at hload
    refine ⟨net', s', saved.flatten.length, [], by rw [he, h1], h2,
      by rw [List.take_length]; exact j1, .inl rfl, by simp, ?_⟩
    rw [restored_flatten, List.take_of_length_le (by rw [List.length_map]),
      List.drop_of_length_le (by rw [hfl]; exact Nat.le_refl _)]
    simpa using hload.1
  · have hj' : j < saved.flatten.length := by omega
    have j3' : c < ((saved.flatten.take (j + 1)).flatMap serialize).length := by
      rcases j3 with j3 | j3
      · exact absurd j3 hj
      · exact j3
    have hbytes : (saved.flatten.flatMap serialize).take c =
        (saved.flatten.take j).flatMap serialize ++ (saved.flatten[j].serialize.take
          (c - ((saved.flatten.take j).flatMap serialize).length)) := by
      have : saved.flatten.flatMap serialize = (saved.flatten.take j).flatMap serialize ++
          (saved.flatten[j].serialize ++ (saved.flatten.drop (j + 1)).flatMap serialize) := by
        conv => lhs; rw [← List.take_append_drop j saved.flatten, List.drop_eq_getElem_cons hj']
        simp only [List.flatMap_append, List.flatMap_cons]
      rw [List.take_succ_eq_append_getElem hj'] at j3'
      simp only [List.flatMap_append, List.flatMap_cons, List.flatMap_nil, List.append_nil,
        List.length_append] at j3'
      rw [this, List.take_append, List.take_of_length_le j1, List.take_append_of_le_length (by omega)]
    have hcut : c - ((saved.flatten.take j).flatMap serialize).length <
        saved.flatten[j].serialize.length := by
      rw [List.take_succ_eq_append_getElem hj'] at j3'
      simp only [List.flatMap_append, List.flatMap_cons, List.flatMap_nil, List.append_nil,
        List.length_append] at j3'
      omega
    have hload := loadLayer_ok (saved.flatten.take j)
      (fun t ht => hall t (List.mem_of_mem_take ht)) (net.flatten.take j)
      { bytes := (saved.flatten.flatMap serialize).take c } _
      (by rw [List.length_take, List.length_take, hfl])
      (.inl ⟨rfl, rfl, Nat.zero_le _, by rw [List.drop_zero]; exact hbytes⟩)
    obtain ⟨mid, m1, m2⟩ := loadLayer_cut (hall _ (List.getElem_mem hj')) hcut hload.2
      (net.flatten.drop j)
    have happ := loadLayer_append (net.flatten.take j) (net.flatten.drop j)
      { bytes := (saved.flatten.flatMap serialize).take c }
    rw [List.take_append_drop, ← h3] at happ
    have hf := congrArg Prod.fst happ
    simp only at hf
    refine ⟨net', s', j, mid, by rw [he, h1], h2, j1, .inr j3', m1, ?_⟩
    rw [hf, hload.1, m2, restored_flatten, List.map_take, List.append_assoc, List.drop_drop]

/-- C22: a network without nodes must not be loaded: the loop runs over the empty node list. -/
theorem C22_no_nodes_undefined (s : IStream) (k : Nat) : deserializeParameters [] s k = none := by
  simp [deserializeParameters, loadLayers]

/-- Non-vacuity: two nodes with parameters around one without, and a file cut in the last record. -/
example : (deserializeParameters [[⟨1, 1, 1, 1, [none]⟩], [], [⟨1, 2, 1, 1, [none, none]⟩]]
      { bytes := serializeParameters [[⟨1, 1, 1, 1, [7#32]⟩], [], [smallTensor]] } 0).map
      (fun r => r.1.map fun ps => ps.map (·.data)) =
    some [[[some 7#32]], [], [[some 0x3F800000#32, some 0x7FC00001#32]]] := by decide

example : (deserializeParameters [[⟨1, 1, 1, 1, [none]⟩], [], [⟨1, 2, 1, 1, [none, none]⟩]]
      { bytes := serializeParameters [[⟨1, 1, 1, 1, [7#32]⟩], [], [smallTensor]] } 1).map
      (fun r => r.1.map fun ps => ps.map (·.data)) =
    some [[[some 7#32]], [], [[none, none]]] := by decide

end CN24.Net
