import Verif.Proof.Gradient

/-
C65: the backward pass of a whole network computes the gradient of its loss.
-/

namespace CN24.Net
open Finset

/-- The layers after `Initialize`: those of the user, and accumulation layers in the new nodes. -/
noncomputable def withAccumulation (g' : Graph) (ns : List Nat) (S : Nat → LayerSem) : Nat → LayerSem :=
  fun n => if n ∈ ns then S n else gaLayer (g'.heap n).buffers

/-- An accumulation layer back-propagates exactly. -/
theorem gaLayer_exact (k m : Nat) (out : Nat → Nat) (hout : ∀ b < k, out b = m) (p : Vec) (x : Nat → Vec) :
    ExactAt (gaLayer k) 0 [(m, true)] k out p x := by
  intro P P' X X' _ _ _ hX _
  refine ⟨fun _ => X' 0, 0, ?_, hasDerivAt_const _ _, ?_⟩
  · intro b hb i hi
    rw [hout b hb] at hi
    exact hX 0 m true rfl i hi
  · intro d
    refine ⟨fun _ i => ((List.range k).map fun b => d b i).sum, ?_, ?_⟩
    · intro j k' hj
      cases j with
      | zero => rfl
      | succ j => simp at hj
    · have h1 : ∀ b ∈ range k, pair (out b) (d b) (X' 0) = pair m (d b) (X' 0) := by
        intro b hb
        rw [hout b (Finset.mem_range.1 hb)]
      rw [Finset.sum_congr rfl h1]
      simp only [pair, gaLayer, List.length_singleton, Finset.range_one, Finset.sum_singleton,
        Finset.range_zero, Finset.sum_empty, List.getD_cons_zero, if_true, add_zero, zero_add]
      rw [Finset.sum_comm]
      refine Finset.sum_congr rfl fun i _ => ?_
      rw [← Finset.sum_mul]
      congr 1

/-- Connections to accumulation nodes name buffers that exist. -/
theorem ga_buffer_lt {g g' : Graph} {ns : List Nat} (hw : Wired g ns)
    (hg' : ∀ fuel, 2 ≤ fuel → insertAll fuel (addNodes g ns) = some g') {r : Nat} (hr : r ∈ g'.nodes) {c : Conn}
    (h4 : c.node ∈ g'.nodes) (h5 : c.node ∉ ns) (hc : c ∈ (g'.heap r).inputs) (hb : c.backprop = true) :
    c.buffer < (g'.heap c.node).buffers := by
  obtain ⟨hinv, hnodes, hnoga, -⟩ := wired_inv hw
  obtain ⟨g2, hfuel, hp⟩ := insertAll_spec hinv (by rw [hnodes]; exact hnoga)
  obtain rfl : g2 = g' := Option.some.inj ((hfuel 2 (Nat.le_refl 2)).symm.trans (hg' 2 (Nat.le_refl 2)))
  obtain ⟨-, s, -, hs, hl, he, hj⟩ := hp.ga c.node h4 (by rw [hnodes]; exact h5)
  have h1 : 0 < (g2.heap c.node).bps.count ⟨r, c.buffer⟩ := by
    have := hp.inv.cons c.node r c.buffer
    rw [this, if_pos hr]
    refine List.count_pos_iff.2 ?_
    have : (⟨c.node, c.buffer, true⟩ : Conn) = c := by
      cases c with
      | mk n b p => cases hb; rfl
    rw [this]
    exact hc
  have h2 : 0 < (g2.heap c.node).bps.countP (fun e => e.buffer = c.buffer) :=
    List.countP_pos_iff.2 ⟨_, List.count_pos_iff.1 h1, by simp⟩
  rw [hj c.buffer] at h2
  have h3 : (g2.heap c.node).buffers = ((addNodes g ns).heap s).bps.length := by rw [he]; rfl
  rw [h3]
  by_contra hn
  rw [if_neg hn] at h2
  omega

/-- C65: for every network the user can wire without cycles, `Initialize` ends with a network on which
forward and backward passes end, such that for all layers, parameters, buffer contents and inputs:
if every layer back-propagates exactly at the current point and gradients are stopped only in front of
parts of the network without parameters, then

* after the forward pass the buffers hold the values the layers define;
* after the backward pass the gradients of the parameters are the derivative of the loss: for every way
  `θ` of changing the parameters, the derivative of the total loss is the sum of gradients times changes.

The deltas of buffers that no gradient reaches are never written.  They count as if they were gradients of the
loss (see `totalLoss`); for deltas that are zero the total loss is the sum of the losses. -/
theorem C65_gradient_partial (g : Graph) (ns : List Nat) (hw : Wired g ns) (ha : Acyclic (addNodes g ns)) :
    ∃ g' N flog blog, (∀ fuel, 2 ≤ fuel → insertAll fuel (addNodes g ns) = some g') ∧
      (∀ fuel, N ≤ fuel → ∀ flags, ∃ v, feedForward g' fuel flags = some ⟨v, flog⟩) ∧
      (∀ fuel, N ≤ fuel → ∀ flags, ∃ v, backPropagate g' fuel flags = some ⟨v, blog⟩) ∧
      ∀ (S : Nat → LayerSem) (psz : Nat → Nat) (sz : Nat → Nat → Nat)
        (_ : ∀ n ∈ ns, ∀ c ∈ ((addNodes g ns).heap n).inputs, c.buffer < (g.heap c.node).buffers)
        (_ : ∀ n ∈ ns, ∀ c ∈ ((addNodes g ns).heap n).inputs, c.backprop = false →
          Fixed (addNodes g ns) psz c.node)
        (θ : ℝ → Nat → Vec) (θ' : Nat → Vec)
        (_ : ∀ n ∈ ns, ∀ i < psz n, HasDerivAt (fun s => θ s n i) (θ' n i) 0)
        (_ : ∀ n ∈ ns, psz n = 0 → ∀ s, θ s n = θ 0 n)
        (y : ℝ → Nat → Nat → Vec) (_ : ∀ s, Solves (addNodes g ns) S (θ s) (y s))
        (_ : ∀ n ∈ ns, ¬ Fixed (addNodes g ns) psz n →
          ExactAt (S n) (psz n) (inputShapes (addNodes g ns) sz n) (g.heap n).buffers (sz n) (θ 0 n)
            (inputData (addNodes g ns) (y 0) n))
        (env : Nat → Nat → Vec) (st0 : Deltas),
        (∀ n ∈ ns, runLayers g' (layerForward (withAccumulation g' ns S) (θ 0)) flog env n = y 0 n) ∧
        HasDerivAt (fun s => totalLoss (addNodes g ns) S (fun n => (g.heap n).buffers) sz st0.delta (θ s) (y s))
          (∑ n ∈ ns.toFinset, pair (psz n) ((runBack g' (withAccumulation g' ns S) (θ 0)
            (runLayers g' (layerForward (withAccumulation g' ns S) (θ 0)) flog env) blog st0).grad n) (θ' n)) 0 := by
  classical
  obtain ⟨g', hg', hsingle, hconns, hga, ⟨extra, hextra⟩, hkeep, hreg'⟩ := C21_single_consumer_partial g ns hw
  obtain ⟨g'', hg'', hclosed', hacyc', -⟩ := C21_initialized_runs g ns hw ha
  obtain rfl : g'' = g' := by
    have := (hg'' 2 (Nat.le_refl 2)).symm.trans (hg' 2 (Nat.le_refl 2))
    exact Option.some.inj this
  obtain ⟨hreg, hGn, -⟩ := C20_addNode_registers g hw.start ns hw.nodup
  obtain ⟨N1, flog, hf1, hf2, hf3, hf4⟩ := C19_feedForward_order g'' hclosed' hacyc'
  obtain ⟨N2, blog, hb1, hb2, hb3, hb4⟩ := C20_backPropagate_order g'' hreg' hclosed' hacyc'
  refine ⟨g'', max N1 N2, flog, blog, hg', fun fuel hf => hf4 fuel (by omega), fun fuel hf => hb4 fuel (by omega), ?_⟩
  have hns : ∀ n ∈ ns, n ∈ g''.nodes := fun n hn => by rw [hextra]; exact List.mem_append_left _ hn
  have hGclosed : Closed (addNodes g ns) := (wired_inv hw).2.2.2
  -- connections of the new graph, one by one
  have hconn' : ∀ n ∈ ns, ∀ j : Nat, ((((addNodes g ns).heap n).inputs[j]? = none ∧ (g''.heap n).inputs[j]? = none) ∨
      ∃ c c', ((addNodes g ns).heap n).inputs[j]? = some c ∧ (g''.heap n).inputs[j]? = some c' ∧
        (c' = c ∨ (c.backprop = true ∧ c'.backprop = true ∧ c'.node ∈ g''.nodes ∧ c'.node ∉ ns ∧
          (g''.heap c'.node).inputs = [c]))) := by
    intro n hn j
    have hf := hconns n hn
    generalize ((addNodes g ns).heap n).inputs = l at hf
    generalize (g''.heap n).inputs = l' at hf
    induction hf generalizing j with
    | nil => left; simp
    | cons h hf ih =>
      cases j with
      | zero =>
        right
        refine ⟨_, _, rfl, rfl, ?_⟩
        rcases h with h | ⟨h1, h2, -, h3, h4, -, h5⟩
        · exact Or.inl h
        · exact Or.inr ⟨h1, h2, h3, h4, h5⟩
      | succ j => simpa using ih j
  have hcns : ∀ n ∈ ns, ∀ c ∈ ((addNodes g ns).heap n).inputs, c.node ∈ ns := by
    intro n hn c hcm
    have := hGclosed n c.node ⟨by rw [hGn]; exact hn, c, hcm, rfl⟩
    rwa [hGn] at this
  -- consumed buffers
  have hcons : ∀ s ∈ ns, ∀ b, Consumed g'' s b ↔ Consumed (addNodes g ns) s b := by
    intro s hs b
    constructor
    · rintro ⟨r, hr, hm⟩
      by_cases hrn : r ∈ ns
      · obtain ⟨j, hj⟩ := List.mem_iff_getElem?.1 hm
        rcases hconn' r hrn j with ⟨-, h⟩ | ⟨c, c', h1, h2, h3⟩
        · rw [h] at hj; cases hj
        · rw [h2] at hj
          cases hj
          rcases h3 with h3 | ⟨-, -, -, h4, -⟩
          · exact ⟨r, by rw [hGn]; exact hrn, h3 ▸ List.mem_of_getElem? h1⟩
          · exact absurd hs h4
      · obtain ⟨s', hs', hlen, -, hin, hbuf, hread⟩ := hga r hr hrn
        rw [hin] at hm
        simp only [List.mem_singleton, Conn.mk.injEq] at hm
        obtain ⟨rfl, rfl, -⟩ := hm
        obtain ⟨q, hq, hqm⟩ := hread 0 (by rw [hbuf]; omega)
        have hqn : q ∈ ns := by
          by_contra hqn
          obtain ⟨s2, hs2, -, -, hin2, -⟩ := hga q hq hqn
          rw [hin2] at hqm
          simp only [List.mem_singleton, Conn.mk.injEq] at hqm
          exact hrn (hqm.1 ▸ hs2)
        obtain ⟨j, hj⟩ := List.mem_iff_getElem?.1 hqm
        rcases hconn' q hqn j with ⟨-, h⟩ | ⟨c, c', h1, h2, h3⟩
        · rw [h] at hj; cases hj
        · rw [h2] at hj
          cases hj
          rcases h3 with h3 | ⟨-, -, -, -, h5⟩
          · exfalso
            have := hcns q hqn c (List.mem_of_getElem? h1)
            rw [← h3] at this
            exact hrn this
          · have h5' : (g''.heap r).inputs = [c] := h5
            rw [hin] at h5'
            simp only [List.cons.injEq, and_true] at h5'
            refine ⟨q, by rw [hGn]; exact hqn, ?_⟩
            rw [h5']
            exact List.mem_of_getElem? h1
    · rintro ⟨r, hr, hm⟩
      rw [hGn] at hr
      obtain ⟨j, hj⟩ := List.mem_iff_getElem?.1 hm
      rcases hconn' r hr j with ⟨h, -⟩ | ⟨c, c', h1, h2, h3⟩
      · rw [h] at hj; cases hj
      · rw [h1] at hj
        cases hj
        rcases h3 with h3 | ⟨-, -, h4, -, h5⟩
        · exact ⟨r, hns r hr, h3 ▸ List.mem_of_getElem? h2⟩
        · exact ⟨c'.node, h4, by rw [h5]; simp⟩
  intro S psz sz hbufs hstop θ θ' hθ hθ0 y hy hex env st0
  generalize hS' : withAccumulation g'' ns S = S'
  have hSn : ∀ n ∈ ns, S' n = S n := fun n hn => by rw [← hS']; exact if_pos hn
  have hSx : ∀ n, n ∉ ns → S' n = gaLayer (g''.heap n).buffers := fun n hn => by rw [← hS']; exact if_neg hn
  -- sizes, parameters and data of the new graph
  let psz' : Nat → Nat := fun n => if n ∈ ns then psz n else 0
  let sz' : Nat → Nat → Nat := fun n b => if n ∈ ns then sz n b else
    match (g''.heap n).inputs with
    | [c] => sz c.node c.buffer
    | _ => 0
  let θx : ℝ → Nat → Vec := fun s n => if n ∈ ns then θ s n else θ 0 n
  let yx : ℝ → Nat → Nat → Vec := fun s n b => if n ∈ ns then y s n b else
    match (g''.heap n).inputs with
    | [c] => y s c.node c.buffer
    | _ => 0
  have hpn : ∀ n ∈ ns, psz' n = psz n := fun n hn => if_pos hn
  have hpx : ∀ n, n ∉ ns → psz' n = 0 := fun n hn => if_neg hn
  have hszn : ∀ n ∈ ns, sz' n = sz n := fun n hn => by funext b; exact if_pos hn
  have hszx : ∀ n, n ∉ ns → ∀ c, (g''.heap n).inputs = [c] → ∀ b, sz' n b = sz c.node c.buffer := by
    intro n hn c hc b
    show (if n ∈ ns then _ else _) = _
    rw [if_neg hn, hc]
  have hyn : ∀ s, ∀ n ∈ ns, yx s n = y s n := fun s n hn => by funext b; exact if_pos hn
  have hyx : ∀ s n, n ∉ ns → ∀ c, (g''.heap n).inputs = [c] → ∀ b, yx s n b = y s c.node c.buffer := by
    intro s n hn c hc b
    show (if n ∈ ns then _ else _) = _
    rw [if_neg hn, hc]
  have hθx0 : θx 0 = θ 0 := by
    funext n
    show (if n ∈ ns then _ else _) = _
    split <;> rfl
  have hθn : ∀ s, ∀ n ∈ ns, θx s n = θ s n := fun s n hn => if_pos hn
  have hinput : ∀ s, ∀ n ∈ ns, inputData g'' (yx s) n = inputData (addNodes g ns) (y s) n := by
    intro s n hn
    funext j
    unfold inputData
    rcases hconn' n hn j with ⟨h1, h2⟩ | ⟨c, c', h1, h2, h3⟩
    · rw [h1, h2]
    · rw [h1, h2]
      have hcn := hcns n hn c (List.mem_of_getElem? h1)
      rcases h3 with rfl | ⟨-, -, -, h4, h5⟩
      · show yx s c'.node c'.buffer = _
        rw [hyn s _ hcn]
      · exact hyx s c'.node h4 c h5 _
  have hshape : ∀ n ∈ ns, inputShapes g'' sz' n = inputShapes (addNodes g ns) sz n := by
    intro n hn
    unfold inputShapes
    refine List.ext_getElem? fun j => ?_
    rw [List.getElem?_map, List.getElem?_map]
    rcases hconn' n hn j with ⟨h1, h2⟩ | ⟨c, c', h1, h2, h3⟩
    · rw [h1, h2]; rfl
    · rw [h1, h2]
      have hcn := hcns n hn c (List.mem_of_getElem? h1)
      rcases h3 with rfl | ⟨hb, hb', -, h4, h5⟩
      · simp only [Option.map_some, hszn _ hcn]
      · simp only [Option.map_some, hszx _ h4 c h5, hb, hb']
  have hsolve : ∀ s, Solves g'' S' (θx s) (yx s) := by
    intro s n hn
    by_cases hnn : n ∈ ns
    · rw [hSn n hnn, hyn s n hnn, hθn s n hnn, hinput s n hnn]
      exact hy s n (by rw [hGn]; exact hnn)
    · obtain ⟨s', hs', -, -, hin, -⟩ := hga n hn hnn
      funext b
      rw [hSx n hnn, hyx s n hnn _ hin b]
      show _ = inputData g'' (yx s) n 0
      unfold inputData
      rw [hin]
      show _ = yx s s' 0
      rw [hyn s s' hs']
  have hfixed : ∀ n, Fixed (addNodes g ns) psz n → n ∈ ns → Fixed g'' psz' n := by
    intro n h
    induction h with
    | mk n hp hin ih =>
      intro hn
      refine Fixed.mk n (by rw [hpn n hn]; exact hp) ?_
      intro c' hc'
      obtain ⟨j, hj⟩ := List.mem_iff_getElem?.1 hc'
      rcases hconn' n hn j with ⟨-, h⟩ | ⟨c, c1, h1, h2, h3⟩
      · rw [h] at hj; cases hj
      · rw [h2] at hj
        cases hj
        have hcm := List.mem_of_getElem? h1
        have := ih c hcm (hcns n hn c hcm)
        rcases h3 with rfl | ⟨-, -, -, h4, h5⟩
        · exact this
        · refine Fixed.mk _ (hpx _ h4) ?_
          rw [h5]
          intro c2 hc2
          rw [List.mem_singleton] at hc2
          rw [hc2]
          exact this
  -- the forward pass computes these data
  have hdata : ∀ n ∈ g''.nodes, runLayers g'' (layerForward S' (θ 0)) flog env n = yx 0 n := by
    obtain ⟨μ, hμ⟩ := exists_rank hclosed' hacyc'
    have key : ∀ k n, μ n < k → n ∈ g''.nodes →
        runLayers g'' (layerForward S' (θ 0)) flog env n = yx 0 n := by
      intro k
      induction k with
      | zero => intro n h; omega
      | succ k ih =>
        intro n hk hn
        rw [runLayers_fix g'' _ env flog hf1 hf3 n ((hf2 n).2 hn), hsolve 0 n hn, hθx0]
        show (S' n).forward (θ 0 n) _ = _
        congr 1
        funext j
        unfold inputData
        rw [List.getD_eq_getElem?_getD, List.getElem?_map]
        cases hj : (g''.heap n).inputs[j]? with
        | none => rfl
        | some c =>
          have hcm := List.mem_of_getElem? hj
          have hr : Reads g'' n c.node := ⟨hn, c, hcm, rfl⟩
          have := ih c.node (by have := hμ n c.node hr; omega) (hclosed' n c.node hr)
          simp only [Option.map_some, Option.getD_some, this]
    exact fun n hn => key (μ n + 1) n (by omega) hn
  refine ⟨fun n hn => by rw [hdata n (hns n hn), hyn 0 n hn], ?_⟩
  have main := graph_gradient hclosed' hacyc' hsingle S' psz' (fun n => (g''.heap n).buffers) sz'
    (by
      intro r hr c hcm
      by_cases hrn : r ∈ ns
      · obtain ⟨j, hj⟩ := List.mem_iff_getElem?.1 hcm
        rcases hconn' r hrn j with ⟨-, h⟩ | ⟨c0, c1, h1, h2, h3⟩
        · rw [h] at hj; cases hj
        · rw [h2] at hj
          cases hj
          have hcm0 := List.mem_of_getElem? h1
          rcases h3 with rfl | ⟨hb, hb', h4, h5, h6⟩
          · show c.buffer < (g''.heap c.node).buffers
            rw [(hkeep c.node (hcns r hrn c hcm0)).2.2.1]
            exact hbufs r hrn c hcm0
          · -- a buffer of an accumulation node
            exact ga_buffer_lt hw hg' hr h4 h5 hcm hb'
      · obtain ⟨s', hs', -, -, hin, -⟩ := hga r hr hrn
        rw [hin] at hcm
        rw [List.mem_singleton] at hcm
        subst hcm
        show 0 < (g''.heap s').buffers
        rw [(hkeep s' hs').2.2.1]
        have hc0 : Consumed (addNodes g ns) s' 0 := (hcons s' hs' 0).1 ⟨r, hr, by rw [hin]; simp⟩
        obtain ⟨q, hq, hqm⟩ := hc0
        rw [hGn] at hq
        exact hbufs q hq _ hqm)
    (by
      intro n hn c hcm hb
      by_cases hnn : n ∈ ns
      · obtain ⟨j, hj⟩ := List.mem_iff_getElem?.1 hcm
        rcases hconn' n hnn j with ⟨-, h⟩ | ⟨c0, c1, h1, h2, h3⟩
        · rw [h] at hj; cases hj
        · rw [h2] at hj
          cases hj
          rcases h3 with rfl | ⟨-, hb', -⟩
          · exact hfixed _ (hstop n hnn c (List.mem_of_getElem? h1) hb) (hcns n hnn c (List.mem_of_getElem? h1))
          · rw [hb] at hb'; cases hb'
      · obtain ⟨s', hs', -, -, hin, -⟩ := hga n hn hnn
        rw [hin, List.mem_singleton] at hcm
        subst hcm
        cases hb)
    θx (fun n => if n ∈ ns then θ' n else 0)
    (by
      intro n hn i hi
      by_cases hnn : n ∈ ns
      · rw [hpn n hnn] at hi
        simp only [if_pos hnn]
        have : (fun s => θx s n i) = fun s => θ s n i := by funext s; rw [hθn s n hnn]
        rw [this]
        exact hθ n hnn i hi
      · rw [hpx n hnn] at hi
        omega)
    (by
      intro n hn hp s
      by_cases hnn : n ∈ ns
      · rw [hpn n hnn] at hp
        rw [hθn s n hnn, hθn 0 n hnn]
        exact hθ0 n hnn hp s
      · show (if n ∈ ns then _ else _) = (if n ∈ ns then _ else _)
        rw [if_neg hnn, if_neg hnn])
    yx hsolve
    (by
      intro n hn hnf
      by_cases hnn : n ∈ ns
      · rw [hSn n hnn, hpn n hnn, hshape n hnn, hszn n hnn, hθx0, hinput 0 n hnn]
        show ExactAt _ _ _ (g''.heap n).buffers _ _ _
        rw [(hkeep n hnn).2.2.1]
        exact hex n hnn fun hf => hnf (hfixed n hf hnn)
      · obtain ⟨s', hs', -, -, hin, -⟩ := hga n hn hnn
        have hsh : inputShapes g'' sz' n = [(sz s' 0, true)] := by
          unfold inputShapes
          rw [hin]
          show [(sz' s' 0, true)] = _
          rw [hszn s' hs']
        rw [hSx n hnn, hpx n hnn, hsh]
        exact gaLayer_exact _ _ _ (fun b _ => hszx n hnn _ hin b) _ _)
    (runLayers g'' (layerForward S' (θ 0)) flog env) hdata blog hb1 hb2 hb3 st0
  rw [hθx0] at main
  -- back to the nodes of the user
  have hsub : ns.toFinset ⊆ g''.nodes.toFinset := by
    intro n hn
    exact List.mem_toFinset.2 (hns n (List.mem_toFinset.1 hn))
  have hloss : ∀ s, totalLoss g'' S' (fun n => (g''.heap n).buffers) sz' st0.delta (θx s) (yx s) =
      totalLoss (addNodes g ns) S (fun n => (g.heap n).buffers) sz st0.delta (θ s) (y s) := by
    intro s
    unfold totalLoss
    rw [hGn]
    congr 1
    · rw [← Finset.sum_subset hsub]
      · refine Finset.sum_congr rfl fun n hn => ?_
        have hn' := List.mem_toFinset.1 hn
        rw [hSn n hn', hθn s n hn', hinput s n hn']
      · intro n hn hnn
        rw [hSx n (fun h => hnn (List.mem_toFinset.2 h))]
        rfl
    · rw [← Finset.sum_subset hsub]
      · refine Finset.sum_congr rfl fun n hn => ?_
        have hn' := List.mem_toFinset.1 hn
        show ∑ b ∈ range (g''.heap n).buffers, _ = _
        rw [(hkeep n hn').2.2.1, hszn n hn', hyn s n hn']
        refine Finset.sum_congr rfl fun b _ => ?_
        by_cases hcb : Consumed (addNodes g ns) n b
        · rw [if_pos hcb, if_pos ((hcons n hn' b).2 hcb)]
        · rw [if_neg hcb, if_neg (fun h => hcb ((hcons n hn' b).1 h))]
      · intro n hn hnn
        have hnn' : n ∉ ns := fun h => hnn (List.mem_toFinset.2 h)
        obtain ⟨s', hs', -, -, hin, hbuf, hread⟩ := hga n (List.mem_toFinset.1 hn) hnn'
        refine Finset.sum_eq_zero fun b hb => ?_
        rw [if_pos]
        exact hread b (Finset.mem_range.1 hb)
  have hgrad : ∑ n ∈ g''.nodes.toFinset, pair (psz' n) ((runBack g'' S' (θ 0)
        (runLayers g'' (layerForward S' (θ 0)) flog env) blog st0).grad n) (if n ∈ ns then θ' n else 0) =
      ∑ n ∈ ns.toFinset, pair (psz n) ((runBack g'' S' (θ 0)
        (runLayers g'' (layerForward S' (θ 0)) flog env) blog st0).grad n) (θ' n) := by
    rw [← Finset.sum_subset hsub]
    · refine Finset.sum_congr rfl fun n hn => ?_
      have hn' := List.mem_toFinset.1 hn
      rw [hpn n hn', if_pos hn']
    · intro n hn hnn
      rw [hpx n (fun h => hnn (List.mem_toFinset.2 h))]
      rfl
  rw [hgrad] at main
  simp only [hloss] at main
  exact main

/-- C65: the layers of an acyclic network determine the data of all buffers. -/
theorem C65_data_exist (g : Graph) (ns : List Nat) (hw : Wired g ns) (ha : Acyclic (addNodes g ns))
    (S : Nat → LayerSem) (params : Nat → Vec) :
    (∃ y, Solves (addNodes g ns) S params y) ∧
    ∀ y z, Solves (addNodes g ns) S params y → Solves (addNodes g ns) S params z → ∀ n ∈ ns, y n = z n := by
  obtain ⟨-, hGn, -, hGclosed⟩ := wired_inv hw
  obtain ⟨N, log, -, hlog⟩ := C19_feedForward_values (addNodes g ns) hGclosed ha (layerForward S params)
  constructor
  · refine ⟨runLayers (addNodes g ns) (layerForward S params) log fun _ _ => 0, ?_⟩
    intro n hn
    refine ((hlog _).1 n hn).trans ?_
    unfold layerForward
    congr 1
    funext j
    unfold inputData
    rw [List.getD_eq_getElem?_getD, List.getElem?_map]
    cases ((addNodes g ns).heap n).inputs[j]? <;> rfl
  · intro y z hy hz
    obtain ⟨μ, hμ⟩ := exists_rank hGclosed ha
    have key : ∀ k n, μ n < k → n ∈ (addNodes g ns).nodes → y n = z n := by
      intro k
      induction k with
      | zero => intro n h; omega
      | succ k ih =>
        intro n hk hn
        rw [hy n hn, hz n hn]
        congr 1
        funext j
        unfold inputData
        cases hj : ((addNodes g ns).heap n).inputs[j]? with
        | none => rfl
        | some c =>
          have hr : Reads (addNodes g ns) n c.node := ⟨hn, c, List.mem_of_getElem? hj, rfl⟩
          have := ih c.node (by have := hμ n c.node hr; omega) (hGclosed n c.node hr)
          simp only [this]
    intro n hn
    exact key (μ n + 1) n (by omega) (by rw [hGn]; exact hn)

/-- Parameters with one value moved by `s`. -/
def nudge (θ : Nat → Vec) (n i : Nat) (s : ℝ) : Nat → Vec :=
  fun n' i' => if n' = n ∧ i' = i then θ n' i' + s else θ n' i'

/-- C65 for a single parameter: if the deltas of buffers no gradient reaches are zero, the gradient that a
forward and a backward pass leave for parameter `i` of layer `n` is the partial derivative of the sum of
the losses. -/
theorem C65_partial_derivative_partial (g : Graph) (ns : List Nat) (hw : Wired g ns)
    (ha : Acyclic (addNodes g ns)) :
    ∃ g' N flog blog, (∀ fuel, 2 ≤ fuel → insertAll fuel (addNodes g ns) = some g') ∧
      (∀ fuel, N ≤ fuel → ∀ flags, ∃ v, feedForward g' fuel flags = some ⟨v, flog⟩) ∧
      (∀ fuel, N ≤ fuel → ∀ flags, ∃ v, backPropagate g' fuel flags = some ⟨v, blog⟩) ∧
      ∀ (S : Nat → LayerSem) (psz : Nat → Nat) (sz : Nat → Nat → Nat)
        (_ : ∀ n ∈ ns, ∀ c ∈ ((addNodes g ns).heap n).inputs, c.buffer < (g.heap c.node).buffers)
        (_ : ∀ n ∈ ns, ∀ c ∈ ((addNodes g ns).heap n).inputs, c.backprop = false →
          Fixed (addNodes g ns) psz c.node)
        (θ : Nat → Vec) (m i : Nat) (_ : m ∈ ns) (_ : i < psz m)
        (y : ℝ → Nat → Nat → Vec) (_ : ∀ s, Solves (addNodes g ns) S (nudge θ m i s) (y s))
        (_ : ∀ n ∈ ns, ¬ Fixed (addNodes g ns) psz n →
          ExactAt (S n) (psz n) (inputShapes (addNodes g ns) sz n) (g.heap n).buffers (sz n) (θ n)
            (inputData (addNodes g ns) (y 0) n))
        (env : Nat → Nat → Vec) (st0 : Deltas)
        (_ : ∀ n ∈ ns, ∀ b < (g.heap n).buffers, ¬ Consumed (addNodes g ns) n b → st0.delta n b = 0),
        HasDerivAt (fun s => ∑ n ∈ ns.toFinset,
            (S n).loss (nudge θ m i s n) (inputData (addNodes g ns) (y s) n))
          ((runBack g' (withAccumulation g' ns S) θ
            (runLayers g' (layerForward (withAccumulation g' ns S) θ) flog env) blog st0).grad m i) 0 := by
  classical
  obtain ⟨g', N, flog, blog, h1, h2, h3, h4⟩ := C65_gradient_partial g ns hw ha
  refine ⟨g', N, flog, blog, h1, h2, h3, ?_⟩
  intro S psz sz hbufs hstop θ m i hm hi y hy hex env st0 hst
  obtain ⟨-, hGn, -⟩ := wired_inv hw
  have h0 : nudge θ m i 0 = θ := by
    funext n' i'
    unfold nudge
    split <;> simp
  have := (h4 S psz sz hbufs hstop (nudge θ m i) (fun n' i' => if n' = m ∧ i' = i then 1 else 0)
    (by
      intro n' _ i' _
      unfold nudge
      by_cases h : n' = m ∧ i' = i
      · simp only [if_pos h]
        exact (hasDerivAt_id (0 : ℝ)).const_add _
      · simp only [if_neg h]
        exact hasDerivAt_const _ _)
    (by
      intro n' _ hp s
      funext i'
      unfold nudge
      have : n' ≠ m := fun h => by rw [h] at hp; omega
      rw [if_neg (fun h => this h.1), if_neg (fun h => this h.1)])
    y hy (by rw [h0]; exact hex) env st0).2
  rw [h0] at this
  have hgrad : ∀ G : Nat → Vec, ∑ n ∈ ns.toFinset, pair (psz n) (G n)
      ((fun n' i' => if n' = m ∧ i' = i then (1 : ℝ) else 0) n) = G m i := by
    intro G
    rw [Finset.sum_eq_single m]
    · unfold pair
      rw [Finset.sum_eq_single i]
      · simp
      · intro b _ hb
        simp [hb]
      · intro h
        exact absurd (Finset.mem_range.2 hi) h
    · intro b _ hb
      unfold pair
      refine Finset.sum_eq_zero fun k _ => ?_
      simp [hb]
    · intro h
      exact absurd (List.mem_toFinset.2 hm) h
  rw [hgrad] at this
  have hloss : ∀ s, totalLoss (addNodes g ns) S (fun n => (g.heap n).buffers) sz st0.delta (nudge θ m i s) (y s) =
      ∑ n ∈ ns.toFinset, (S n).loss (nudge θ m i s n) (inputData (addNodes g ns) (y s) n) := by
    intro s
    unfold totalLoss
    rw [hGn]
    rw [Finset.sum_eq_zero (s := ns.toFinset) (f := fun n => ∑ b ∈ range (g.heap n).buffers, _), add_zero]
    intro n hn
    refine Finset.sum_eq_zero fun b hb => ?_
    split
    · rfl
    · rename_i hc
      rw [hst n (List.mem_toFinset.1 hn) b (Finset.mem_range.1 hb) hc]
      simp [pair]
  simp only [hloss] at this
  exact this

/-! ### Where the code departs from the gradient, and a network that meets the hypotheses -/

/-- A layer without inputs that delivers the value one. -/
noncomputable def oneLayer : LayerSem where
  forward _ _ _ _ := 1
  loss _ _ := 0
  backward _ _ _ _ _ := (fun _ => none, 0)

/-- A convolution with one weight and no bias on an image of one pixel. -/
noncomputable def scaleLayer : LayerSem where
  forward p x _ i := p 0 * x 0 i
  loss _ _ := 0
  backward e p x _ d := (fun j => if e = true ∧ j = 0 then some (fun i => p 0 * d 0 i) else none,
    fun _ => d 0 0 * x 0 0)

/-- The sum of two pixels (src/net/SumLayer.cpp). -/
noncomputable def plusLayer : LayerSem where
  forward _ x _ i := x 0 i + x 1 i
  loss _ _ := 0
  backward _ _ _ _ d := (fun j => if j < 2 then some (d 0) else none, 0)

/-- The loss x²/2 of one pixel. -/
noncomputable def squareLayer : LayerSem where
  forward _ _ _ := 0
  loss _ x := x 0 0 ^ 2 / 2
  backward _ _ x _ _ := (fun j => if j = 0 then some (x 0) else none, 0)

/-- A layer reading the input whose output nobody reads. -/
def unread : Graph :=
  { heap := heapOf [{ isInput := true, buffers := 1 }, { inputs := [⟨0, 0, true⟩], buffers := 1 }], next := 2 }

/-- C65, why the deltas of unread buffers matter: no layer has a loss, but the gradient of the weight is
whatever the memory of the output's deltas holds.  The backward pass does not clear it. -/
theorem C65_unread_output (θ : Nat → Vec) (env : Nat → Nat → Vec) (d : ℝ) :
    insertAll 2 (addNodes unread [0, 1]) = some (addNodes unread [0, 1]) ∧
    (feedForward (addNodes unread [0, 1]) 9 fun _ => false).map (·.log) = some [0, 1] ∧
    (backPropagate (addNodes unread [0, 1]) 9 fun _ => false).map (·.log) = some [(0, false), (1, false)] ∧
    (runBack (addNodes unread [0, 1]) (fun n => if n = 0 then oneLayer else scaleLayer) θ
      (runLayers (addNodes unread [0, 1])
        (layerForward (fun n => if n = 0 then oneLayer else scaleLayer) θ) [0, 1] env)
      [(0, false), (1, false)] ⟨fun _ _ _ => d, 0⟩).grad 1 0 = d := by
  refine ⟨rfl, by decide, by decide, ?_⟩
  show d * 1 = d
  rw [mul_one]

/-- A layer reading the input, and a loss that reads it without propagating gradients, as the layers behind
a resize or down-sampling layer do. -/
def cut : Graph :=
  { heap := heapOf [{ isInput := true, buffers := 1 }, { inputs := [⟨0, 0, true⟩], buffers := 1 },
      { inputs := [⟨1, 0, false⟩], buffers := 0, isOutput := true }], next := 3 }

/-- C65, why gradients may only be stopped in front of parts without parameters: the loss is (w·1)²/2 with
derivative w, but the gradient the passes deliver is zero. -/
theorem C65_stopped_gradient (θ : Nat → Vec) (env : Nat → Nat → Vec) :
    insertAll 2 (addNodes cut [0, 1, 2]) = some (addNodes cut [0, 1, 2]) ∧
    (feedForward (addNodes cut [0, 1, 2]) 9 fun _ => false).map (·.log) = some [0, 1, 2] ∧
    (backPropagate (addNodes cut [0, 1, 2]) 9 fun _ => false).map (·.log) =
      some [(0, false), (1, false), (2, false)] ∧
    ∀ S, S = (fun n => if n = 0 then oneLayer else if n = 1 then scaleLayer else squareLayer) →
      (runLayers (addNodes cut [0, 1, 2]) (layerForward S θ) [0, 1, 2] env 1 0 0) = θ 1 0 ∧
      (S 2).loss (θ 2) (inputData (addNodes cut [0, 1, 2])
        (runLayers (addNodes cut [0, 1, 2]) (layerForward S θ) [0, 1, 2] env) 2) = θ 1 0 ^ 2 / 2 ∧
      (runBack (addNodes cut [0, 1, 2]) S θ (runLayers (addNodes cut [0, 1, 2]) (layerForward S θ) [0, 1, 2] env)
        [(0, false), (1, false), (2, false)] ⟨0, 0⟩).grad 1 0 = 0 := by
  refine ⟨rfl, by decide, by decide, ?_⟩
  rintro S rfl
  refine ⟨?_, ?_, ?_⟩
  · show θ 1 0 * 1 = θ 1 0
    rw [mul_one]
  · show (θ 1 0 * 1) ^ 2 / 2 = _
    rw [mul_one]
  · show (0 : ℝ) * 1 = 0
    rw [zero_mul]

theorem scaleLayer_exact (pr : Bool) (p : Vec) (x : Nat → Vec) :
    ExactAt scaleLayer 1 [(1, pr)] 1 (fun _ => 1) p x := by
  intro P P' X X' hP hX hP' hX' hs
  have h1 := hP' 0 (by omega)
  have h2 := hX' 0 1 pr rfl 0 (by omega)
  refine ⟨fun _ _ => P' 0 * x 0 0 + p 0 * X' 0 0, 0, ?_, hasDerivAt_const _ _, ?_⟩
  · intro b _ i hi
    obtain rfl : i = 0 := Nat.lt_one_iff.1 hi
    have := h1.mul h2
    simp only [hP, hX] at this
    exact this
  · intro d
    refine ⟨fun _ i => p 0 * d 0 i, ?_, ?_⟩
    · intro j k hj
      cases j with
      | zero => cases hj; rfl
      | succ j => simp at hj
    · simp only [pair, scaleLayer, Finset.range_one, Finset.sum_singleton, List.length_singleton,
        List.getD_cons_zero]
      cases pr with
      | true => simp; ring
      | false => rw [hs 0 1 rfl 0 (by omega)]; simp; ring

theorem plusLayer_exact (p : Vec) (x : Nat → Vec) :
    ExactAt plusLayer 0 [(1, true), (1, true)] 1 (fun _ => 1) p x := by
  intro P P' X X' _ _ _ hX' _
  have h1 := hX' 0 1 true rfl 0 (by omega)
  have h2 := hX' 1 1 true rfl 0 (by omega)
  refine ⟨fun _ _ => X' 0 0 + X' 1 0, 0, ?_, hasDerivAt_const _ _, ?_⟩
  · intro b _ i hi
    obtain rfl : i = 0 := Nat.lt_one_iff.1 hi
    exact h1.add h2
  · intro d
    refine ⟨fun _ => d 0, ?_, ?_⟩
    · intro j k hj
      match j with
      | 0 => rfl
      | 1 => rfl
      | j + 2 => simp at hj
    · simp [pair, plusLayer, Finset.sum_range_succ]
      ring

theorem squareLayer_exact (p : Vec) (x : Nat → Vec) :
    ExactAt squareLayer 0 [(1, true)] 0 (fun _ => 1) p x := by
  intro P P' X X' _ hX _ hX' _
  have h1 := hX' 0 1 true rfl 0 (by omega)
  refine ⟨0, x 0 0 * X' 0 0, by intro b hb; omega, ?_, ?_⟩
  · have := (h1.mul h1).div_const 2
    simp only [hX] at this
    have e : (fun s => squareLayer.loss (P s) (X s)) = fun s => X s 0 0 * X s 0 0 / 2 := by
      funext s
      show X s 0 0 ^ 2 / 2 = _
      ring
    rw [e]
    refine this.congr_deriv ?_
    ring
  · intro d
    refine ⟨fun _ => x 0, ?_, ?_⟩
    · intro j k hj
      cases j with
      | zero => rfl
      | succ j => simp at hj
    · simp [pair, squareLayer]

/-- Input, a weight, two weights behind it, their sum and its loss. -/
def fan : Graph :=
  { heap := heapOf [{ isInput := true, buffers := 1 }, { inputs := [⟨0, 0, true⟩], buffers := 1 },
      { inputs := [⟨1, 0, true⟩], buffers := 1 }, { inputs := [⟨1, 0, true⟩], buffers := 1 },
      { inputs := [⟨2, 0, true⟩, ⟨3, 0, true⟩], buffers := 1 },
      { inputs := [⟨4, 0, true⟩], buffers := 0, isOutput := true }], next := 6 }

/-- The layers of `fan`. -/
noncomputable def fanLayers : Nat → LayerSem := fun n =>
  if n = 0 then oneLayer else if n = 4 then plusLayer else if n = 5 then squareLayer else scaleLayer

/-- The number of parameters of the layers of `fan`. -/
def fanParams : Nat → Nat := fun n => if n = 0 ∨ n = 4 ∨ n = 5 then 0 else 1

theorem fan_wired : Wired fan [0, 1, 2, 3, 4, 5] := by
  refine ⟨⟨rfl, ?_⟩, by decide, by decide, by decide, by decide, by decide⟩
  intro n
  match n with
  | 0 => rfl
  | 1 => rfl
  | 2 => rfl
  | 3 => rfl
  | 4 => rfl
  | 5 => rfl
  | n + 6 => rfl

theorem fan_acyclic : Acyclic (addNodes fan [0, 1, 2, 3, 4, 5]) := by
  have hlt : ∀ a b, Reads (addNodes fan [0, 1, 2, 3, 4, 5]) a b → b < a := by
    rintro a b ⟨ha, c, hc, rfl⟩
    have key : ∀ a ∈ (addNodes fan [0, 1, 2, 3, 4, 5]).nodes,
        ∀ c ∈ ((addNodes fan [0, 1, 2, 3, 4, 5]).heap a).inputs, c.node < a := by decide
    exact key a ha c hc
  intro n hn
  have : ∀ a b, Relation.TransGen (Reads (addNodes fan [0, 1, 2, 3, 4, 5])) a b → b < a := by
    intro a b h
    induction h with
    | single h => exact hlt _ _ h
    | tail _ h ih => exact Nat.lt_trans (hlt _ _ h) ih
  exact Nat.lt_irrefl _ (this n n hn)

/-- Non-vacuity of C65: `fan` meets the hypotheses at all weights, for every layer and all data. -/
example : Wired fan [0, 1, 2, 3, 4, 5] ∧ Acyclic (addNodes fan [0, 1, 2, 3, 4, 5]) ∧
    (∀ n ∈ [0, 1, 2, 3, 4, 5], ∀ c ∈ ((addNodes fan [0, 1, 2, 3, 4, 5]).heap n).inputs,
      c.buffer < (fan.heap c.node).buffers) ∧
    (∀ n ∈ [0, 1, 2, 3, 4, 5], ∀ c ∈ ((addNodes fan [0, 1, 2, 3, 4, 5]).heap n).inputs, c.backprop = false →
      Fixed (addNodes fan [0, 1, 2, 3, 4, 5]) fanParams c.node) ∧
    ∀ (θ : Nat → Vec) (y : Nat → Nat → Vec), ∀ n ∈ [0, 1, 2, 3, 4, 5],
      ¬ Fixed (addNodes fan [0, 1, 2, 3, 4, 5]) fanParams n →
      ExactAt (fanLayers n) (fanParams n) (inputShapes (addNodes fan [0, 1, 2, 3, 4, 5]) (fun _ _ => 1) n)
        (fan.heap n).buffers (fun _ => 1) (θ n) (inputData (addNodes fan [0, 1, 2, 3, 4, 5]) y n) := by
  have h0 : Fixed (addNodes fan [0, 1, 2, 3, 4, 5]) fanParams 0 :=
    Fixed.mk 0 rfl (fun c hc => by
      have : ((addNodes fan [0, 1, 2, 3, 4, 5]).heap 0).inputs = [] := by decide
      rw [this] at hc
      cases hc)
  refine ⟨fan_wired, fan_acyclic, by decide, ?_, ?_⟩
  · intro n hn c hc hb
    have key : ∀ n ∈ [0, 1, 2, 3, 4, 5], ∀ c ∈ ((addNodes fan [0, 1, 2, 3, 4, 5]).heap n).inputs,
        c.backprop = false → c.node = 0 := by decide
    rw [key n hn c hc hb]
    exact h0
  · intro θ y n hn hf
    simp only [List.mem_cons, List.not_mem_nil, or_false] at hn
    rcases hn with rfl | rfl | rfl | rfl | rfl | rfl
    · exact absurd h0 hf
    · exact scaleLayer_exact false _ _
    · exact scaleLayer_exact true _ _
    · exact scaleLayer_exact true _ _
    · exact plusLayer_exact _ _
    · exact squareLayer_exact _ _

/-- The two readers of the first weight get an accumulation node. -/
example : (insertAll 2 (addNodes fan [0, 1, 2, 3, 4, 5])).map (fun g => (g.nodes, (g.heap 6).inputs,
      (g.heap 2).inputs, (g.heap 3).inputs)) =
    some ([0, 1, 2, 3, 4, 5, 6], [⟨1, 0, true⟩], [⟨6, 0, true⟩], [⟨6, 1, true⟩]) := by decide

end CN24.Net
