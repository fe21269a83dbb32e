import Verif.Proof.WeightInit
import Verif.Props.NetTrainChain
import Mathlib.Analysis.Real.Sqrt

/-
C87: the weights a network starts with.
-/

namespace CN24.WeightInit
open CN24 CN24.Net CN24.NetConfig CN24.Props

/-- C87: in a network without cycles the number of inputs behind every layer is well defined: exactly one
assignment satisfies the equations, whatever the kinds of the layers. -/
theorem C87_fan (g : Graph) (kind : Nat → Kind) (hc : Closed g) (ha : Acyclic g) :
    ∃ F, Fan g kind F ∧ ∀ F', Fan g kind F' → ∀ n ∈ g.nodes, F' n = F n :=
  fan_exists g kind hc ha

variable {ρ R : Type _} [Ring R]

/-- C87: after `Initialize` and `InitializeWeights` of a network as the user wired it, every weight of a
convolution layer is a number of the layer's own engine scaled to the range from `-r` to `r`, where `r` depends on
the number of inputs of its kernels and on the number of inputs behind the layers that read it *in the network of
the user*: accumulation nodes make no difference, nor does the order of the nodes, nor what the weights and gains
were before.  Nothing else about the layers changes: other parameters stay. -/
theorem C87_initial_weights (g : Graph) (ns : List Nat) (h : Wired g ns) (ha : Acyclic (addNodes g ns))
    (draw : ρ → R × ρ) (range : Nat → R) (us : Nat → Unit ρ R) (hx : ∀ n, n ∉ ns → (us n).kind = .other)
    (F : Nat → Nat) (hF : Fan (addNodes g ns) (fun n => (us n).kind) F)
    (hs : ∀ n ∈ ns, Fits (us n).kind (readers (addNodes g ns) F n)) :
    ∃ g' N, (∀ fuel, 2 ≤ fuel → insertAll fuel (addNodes g ns) = some g') ∧
      ∀ fuel, N ≤ fuel → ∀ flags, ∃ us', initializeWeights draw range g' fuel flags us = .done us' ∧
        (∀ n ∈ ns, ∀ w h m, (us n).kind = .convolution w h m →
          (us' n).weights.length = (us n).weights.length ∧
          (us' n).engine = (fun e => (draw e).2)^[(us n).weights.length] (us n).engine ∧
          ∀ i v, (us' n).weights[i]? = some v →
            let r := range (w * h * m + readers (addNodes g ns) F n)
            v = number draw (us n).engine i * (r - -r) + -r) ∧
        (∀ n, (∀ w h m, (us n).kind ≠ .convolution w h m) →
          (us' n).weights = (us n).weights ∧ (us' n).engine = (us n).engine) ∧
        ∀ n, (us' n).others = (us n).others ∧ (us' n).kind = (us n).kind := by
  obtain ⟨hinv, hnodes, hnoga, hclosed⟩ := wired_inv h
  obtain ⟨g', hfuel, hnd, ⟨extra, hex⟩, F', h1, h2⟩ := readers_accumulated g ns h F
  obtain ⟨g'', hfuel', hc', ha', hr'⟩ := C21_initialized_runs g ns h ha
  have hgg : g'' = g' := by
    have e1 := hfuel 2 (Nat.le_refl _)
    rw [hfuel' 2 (Nat.le_refl _)] at e1
    exact Option.some.inj e1
  subst hgg
  have hns : ∀ k ∈ ns, k ∈ (addNodes g ns).nodes := fun k hk => by rw [hnodes]; exact hk
  have hFan : Fan g'' (fun n => (us n).kind) F' := by
    intro n hn
    by_cases hnn : n ∈ ns
    · obtain ⟨a, b⟩ := h1 n hnn
      rw [a, b]
      exact hF n (hns n hnn)
    · dsimp only
      rw [hx n hnn]
      exact (h2 n hn hnn).1
  have hlt : ∀ s ∈ ns, readers (addNodes g ns) F s < 2 ^ 32 := by
    intro s hs'
    have := hs s hs'
    cases hk : (us s).kind with
    | convolution w h m => rw [hk] at this; have := this.2; omega
    | pooling w h => rw [hk] at this; exact this.2.2
    | other => rw [hk] at this; exact this
  have hfits : ∀ n ∈ g''.nodes, Fits (us n).kind (readers g'' F' n) := by
    intro n hn
    by_cases hnn : n ∈ ns
    · rw [(h1 n hnn).2]
      exact hs n hnn
    · rw [hx n hnn]
      obtain ⟨a, s, hs', b⟩ := h2 n hn hnn
      show readers g'' F' n < 2 ^ 32
      rw [← a, b]
      exact hlt s hs'
  obtain ⟨N, hN⟩ := initializeWeights_eq g'' hnd hr' hc' ha' draw range us F' hFan hfits
  refine ⟨g'', N, hfuel, fun fuel hf flags => ⟨_, hN fuel hf flags, ?_, ?_, ?_⟩⟩
  · intro n hn w h' m hk
    have hng : n ∈ g''.nodes := by rw [hex]; exact List.mem_append_left _ hn
    dsimp only
    rw [if_pos hng, (h1 n hn).2]
    unfold connected
    rw [hk]
    refine ⟨by simp, rfl, ?_⟩
    intro i v hv
    simp only [List.getElem?_map, Option.map_eq_some_iff] at hv
    obtain ⟨j, hj, rfl⟩ := hv
    rw [List.getElem?_eq_some_iff] at hj
    obtain ⟨hj1, hj2⟩ := hj
    rw [List.getElem_range] at hj2
    rw [hj2]
  · intro n hk
    split
    · unfold connected
      split
      · rename_i w h' m e
        exact absurd e (hk w h' m)
      · exact ⟨rfl, rfl⟩
    · exact ⟨rfl, rfl⟩
  · intro n
    split
    · unfold connected
      split <;> exact ⟨rfl, by first | rfl | assumption⟩
    · exact ⟨rfl, rfl⟩

/-- `const datum range = sqrt (6) / sqrt (next_layer_gain + this_layer_gain)` (src/net/ConvolutionLayer.cpp:335),
without rounding. -/
noncomputable def glorot (n : Nat) : ℝ := √6 / √n

/-- C87, the range: with numbers of [0, 1) and exact arithmetic the weights lie between `-r` and `r` where
`r * r = 6 / n` for the `n` inputs of the kernel and behind its readers together. -/
theorem C87_bounds (draw : ρ → ℝ × ρ) (hd : ∀ e, 0 ≤ (draw e).1 ∧ (draw e).1 < 1) (e : ρ) (i n : Nat) (hn : 0 < n) :
    let r := glorot n
    0 < r ∧ r * r = 6 / n ∧ -r ≤ number draw e i * (r - -r) + -r ∧ number draw e i * (r - -r) + -r < r := by
  intro r
  have hn' : (0 : ℝ) < n := by exact_mod_cast hn
  have h6 : (0 : ℝ) < 6 := by norm_num
  have hr : 0 < r := div_pos (Real.sqrt_pos.2 h6) (Real.sqrt_pos.2 hn')
  have hnum : 0 ≤ number draw e i ∧ number draw e i < 1 := hd _
  refine ⟨hr, ?_, ?_, ?_⟩
  · show √6 / √n * (√6 / √n) = _
    rw [div_mul_div_comm, Real.mul_self_sqrt h6.le, Real.mul_self_sqrt hn'.le]
  · nlinarith [mul_nonneg hnum.1 hr.le]
  · nlinarith [mul_lt_mul_of_pos_right hnum.2 hr]

/-! ### Networks from descriptions -/

/-- The kinds of the nodes of a network made from a description: the data layer, the layers with the sizes of their
inputs. -/
def kinds {D : Type _} (nodes : List (NewNode D)) (ds : List Shape) (known : List (List Shape)) : Nat → Kind
  | 0 => .other
  | k + 1 => match nodes[k]? with
    | some n => kindOf n.layer ((n.inputs.map (NetTrain.shapeAt ds known)).headD ⟨0, 0, 0, 0⟩).maps
    | none => .other

/-- The graph of a chain: node `j + 1` holds layer `j`, and gradients come back to it from node `j + 2` only. -/
theorem chain_readers {D : Type _} (one : D) (ls : List (Layer D)) (nodes : List (NewNode D))
    (hlen : nodes.length = ls.length + 1)
    (hnode : ∀ (k : Nat) (l : Layer D), ls[k]? = some l →
      nodes[k]? = some ⟨l, [before 1 ⟨0, 0, true⟩ ls k], decide (k + 1 = ls.length)⟩)
    (hloss : nodes[ls.length]? = some ⟨.error one, [⟨1 + ls.length - 1, 0, true⟩, ⟨0, 1, true⟩, ⟨0, 3, true⟩], false⟩)
    (ds : List Shape) (known : List (List Shape)) (hs : NetTrain.Sound ds nodes known) (F : Nat → Nat) :
    (∀ j l, ls[j]? = some l → wantsGradient l = true → readers (NetTrain.graphOf nodes) F (j + 1) = F (j + 2)) ∧
    readers (NetTrain.graphOf nodes) F (ls.length + 1) = 0 := by
  have hnodes := NetTrain.graph_nodes hs
  have hin : ∀ k, k < nodes.length + 1 → ∀ c ∈ ((NetTrain.graphOf nodes).heap k).inputs, c.backprop = true →
      c.node + 1 = k := by
    intro k hk c hc hb
    cases k with
    | zero =>
      rw [NetTrain.inputs_zero hs] at hc
      cases hc
    | succ k =>
      rcases Nat.lt_or_ge k ls.length with hkl | hkl
      · have hl : ls[k]? = some ls[k] := List.getElem?_eq_getElem hkl
        rw [NetTrain.inputs_eq hs (hnode k _ hl)] at hc
        simp only [List.map_cons, List.map_nil, List.mem_singleton] at hc
        subst hc
        unfold NetTrain.carries at hb
        cases k with
        | zero => simp [before] at hb
        | succ k =>
          have hl' : ls[k]? = some ls[k] := List.getElem?_eq_getElem (by omega)
          simp only [before, hl']
          omega
      · have hk' : k = ls.length := by omega
        subst hk'
        rw [NetTrain.inputs_eq hs hloss] at hc
        simp only [List.map_cons, List.map_nil, List.mem_cons, List.not_mem_nil, or_false] at hc
        rcases hc with rfl | rfl | rfl
        · show 1 + ls.length - 1 + 1 = _
          omega
        · simp [NetTrain.carries] at hb
        · simp [NetTrain.carries] at hb
  have hzero : ∀ s r, r < nodes.length + 1 → r ≠ s + 1 → links (NetTrain.graphOf nodes) r s = 0 := by
    intro s r hr hne
    unfold links
    rw [List.countP_eq_zero]
    intro c hc hp
    simp only [Bool.and_eq_true, decide_eq_true_eq] at hp
    have := hin r hr c hc hp.2
    omega
  refine ⟨?_, ?_⟩
  · intro j l hl hw
    have hj := (List.getElem?_eq_some_iff.1 hl).1
    rw [readers_links, hnodes, NetTrain.order, sum_single (k := j + 2) List.nodup_range (by rw [List.mem_range]; omega)]
    · have : links (NetTrain.graphOf nodes) (j + 2) (j + 1) = 1 := by
        unfold links
        rcases Nat.lt_or_ge (j + 1) ls.length with hkl | hkl
        · have hl' : ls[j + 1]? = some ls[j + 1] := List.getElem?_eq_getElem hkl
          rw [NetTrain.inputs_eq hs (hnode (j + 1) _ hl')]
          have : (1 + j == 0) = false := by simp
          simp [before, hl, NetTrain.carries, hw, Nat.add_comm 1 j]
        · have hk' : j + 1 = ls.length := by omega
          have : j + 2 = ls.length + 1 := by omega
          rw [this, NetTrain.inputs_eq hs hloss, hk']
          have : ls.length ≠ 0 := by omega
          simp [NetTrain.carries, Nat.add_comm 1 ls.length, this]
      rw [this, Nat.one_mul]
    · intro r hr hne
      rw [hzero (j + 1) r (List.mem_range.1 hr) hne, Nat.zero_mul]
  · rw [readers_links, hnodes, NetTrain.order]
    apply sum_zero
    intro r hr
    have := List.mem_range.1 hr
    rw [hzero _ r this (by omega), Nat.zero_mul]

theorem kinds_succ {D : Type _} {nodes : List (NewNode D)} {ds : List Shape} {known : List (List Shape)} {k : Nat}
    {n : NewNode D} (h : nodes[k]? = some n) :
    kinds nodes ds known (k + 1) =
      kindOf n.layer ((n.inputs.map (NetTrain.shapeAt ds known)).headD ⟨0, 0, 0, 0⟩).maps := by
  unfold kinds
  dsimp only
  rw [h]

/-- Layers with one input other than convolution layers keep the maps. -/
theorem outputs_maps {D : Type _} {l : Layer D} {a o : Shape} {os : List Shape} (h : l.outputs [a] = .done (o :: os))
    (hl : ¬ IsConvolution l) (hw : wantsGradient l = true) : o.maps = a.maps := by
  cases l with
  | conv => exact absurd trivial hl
  | resize => cases hw
  | downSample => cases hw
  | maxPool kx ky =>
    simp only [NetConfig.Layer.outputs] at h
    cases e : Pooling.createOutputs kx ky a.width a.height with
    | done r =>
      rw [e, Outcome.bind_done] at h
      cases r <;> simp at h
      rw [← h.1]
    | fatal => rw [e] at h; cases h
    | undefined => rw [e] at h; cases h
  | advMaxPool kx ky sx sy =>
    simp only [NetConfig.Layer.outputs] at h
    cases e : Pooling.advCreateOutputs kx ky sx sy a.width a.height with
    | done r =>
      rw [e, Outcome.bind_done] at h
      cases r with
      | none => simp at h
      | some r =>
        dsimp only at h
        split at h
        · cases h
        · simp at h
          rw [← h.1]
    | fatal => rw [e] at h; cases h
    | undefined => rw [e] at h; cases h
  | concat => cases h
  | sum => cases h
  | error => cases h
  | _ =>
    simp only [NetConfig.Layer.outputs, Outcome.done.injEq, List.cons.injEq] at h
    rw [← h.1]

theorem outputs_conv {D : Type _} {p : Convolution.Params} {d : Nat} {dr llr : D} {a o : Shape} {os : List Shape}
    (h : (Layer.conv p d dr llr).outputs [a] = .done (o :: os)) : o.maps = p.outputMaps := by
  simp only [NetConfig.Layer.outputs] at h
  cases e : Convolution.initialise p a.width a.height a.maps with
  | done r =>
    rw [e, Outcome.bind_done] at h
    cases r <;> simp at h
    rw [← h.1]
  | fatal => rw [e] at h; cases h
  | undefined => rw [e] at h; cases h

theorem outputs_one {D : Type _} {l : Layer D} {a : Shape} {os : List Shape} (h : l.outputs [a] = .done os) :
    ∃ o, os = [o] := by
  cases l with
  | maxPool kx ky =>
    simp only [NetConfig.Layer.outputs] at h
    cases e : Pooling.createOutputs kx ky a.width a.height with
    | done r =>
      rw [e, Outcome.bind_done] at h
      cases r <;> simp at h
      exact ⟨_, h.symm⟩
    | fatal => rw [e] at h; cases h
    | undefined => rw [e] at h; cases h
  | downSample kx ky =>
    simp only [NetConfig.Layer.outputs] at h
    cases e : Pooling.createOutputs kx ky a.width a.height with
    | done r =>
      rw [e, Outcome.bind_done] at h
      cases r <;> simp at h
      exact ⟨_, h.symm⟩
    | fatal => rw [e] at h; cases h
    | undefined => rw [e] at h; cases h
  | conv p d dr llr =>
    simp only [NetConfig.Layer.outputs] at h
    cases e : Convolution.initialise p a.width a.height a.maps with
    | done r =>
      rw [e, Outcome.bind_done] at h
      cases r <;> simp at h
      exact ⟨_, h.symm⟩
    | fatal => rw [e] at h; cases h
    | undefined => rw [e] at h; cases h
  | advMaxPool kx ky sx sy =>
    simp only [NetConfig.Layer.outputs] at h
    cases e : Pooling.advCreateOutputs kx ky sx sy a.width a.height with
    | done r =>
      rw [e, Outcome.bind_done] at h
      cases r with
      | none => simp at h
      | some r =>
        dsimp only at h
        split at h
        · cases h
        · simp at h
          exact ⟨_, h.symm⟩
    | fatal => rw [e] at h; cases h
    | undefined => rw [e] at h; cases h
  | concat => cases h
  | sum => cases h
  | error => cases h
  | _ =>
    simp only [NetConfig.Layer.outputs, Outcome.done.injEq] at h
    exact ⟨_, h.symm⟩

theorem areas_cons {D : Type _} (l : Layer D) (ls : List (Layer D)) (x maps : Nat) (hl : ¬ IsConvolution l)
    (hw : wantsGradient l = true) : passed (kindOf l maps) (x / areas ls) = x / areas (l :: ls) := by
  cases l with
  | conv => exact absurd trivial hl
  | downSample => cases hw
  | maxPool kx ky =>
    show x / areas ls / (kx * ky) = x / (kx * ky * areas ls)
    rw [Nat.div_div_eq_div_mul, Nat.mul_comm]
  | advMaxPool kx ky sx sy =>
    show x / areas ls / (kx * ky) = x / (kx * ky * areas ls)
    rw [Nat.div_div_eq_div_mul, Nat.mul_comm]
  | _ => rfl

/-- C87, chains: for a described chain of layers, what counts behind a convolution layer is the next convolution
layer: the inputs of its kernels, one for every position of the kernel and every output map of the layer, divided by
the sizes of the pooling regions in between; nothing counts behind the last convolution layer. -/
theorem C87_chain {D : Type _} (conv : Config.Str → D) (zero one : D) (items : List Item) (f : Fields) (classes : Nat)
    (hok : ∀ i ∈ items, i.Ok) (hnl : ∀ i ∈ items, '\n' ∉ i.text) :
    ∃ st, addLayers conv zero one f (linesOf (descriptionText items)) ⟨0, 0, true⟩ 1 classes true = .done st ∧
      ∀ ds : List Shape, ds.length = 4 → ∀ known, shapes 0 1 ds st.nodes [] = .done known →
      ∀ F, Fan (NetTrain.graphOf st.nodes) (kinds st.nodes ds known) F →
      ∀ k p d dr llr, (netLayers zero one f classes items)[k]? = some (.conv p d dr llr) →
        (∀ mid p' d' dr' llr' rest,
          (netLayers zero one f classes items).drop (k + 1) = mid ++ .conv p' d' dr' llr' :: rest →
          (∀ l ∈ mid, ¬ IsConvolution l ∧ wantsGradient l = true) →
          readers (NetTrain.graphOf st.nodes) F (k + 1) =
            p'.kernelWidth * p'.kernelHeight * p.outputMaps / areas mid) ∧
        ((∀ l ∈ (netLayers zero one f classes items).drop (k + 1), ¬ IsConvolution l ∧ wantsGradient l = true) →
          readers (NetTrain.graphOf st.nodes) F (k + 1) = 0) := by
  obtain ⟨st, h1, h2, h3, h4⟩ := C56_layers conv zero one items f ⟨0, 0, true⟩ 1 classes true hok hnl
  refine ⟨st, h1, ?_⟩
  intro ds h4' known hsh F hF k p d dr llr hk
  have h4 := h4 rfl
  rw [if_pos rfl] at h2
  have hs := NetTrain.sound_of h4' hsh
  generalize netLayers zero one f classes items = L at *
  obtain ⟨r1, r2⟩ := chain_readers one L st.nodes h2 h3 h4 ds known hs F
  have hnodes := NetTrain.graph_nodes hs
  have hmem : ∀ j, j ≤ L.length → j + 1 ∈ (NetTrain.graphOf st.nodes).nodes := by
    intro j hj
    rw [hnodes, NetTrain.mem_order, h2]
    omega
  -- the shape behind layer `j`
  have hshape : ∀ j l, L[j]? = some l → ∃ a o, l.outputs [a] = .done [o] ∧
      a = NetTrain.shapeAt ds known (before 1 ⟨0, 0, true⟩ L j) ∧
      NetTrain.shapeAt ds known (before 1 ⟨0, 0, true⟩ L (j + 1)) = o := by
    intro j l hl
    have hi := hs.ins (h3 j l hl)
    simp only [List.map_cons, List.map_nil] at hi
    obtain ⟨o, ho⟩ := outputs_one hi
    refine ⟨_, o, by rw [hi, ho], rfl, ?_⟩
    unfold NetTrain.shapeAt before
    simp only [hl]
    rw [if_neg (by omega)]
    have : 1 + j - 1 = j := by omega
    rw [this, ho]
    rfl
  have hkind : ∀ j l, L[j]? = some l → F (j + 1) = passed
      (kindOf l (NetTrain.shapeAt ds known (before 1 ⟨0, 0, true⟩ L j)).maps) (readers (NetTrain.graphOf st.nodes) F (j + 1)) := by
    intro j l hl
    have hj := (List.getElem?_eq_some_iff.1 hl).1
    have := hF (j + 1) (hmem j (by omega))
    rw [kinds_succ (h3 j l hl)] at this
    exact this
  have hend : F (L.length + 1) = 0 := by
    have := hF (L.length + 1) (hmem _ (Nat.le_refl _))
    rw [kinds_succ h4, r2] at this
    exact this
  have hrk := r1 k _ hk rfl
  obtain ⟨a, o, ho, ha, hao⟩ := hshape k _ hk
  have hmaps : (NetTrain.shapeAt ds known (before 1 ⟨0, 0, true⟩ L (k + 1))).maps = p.outputMaps := by
    rw [hao]
    exact outputs_conv ho
  clear hao ha ho
  rw [hrk]
  refine ⟨?_, ?_⟩
  · intro mid p' d' dr' llr' rest
    generalize hkk : k + 1 = j at hmaps ⊢
    have : k + 2 = j + 1 := by omega
    rw [this]
    clear this hkk hrk hk
    induction mid generalizing j with
    | nil =>
      intro hd _
      have hj : L[j]? = some (.conv p' d' dr' llr') := by
        have := congrArg (·[0]?) hd
        simpa using this
      rw [hkind j _ hj]
      show p'.kernelWidth * p'.kernelHeight * _ = _ / 1
      rw [hmaps, Nat.div_one]
    | cons l mid ih =>
      intro hd hm
      have hj : L[j]? = some l := by
        have := congrArg (·[0]?) hd
        simpa using this
      have hd' : L.drop (j + 1) = mid ++ .conv p' d' dr' llr' :: rest := by
        rw [← List.drop_drop, hd]
        rfl
      obtain ⟨hl1, hl2⟩ := hm l (List.mem_cons_self ..)
      obtain ⟨a, o, ho, ha, hao⟩ := hshape j _ hj
      have hmj : (NetTrain.shapeAt ds known (before 1 ⟨0, 0, true⟩ L (j + 1))).maps = p.outputMaps := by
        rw [hao, outputs_maps ho hl1 hl2, ha, hmaps]
      rw [hkind j _ hj, r1 j _ hj hl2, ih (j + 1) hmj hd' fun l hl => hm l (List.mem_cons_of_mem _ hl)]
      exact areas_cons l mid _ _ hl1 hl2
  · intro hall
    have hk' := (List.getElem?_eq_some_iff.1 hk).1
    have key : ∀ m j, j + m = L.length → (∀ l ∈ L.drop j, ¬ IsConvolution l ∧ wantsGradient l = true) → F (j + 1) = 0 := by
      intro m
      induction m with
      | zero =>
        intro j hj _
        have : j = L.length := by omega
        rw [this]
        exact hend
      | succ m ih =>
        intro j hj hall
        have hjl : j < L.length := by omega
        have hl : L[j]? = some L[j] := List.getElem?_eq_getElem hjl
        rw [List.drop_eq_getElem_cons hjl] at hall
        obtain ⟨h5, h6⟩ := hall L[j] (List.mem_cons_self ..)
        rw [hkind j _ hl, r1 j _ hl h6, ih (j + 1) (by omega) fun l hl => hall l (List.mem_cons_of_mem _ hl)]
        generalize L[j] = l at h5 h6 ⊢
        cases l with
        | conv => exact absurd trivial h5
        | downSample => cases h6
        | maxPool => exact Nat.zero_div _
        | advMaxPool => exact Nat.zero_div _
        | _ => rfl
    exact key (L.length - (k + 1)) (k + 1) (by omega) hall

/-! ### Groups, and the command `reset` -/

/-- C87, the part about kernels that holds: without groups the number the range is computed from is the number of
weights of each kernel. -/
theorem C87_kernel_inputs_partial {D : Type _} [CommRing D] (p : Convolution.Params) (hg : p.group = 1)
    (dropout : D) (samples inputWidth inputHeight inputMaps outputWidth outputHeight : Nat) (d : Nat) (dr llr : D) :
    ∃ w h m, kindOf (.conv p d dr llr) inputMaps = .convolution w h m ∧
      (Convolution.Layer.connect p dropout samples inputWidth inputHeight inputMaps outputWidth
        outputHeight).weights.data.length = p.outputMaps * (w * h * m) := by
  refine ⟨_, _, _, rfl, ?_⟩
  show (List.replicate _ _).length = _
  rw [List.length_replicate, hg, Nat.div_one]
  ring

/-- C87, pooling: a layer that makes the image smaller, by max pooling or by down-sampling, divides by the number of
pixels of its input for each pixel of its output. -/
theorem C87_regions {D : Type _} (l : Layer D) (kx ky : Nat) (hl : l = .maxPool kx ky ∨ l = .downSample kx ky)
    (a o : Shape) (ho : l.outputs [a] = .done [o]) (hw : 0 < a.width) (hh : 0 < a.height) (x maps : Nat) :
    passed (kindOf l maps) x = x / (a.width * a.height / (o.width * o.height)) ∧ o.maps = a.maps := by
  have key : ∃ r, Pooling.createOutputs kx ky a.width a.height = .done (some r) ∧
      o = ⟨a.samples, r.1, r.2, a.maps⟩ := by
    rcases hl with rfl | rfl
    all_goals
      simp only [Layer.outputs] at ho
      cases e : Pooling.createOutputs kx ky a.width a.height with
      | done r =>
        rw [e, Outcome.bind_done] at ho
        cases r with
        | none => cases ho
        | some r =>
          refine ⟨r, rfl, ?_⟩
          simpa using ho.symm
      | fatal => rw [e] at ho; cases ho
      | undefined => rw [e] at ho; cases ho
  obtain ⟨r, e, rfl⟩ := key
  unfold Pooling.createOutputs at e
  split at e
  · cases e
  split at e
  · cases e
  split at e
  · cases e
  split at e
  · cases e
  rename_i h1 h2 h3 h4
  cases e
  obtain ⟨q, hq⟩ := Nat.dvd_of_mod_eq_zero (Decidable.not_not.1 h2)
  obtain ⟨t, ht⟩ := Nat.dvd_of_mod_eq_zero (Decidable.not_not.1 h4)
  refine ⟨?_, rfl⟩
  have e : passed (kindOf l maps) x = x / (kx * ky) := by rcases hl with rfl | rfl <;> rfl
  rw [e]
  dsimp only
  rw [hq] at hw ⊢
  rw [ht] at hh ⊢
  have hq' := Nat.pos_of_mul_pos_left hw
  have ht' := Nat.pos_of_mul_pos_left hh
  rw [Nat.mul_div_cancel_left _ (by omega), Nat.mul_div_cancel_left _ (by omega),
    show kx * q * (ky * t) = kx * ky * (q * t) by ring, Nat.mul_div_cancel _ (Nat.mul_pos hq' ht')]

/-- Regions of 2 x 3 pixels. -/
example (x : Nat) : passed (kindOf (.downSample 2 3 : Layer ℚ) 5) x = x / 6 :=
  (C87_regions (.downSample 2 3) 2 3 (Or.inr rfl) ⟨1, 4, 6, 5⟩ ⟨1, 2, 2, 5⟩ rfl (by decide) (by decide) x 5).1

/-- C87, counterexample with groups: a layer with two groups is accepted; its kernels have 18 weights each, but the range
is computed as if they had 36. -/
theorem C87_groups_ignored : ∃ p : Convolution.Params, p.group = 2 ∧ Convolution.construct p = .done p ∧
    Convolution.initialise p 8 8 4 = .done (some (6, 6)) ∧
    (Convolution.Layer.connect p (0 : ℤ) 1 8 8 4 6 6).weights.data.length = p.outputMaps * 18 ∧
    (⟨kindOf (.conv p 0 (0 : ℤ) 1) 4, 0, (), [], []⟩ : Unit _ ℤ).gainOf = .done 36 := by
  refine ⟨⟨2, 3, 3, 1, 1, 0, 0, 2⟩, rfl, rfl, ?_, ?_, ?_⟩
  · decide +kernel
  · decide +kernel
  · decide +kernel

/-- C87, `reset`, the part that holds: initialising again draws new weights that do not depend on the ones that were
trained, nor on anything else but the engines. -/
theorem C87_reset_partial (g : Graph) (ns : List Nat) (h : Wired g ns) (ha : Acyclic (addNodes g ns))
    (draw : ρ → R × ρ) (range : Nat → R) (us vs : Nat → Unit ρ R) (hx : ∀ n, n ∉ ns → (us n).kind = .other)
    (F : Nat → Nat) (hF : Fan (addNodes g ns) (fun n => (us n).kind) F)
    (hs : ∀ n ∈ ns, Fits (us n).kind (readers (addNodes g ns) F n))
    (hsame : ∀ n, (vs n).kind = (us n).kind ∧ (vs n).engine = (us n).engine ∧
      (vs n).weights.length = (us n).weights.length) :
    ∃ g' N, (∀ fuel, 2 ≤ fuel → insertAll fuel (addNodes g ns) = some g') ∧
      ∀ fuel, N ≤ fuel → ∀ flags, ∃ us' vs', initializeWeights draw range g' fuel flags us = .done us' ∧
        initializeWeights draw range g' fuel flags vs = .done vs' ∧
        ∀ n ∈ ns, ∀ w h m, (us n).kind = .convolution w h m → (vs' n).weights = (us' n).weights ∧
          (vs' n).engine = (us' n).engine := by
  have hk : (fun n => (vs n).kind) = fun n => (us n).kind := funext fun n => (hsame n).1
  obtain ⟨g1, N1, a1, b1⟩ := C87_initial_weights g ns h ha draw range us hx F hF hs
  obtain ⟨g2, N2, a2, b2⟩ := C87_initial_weights g ns h ha draw range vs (fun n hn => by rw [(hsame n).1]; exact hx n hn) F
    (by rw [hk]; exact hF) (fun n hn => by rw [(hsame n).1]; exact hs n hn)
  have e : g2 = g1 := by
    have := a1 2 (Nat.le_refl _)
    rw [a2 2 (Nat.le_refl _)] at this
    exact Option.some.inj this
  subst e
  refine ⟨g2, max N1 N2, a1, fun fuel hf flags => ?_⟩
  obtain ⟨us', c1, c2, -⟩ := b1 fuel (by omega) flags
  obtain ⟨vs', d1, d2, -⟩ := b2 fuel (by omega) flags
  refine ⟨us', vs', c1, d1, fun n hn w h' m hkn => ?_⟩
  obtain ⟨c3, c4, c5⟩ := c2 n hn w h' m hkn
  obtain ⟨d3, d4, d5⟩ := d2 n hn w h' m (by rw [(hsame n).1]; exact hkn)
  refine ⟨?_, by rw [c4, d4, (hsame n).2.1, (hsame n).2.2]⟩
  apply List.ext_getElem?
  intro i
  have hlen : (vs' n).weights.length = (us' n).weights.length := by rw [c3, d3, (hsame n).2.2]
  by_cases hi : i < (us' n).weights.length
  · rw [List.getElem?_eq_getElem hi, List.getElem?_eq_getElem (by omega)]
    rw [c5 i _ (List.getElem?_eq_getElem hi), d5 i _ (List.getElem?_eq_getElem (by omega)), (hsame n).2.1]
  · rw [List.getElem?_eq_none (by omega), List.getElem?_eq_none (by omega)]

/-! ### A network: input, two convolution layers with pooling in between, the first one read twice -/

/-- The nodes: 0 the input, 1 a convolution layer, 2 pooling, 3 an activation that also reads 1, 4 a convolution layer that
reads 2, 5 the output that joins 3 and 4. -/
def sample : Graph :=
  { heap := heapOf [{ isInput := true, buffers := 4 }, { inputs := [⟨0, 0, true⟩] }, { inputs := [⟨1, 0, true⟩] },
      { inputs := [⟨1, 0, true⟩] }, { inputs := [⟨2, 0, true⟩] },
      { inputs := [⟨3, 0, true⟩, ⟨4, 0, true⟩], isOutput := true }],
    next := 6 }

theorem sample_wired : Wired sample [0, 1, 2, 3, 4, 5] := by
  refine ⟨⟨rfl, ?_⟩, by decide, by decide, by decide, by decide, by decide⟩
  intro n
  match n with
  | 0 => rfl
  | 1 => rfl
  | 2 => rfl
  | 3 => rfl
  | 4 => rfl
  | 5 => rfl
  | n + 6 => rfl

theorem sample_acyclic : Acyclic (addNodes sample [0, 1, 2, 3, 4, 5]) := by
  intro n hn
  have hlt : ∀ a b, Reads (addNodes sample [0, 1, 2, 3, 4, 5]) a b → b < a := by
    rintro a b ⟨ha, c, hc, rfl⟩
    have hall : ∀ a ∈ (addNodes sample [0, 1, 2, 3, 4, 5]).nodes, ∀ c ∈ ((addNodes sample [0, 1, 2, 3, 4, 5]).heap a).inputs,
        c.node < a := by decide
    exact hall a ha c hc
  have : ∀ {a b}, Relation.TransGen (Reads (addNodes sample [0, 1, 2, 3, 4, 5])) a b → b < a := by
    intro a b hab
    induction hab with
    | single h => exact hlt _ _ h
    | tail _ h ih => exact Nat.lt_trans (hlt _ _ h) ih
  exact Nat.lt_irrefl _ (this hn)

/-- Its layers; the engine counts up, the weights and the bias of the first layer are arbitrary. -/
def sampleLayers (weights : List ℤ) (bias : ℤ) : Nat → Unit Nat ℤ
  | 1 => ⟨.convolution 3 3 1, 7, 10, weights, [[bias]]⟩
  | 2 => ⟨.pooling 2 2, 7, 0, [], []⟩
  | 4 => ⟨.convolution 5 5 2, 7, 20, [0], [[0]]⟩
  | _ => ⟨.other, 7, 0, [], []⟩

/-- The numbers of the engine and the range, for the example. -/
def counting (e : Nat) : ℤ × Nat := (e, e + 1)

/-- C87, counterexample for `reset`: the tool promises to reinitialise the parameters, but the bias that was trained is still there
after `InitializeWeights`; the new network is not a new one. -/
theorem C87_reset_keeps_bias : ∃ g us0 us1, insertAll 2 (addNodes sample [0, 1, 2, 3, 4, 5]) = some g ∧
    initializeWeights counting (fun n => (n : ℤ)) g 10 (fun _ => false) (sampleLayers [0, 0] 0) = .done us0 ∧
    initializeWeights counting (fun n => (n : ℤ)) g 10 (fun _ => false) (sampleLayers [4, -1] 5) = .done us1 ∧
    (us0 1).weights = (us1 1).weights ∧ (us0 1).others = [[0]] ∧ (us1 1).others = [[5]] := by
  refine ⟨_, _, _, rfl, rfl, rfl, ?_, ?_, ?_⟩ <;> decide +kernel

/-- The inputs behind the layers of the example: 50 behind the second convolution layer, a quarter of it behind the pooling
layer, none behind the activation. -/
def sampleFan : Nat → Nat
  | 1 => 9
  | 2 => 12
  | 4 => 50
  | _ => 0

example : Fan (addNodes sample [0, 1, 2, 3, 4, 5]) (fun n => (sampleLayers [0, 0] 0 n).kind) sampleFan ∧
    readers (addNodes sample [0, 1, 2, 3, 4, 5]) sampleFan 1 = 12 ∧
    ∀ n ∈ [0, 1, 2, 3, 4, 5], Fits (sampleLayers [0, 0] 0 n).kind (readers (addNodes sample [0, 1, 2, 3, 4, 5]) sampleFan n) := by
  refine ⟨?_, by decide, ?_⟩
  · have : ∀ n ∈ (addNodes sample [0, 1, 2, 3, 4, 5]).nodes,
        sampleFan n = passed (sampleLayers [0, 0] 0 n).kind (readers (addNodes sample [0, 1, 2, 3, 4, 5]) sampleFan n) := by decide
    exact this
  · intro n hn
    simp only [List.mem_cons, List.not_mem_nil, or_false] at hn
    rcases hn with rfl | rfl | rfl | rfl | rfl | rfl <;> simp only [sampleLayers, Fits] <;> decide

/-- 9 inputs of the kernels and 12 behind the readers: the weights start at `-21`. -/
example : (Outcome.ofOption (insertAll 2 (addNodes sample [0, 1, 2, 3, 4, 5]))).bind (fun g =>
      (initializeWeights counting (fun n => (n : ℤ)) g 10 (fun _ => false) (sampleLayers [0, 0] 0)).bind fun us =>
      .done ((us 1).weights, (us 1).engine, (us 4).weights)) = .done ([10 * 42 - 21, 11 * 42 - 21], 12, [20 * 100 - 50]) := by
  decide +kernel

end CN24.WeightInit
