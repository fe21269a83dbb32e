import Verif.Proof.NetTrain

/-
C85: training a described network follows the gradient of its error.
-/

namespace CN24.NetTrain
open CN24 CN24.NetConfig CN24.Net Finset

section
variable {ds : List Shape} {nodes : List (NewNode ℝ)} {known : List (List Shape)}

theorem counts_zero {k : Nat} {n : NewNode ℝ} (hn : nodes[k]? = some n) (h : ¬ Learns n.layer) :
    countsOf nodes ds known (k + 1) = 0 := by
  show (match nodes[k]? with
    | some n => paramCount n.layer (n.inputs.map (shapeAt ds known)) (known.getD k [])
    | none => 0) = 0
  rw [hn]
  dsimp only
  unfold paramCount
  split
  · rename_i h1 _ _; rw [h1] at h; exact absurd trivial h
  · rename_i h1; rw [h1] at h; exact absurd trivial h
  · rfl

theorem fixed_data (hs : Sound ds nodes known) : Fixed (graphOf nodes) (countsOf nodes ds known) 0 :=
  Fixed.mk 0 rfl fun c hc => by rw [inputs_zero hs] at hc; cases hc

theorem fixed_of_inputs (hs : Sound ds nodes known) {k : Nat} {n : NewNode ℝ} (hn : nodes[k]? = some n)
    (hl : ¬ Learns n.layer)
    (h : ∀ c ∈ n.inputs, Fixed (graphOf nodes) (countsOf nodes ds known) c.node) :
    Fixed (graphOf nodes) (countsOf nodes ds known) (k + 1) := by
  refine Fixed.mk _ (counts_zero hn hl) ?_
  intro c hc
  rw [inputs_eq hs hn] at hc
  obtain ⟨c', hc', rfl⟩ := List.mem_map.1 hc
  exact h c' hc'

theorem fixed_of_not_dependent (hs : Sound ds nodes known) : ∀ (b k : Nat), k < b → ∀ n, nodes[k]? = some n →
    ¬ Dependent nodes k → Fixed (graphOf nodes) (countsOf nodes ds known) (k + 1) := by
  intro b
  induction b with
  | zero => intro k hk; omega
  | succ b ih =>
    intro k hk n hn hd
    refine fixed_of_inputs hs hn (fun hl => hd (.own k n hn hl)) ?_
    intro c hc
    rcases hs.conns hn c hc with ⟨h0, -⟩ | ⟨j, m, e, hj, hm, -⟩
    · rw [h0]; exact fixed_data hs
    · rw [e]
      exact ih j (by omega) m hm fun hdj => hd (.reads k j n c hn hc e hdj)

/-- Down-sampling layers read no connection that carries gradients. -/
def DownFirst {D : Type _} (nodes : List (NewNode D)) : Prop :=
  ∀ n ∈ nodes, IsDown n.layer → ∀ c ∈ n.inputs, carries c = false

theorem fixed_of_hides (hs : Sound ds nodes known) (hb : Built nodes) (hdown : DownFirst nodes) :
    ∀ (b k : Nat), k < b → ∀ n, nodes[k]? = some n → Hides n →
      Fixed (graphOf nodes) (countsOf nodes ds known) (k + 1) := by
  intro b
  induction b with
  | zero => intro k hk; omega
  | succ b ih =>
    intro k hk n hn hh
    have hmem := List.mem_of_getElem? hn
    unfold Hides at hh
    split at hh
    · rename_i _ _ hl
      refine fixed_of_inputs hs hn (by rw [hl]; exact id) ?_
      intro c hc
      rw [hh] at hc
      rw [List.mem_singleton.1 hc]
      exact fixed_data hs
    · rename_i _ _ hl
      refine fixed_of_inputs hs hn (by rw [hl]; exact id) ?_
      intro c hc
      have hcar := hdown n hmem (by rw [hl]; trivial) c hc
      rcases hs.conns hn c hc with ⟨h0, -⟩ | ⟨j, m, e, hj, hm, -⟩
      · rw [h0]; exact fixed_data hs
      · rw [e]
        have hbp : c.backprop = false := by
          unfold carries at hcar
          rw [e] at hcar
          simpa using hcar
        rcases (hb n hmem).conns c hc hbp with h0 | ⟨j', m', e', hm', hh'⟩
        · omega
        · obtain rfl : j' = j := by omega
          exact ih j' (by omega) m' hm' hh'
    · exact hh.elim

theorem fixed_of_stop (hs : Sound ds nodes known) (hb : Built nodes) (hdown : DownFirst nodes) {k : Nat}
    {n : NewNode ℝ} (hn : nodes[k]? = some n) {c : Conn} (hc : c ∈ n.inputs) (hcar : carries c = false) :
    Fixed (graphOf nodes) (countsOf nodes ds known) c.node := by
  rcases hs.conns hn c hc with ⟨h0, -⟩ | ⟨j, m, e, -, -, -⟩
  · rw [h0]; exact fixed_data hs
  · have hbp : c.backprop = false := by
      unfold carries at hcar
      rw [e] at hcar
      simpa using hcar
    rcases (hb n (List.mem_of_getElem? hn)).conns c hc hbp with h0 | ⟨j', m', e', hm', hh'⟩
    · rw [h0]; exact fixed_data hs
    · rw [e']
      exact fixed_of_hides hs hb hdown (j' + 1) j' (by omega) m' hm' hh'

/-! ### The calls of the backward pass -/

theorem call_flags {D : Type _} {ds : List Shape} {nodes : List (NewNode D)} {known : List (List Shape)}
    (hs : Sound ds nodes known) {g' : Graph} {N : Nat} {blog : List (Nat × Bool)}
    (h1 : ∀ fuel, 2 ≤ fuel → insertAll fuel (graphOf nodes) = some g')
    (h2 : ∀ fuel, N ≤ fuel → ∀ flags, ∃ v, backPropagate g' fuel flags = some ⟨v, blog⟩) :
    (∀ k n, nodes[k]? = some n → ∃ e, (k + 1, e) ∈ blog) ∧
    ∀ k n e, nodes[k]? = some n → (k + 1, e) ∈ blog → (e = true ↔ ∃ c ∈ n.inputs, carries c = true) := by
  have hw := wired hs
  obtain ⟨g1, hg1, -, hconns, -, ⟨extra, hextra⟩, -, hreg⟩ := C21_single_consumer_partial (netOf nodes) (order nodes) hw
  obtain ⟨g2, hg2, hclosed, hacyc, -⟩ := C21_initialized_runs (netOf nodes) (order nodes) hw (acyclic hs)
  obtain rfl : g1 = g' := Option.some.inj ((hg1 2 (Nat.le_refl 2)).symm.trans (h1 2 (Nat.le_refl 2)))
  obtain rfl : g2 = g1 := Option.some.inj ((hg2 2 (Nat.le_refl 2)).symm.trans (h1 2 (Nat.le_refl 2)))
  obtain ⟨M, log, b1, b2, b3, b4⟩ := C20_backPropagate_order g2 hreg hclosed hacyc
  have hlog : log = blog := by
    obtain ⟨v, hv⟩ := h2 (max N M) (by omega) fun _ => false
    obtain ⟨v', hv'⟩ := b4 (max N M) (by omega) fun _ => false
    rw [hv] at hv'
    have := Option.some.inj hv'
    cases this
    rfl
  subst hlog
  constructor
  · intro k n hn
    have : k + 1 ∈ log.map Prod.fst := (b2 _).2 (by rw [hextra]; exact List.mem_append_left _ (succ_mem hn))
    obtain ⟨e, he, hk⟩ := List.mem_map.1 this
    exact ⟨e.2, by rw [← hk]; exact he⟩
  · intro k n e hn he
    obtain ⟨pre, post, hsplit⟩ := List.append_of_mem he
    rw [(b3 pre (k + 1) e post hsplit).2]
    have hf := hconns (k + 1) (succ_mem hn)
    have hi : ((addNodes (netOf nodes) (order nodes)).heap (k + 1)).inputs = _ := inputs_eq hs hn
    rw [hi] at hf
    clear hi hsplit he
    generalize n.inputs = l at hf
    generalize (g2.heap (k + 1)).inputs = l' at hf
    induction l generalizing l' with
    | nil => cases hf; simp
    | cons c l ih =>
      cases hf with
      | cons ha hr =>
        rename_i c' l''
        have hcc : c'.backprop = carries c := by
          rcases ha with rfl | ⟨p, q, -⟩
          · rfl
          · rw [q]; exact p.symm
        have := ih _ hr
        constructor
        · rintro ⟨d, hd, hdb⟩
          rcases List.mem_cons.1 hd with rfl | hd
          · exact ⟨c, List.mem_cons_self .., by rw [← hcc]; exact hdb⟩
          · obtain ⟨x, hx, hxb⟩ := this.1 ⟨d, hd, hdb⟩
            exact ⟨x, List.mem_cons_of_mem _ hx, hxb⟩
        · rintro ⟨d, hd, hdb⟩
          rcases List.mem_cons.1 hd with rfl | hd
          · exact ⟨c', List.mem_cons_self .., by rw [hcc]; exact hdb⟩
          · obtain ⟨x, hx, hxb⟩ := this.2 ⟨d, hd, hdb⟩
            exact ⟨x, List.mem_cons_of_mem _ hx, hxb⟩

/-! ### The error -/

theorem sum_nodes (f : NewNode ℝ → ℝ) : ∀ l : List (NewNode ℝ), (l.map f).sum =
    ∑ k ∈ range l.length, (match l[k]? with | some n => f n | none => 0)
  | [] => rfl
  | n :: l => by
    rw [List.map_cons, List.sum_cons, sum_nodes f l, List.length_cons, Finset.sum_range_succ']
    simp only [List.getElem?_cons_succ, List.getElem?_cons_zero]
    rw [add_comm]

theorem tensorOf_val {sh : Shape} (v : Vec) {x y m s : Nat} (hx : x < sh.width) (hy : y < sh.height) (hm : m < sh.maps)
    (hs : s < sh.samples) : (tensorOf sh v).val x y m s = v (((s * sh.maps + m) * sh.height + y) * sh.width + x) := by
  unfold Tensor.val
  have hin : (tensorOf sh v).InRange x y m s := ⟨hx, hy, hm, hs⟩
  have hlt := (tensorOf sh v).offset_lt hin
  have he : (tensorOf sh v).elements = sh.samples * sh.maps * sh.width * sh.height := rfl
  rw [he] at hlt
  show ((List.range _).map v).getD _ 0 = _
  rw [List.getD_eq_getElem?_getD, List.getElem?_map, List.getElem?_range hlt, Tensor.offset_eq]
  rfl

/-- The value of an error layer is half the weighted squared difference. -/
theorem error_value (w : ℝ) (a c : Shape) (hc : c.samples = a.samples ∧ c.width = a.width ∧ c.height = a.height ∧
    0 < c.maps) (p : Vec) (x : Nat → Vec) :
    (errorSem w a c).loss p x = squaredError w a c (x 0) (x 1) (x 2) := by
  show (ErrorLayer.loss w (tensorOf a (x 0)) (tensorOf a (x 1)) (tensorOf c (x 2))).getD 0 = _
  rw [Props.error_loss w (tensorOf_wf _ _) (tensorOf_wf _ _) (tensorOf_wf _ _) (tensorOf_sh _ _ _) hc]
  show _ / 2 = squaredError w a c (x 0) (x 1) (x 2)
  unfold squaredError
  congr 1
  refine Finset.sum_congr rfl fun s hs => Finset.sum_congr rfl fun m hm => Finset.sum_congr rfl fun y hy =>
    Finset.sum_congr rfl fun z hz => ?_
  have hs' := Finset.mem_range.1 hs
  have hm' := Finset.mem_range.1 hm
  have hy' := Finset.mem_range.1 hy
  have hz' := Finset.mem_range.1 hz
  rw [tensorOf_val _ hz' hy' hm' hs', tensorOf_val _ hz' hy' hm' hs',
    tensorOf_val (sh := c) _ (by rw [hc.2.1]; exact hz') (by rw [hc.2.2.1]; exact hy') hc.2.2.2
      (by rw [hc.1]; exact hs')]
  rw [pow_two]

/-- Other layers have no loss. -/
theorem loss_zero (lowest : ℝ) {l : NetConfig.Layer ℝ} {ins outs : List Shape} (h : ¬ IsError l) (p : Vec)
    (x : Nat → Vec) : (layerSem lowest l ins outs).loss p x = 0 := by
  unfold layerSem
  split <;> first | rfl | exact absurd trivial h

/-- Labels and weights fit the predictions of all error layers. -/
def LabelsFit (nodes : List (NewNode ℝ)) (ds : List Shape) (known : List (List Shape)) : Prop :=
  ∀ n ∈ nodes, IsError n.layer → Comparable (n.inputs.map (shapeAt ds known))

theorem layersOf_succ (lowest : ℝ) (data : Nat → Vec) {k : Nat} {n : NewNode ℝ} (hn : nodes[k]? = some n) :
    layersOf lowest nodes ds known data (k + 1) =
      layerSem lowest n.layer (n.inputs.map (shapeAt ds known)) (known.getD k []) := by
  show (match nodes[k]? with
    | some n => layerSem lowest n.layer (n.inputs.map (shapeAt ds known)) (known.getD k [])
    | none => idle) = _
  rw [hn]

theorem losses_eq (hs : Sound ds nodes known) (hf : LabelsFit nodes ds known) (lowest : ℝ) (data : Nat → Vec)
    (θ : Nat → Vec) (y : Nat → Nat → Vec) :
    ∑ n ∈ (order nodes).toFinset, (layersOf lowest nodes ds known data n).loss (θ n) (inputData (graphOf nodes) y n) =
      networkError nodes ds known y := by
  have ho : (order nodes).toFinset = range (nodes.length + 1) := by
    ext k
    rw [List.mem_toFinset, mem_order, Finset.mem_range]
  rw [ho, Finset.sum_range_succ']
  have h0 : (layersOf lowest nodes ds known data 0).loss (θ 0) (inputData (graphOf nodes) y 0) = 0 := rfl
  rw [h0, add_zero]
  unfold networkError
  rw [sum_nodes]
  refine Finset.sum_congr rfl fun k hk => ?_
  have hk' := Finset.mem_range.1 hk
  have hn : nodes[k]? = some nodes[k] := List.getElem?_eq_getElem hk'
  generalize nodes[k] = n at hn
  rw [layersOf_succ lowest data hn, inputData_fed hs hn, hn]
  dsimp only
  have hmem := List.mem_of_getElem? hn
  obtain ⟨l, cs, o⟩ := n
  cases l with
  | error w =>
    have hc := hf _ hmem trivial
    rcases cs with _ | ⟨p, _ | ⟨q, _ | ⟨u, _ | ⟨v, t⟩⟩⟩⟩
    · exact hc.elim
    · exact hc.elim
    · exact hc.elim
    · obtain ⟨-, hw⟩ := hc
      exact error_value w _ _ hw _ _
    · exact hc.elim
  | _ => exact loss_zero lowest (by exact id) _ _

/-! ### The theorem -/

/-- Every layer that depends on the parameters is read by a connection that carries gradients. -/
def AllRead {D : Type _} (nodes : List (NewNode D)) : Prop :=
  ∀ k n, nodes[k]? = some n → Dependent nodes k → ¬ IsError n.layer → ∃ m ∈ nodes, ⟨k + 1, 0, true⟩ ∈ m.inputs

/-- Every layer that depends on the parameters can be differentiated at the current data. -/
def AllRegular (lowest : ℝ) (nodes : List (NewNode ℝ)) (ds : List Shape) (known : List (List Shape))
    (y : Nat → Nat → Vec) : Prop :=
  ∀ k n, nodes[k]? = some n → Dependent nodes k →
    Regular lowest n.layer (n.inputs.map (shapeAt ds known)) (known.getD k []) (n.inputs.any carries) (fed n y)

/-- C85: every description from which `AddLayers` makes a network whose sizes fit gives a network on which forward
and backward passes end.  If down-sampling comes before everything that carries gradients, no call of the backward
pass is fatal.  If furthermore every layer that depends on parameters is read and can be differentiated at the
current data and the labels fit, then the two passes leave for every parameter the partial derivative of the error of
the network, whatever the buffers held before. -/
theorem C85_gradient_partial (conv : Config.Str → ℝ) (zero one : ℝ) (f : Fields) (lines : List Config.Str)
    (classes : Nat) (loss : Bool) (st : State ℝ)
    (hadd : addLayers conv zero one f lines ⟨0, 0, true⟩ 1 classes loss = .done st) (ds : List Shape)
    (h4 : ds.length = 4) (known : List (List Shape)) (hsh : shapes 0 1 ds st.nodes [] = .done known) :
    ∃ g' N flog blog, (∀ fuel, 2 ≤ fuel → insertAll fuel (graphOf st.nodes) = some g') ∧
      (∀ fuel, N ≤ fuel → ∀ flags, ∃ v, feedForward g' fuel flags = some ⟨v, flog⟩) ∧
      (∀ fuel, N ≤ fuel → ∀ flags, ∃ v, backPropagate g' fuel flags = some ⟨v, blog⟩) ∧
      (DownFirst st.nodes → ∀ e ∈ blog, fatalCall st.nodes e = false) ∧
      ∀ (lowest : ℝ) (data : Nat → Vec) (θ : Nat → Vec),
        (∀ θ', ∃ y, Solves (graphOf st.nodes) (layersOf lowest st.nodes ds known data) θ' y) ∧
        ∀ (y : ℝ → Nat → Nat → Vec) (m i : Nat), i < countsOf st.nodes ds known m →
          (∀ s, Solves (graphOf st.nodes) (layersOf lowest st.nodes ds known data) (nudge θ m i s) (y s)) →
          DownFirst st.nodes → AllRead st.nodes → LabelsFit st.nodes ds known →
          AllRegular lowest st.nodes ds known (y 0) →
          ∀ (env : Nat → Nat → Vec) (st0 : Deltas),
            (∀ n ∈ order st.nodes, runLayers g' (layerForward (withAccumulation g' (order st.nodes)
              (layersOf lowest st.nodes ds known data)) θ) flog env n = y 0 n) ∧
            HasDerivAt (fun s => networkError st.nodes ds known (y s))
              ((runBack g' (withAccumulation g' (order st.nodes) (layersOf lowest st.nodes ds known data)) θ
                (runLayers g' (layerForward (withAccumulation g' (order st.nodes)
                  (layersOf lowest st.nodes ds known data)) θ) flog env) blog st0).grad m i) 0 := by
  classical
  have hb := addLayers_built hadd
  generalize st.nodes = nodes at hb hsh
  have hs := sound_of h4 hsh
  have hw := wired hs
  obtain ⟨g', N, flog, blog, r1, r2, r3, r4⟩ := C65_gradient_partial (netOf nodes) (order nodes) hw (acyclic hs)
  have hflags := call_flags hs r1 r3
  refine ⟨g', N, flog, blog, r1, r2, r3, ?_, ?_⟩
  · intro hdown e he
    obtain ⟨k, e⟩ := e
    unfold fatalCall
    cases k with
    | zero => rfl
    | succ k =>
      dsimp only
      cases hn : nodes[k]? with
      | none => rfl
      | some n =>
        dsimp only
        cases hl : n.layer with
        | downSample a b =>
          show e = false
          rw [Bool.eq_false_iff]
          intro hee
          obtain ⟨c, hc, hcar⟩ := (hflags.2 k n e hn he).1 hee
          rw [hdown n (List.mem_of_getElem? hn) (by rw [hl]; trivial) c hc] at hcar
          cases hcar
        | _ => rfl
  · intro lowest data θ
    refine ⟨fun θ' => (C65_data_exist (netOf nodes) (order nodes) hw (acyclic hs) _ θ').1, ?_⟩
    intro y m i hi hy hdown hread hfit hreg env st0
    have hm : m ∈ order nodes := by
      rw [mem_order]
      by_contra hlt
      cases m with
      | zero => exact hlt (by omega)
      | succ k =>
        have hnone : nodes[k]? = none := List.getElem?_eq_none (by omega)
        have : countsOf nodes ds known (k + 1) = 0 := by
          show (match nodes[k]? with
            | some n => paramCount n.layer (n.inputs.map (shapeAt ds known)) (known.getD k [])
            | none => 0) = 0
          rw [hnone]
        omega
    have h0 : nudge θ m i 0 = θ := by
      funext n' i'
      unfold nudge
      split <;> simp
    have hstatic : ∀ n' ∈ order nodes, countsOf nodes ds known n' = 0 → ∀ s, nudge θ m i s n' = nudge θ m i 0 n' := by
      intro n' _ hp s
      funext i'
      unfold nudge
      have : n' ≠ m := fun h => by rw [h] at hp; omega
      rw [if_neg (fun h => this h.1), if_neg (fun h => this h.1)]
    have hdep : ∀ {k : Nat} {n : NewNode ℝ}, nodes[k]? = some n →
        ¬ Fixed (graphOf nodes) (countsOf nodes ds known) (k + 1) → Dependent nodes k := by
      intro k n hn hfx
      by_contra hd
      exact hfx (fixed_of_not_dependent hs (k + 1) k (by omega) n hn hd)
    obtain ⟨key1, key2⟩ := r4 (layersOf lowest nodes ds known data) (countsOf nodes ds known) (sizesAt ds known)
      (by
        intro n hn c hc
        rcases node_cases hn with rfl | ⟨k, nd, rfl, hk⟩
        · have hc' : c ∈ ((graphOf nodes).heap 0).inputs := hc
          rw [inputs_zero hs] at hc'
          cases hc'
        · have hc' : c ∈ ((graphOf nodes).heap (k + 1)).inputs := hc
          rw [inputs_eq hs hk] at hc'
          obtain ⟨c', hm', rfl⟩ := List.mem_map.1 hc'
          rcases hs.conns hk c' hm' with ⟨e0, e1⟩ | ⟨j, mm, e, -, hj, hb'⟩
          · show c'.buffer < ((netOf nodes).heap c'.node).buffers
            rw [e0]
            exact e1
          · show c'.buffer < ((netOf nodes).heap c'.node).buffers
            rw [e, heap_succ hj]
            exact hb')
      (by
        intro n hn c hc hbp
        rcases node_cases hn with rfl | ⟨k, nd, rfl, hk⟩
        · have hc' : c ∈ ((graphOf nodes).heap 0).inputs := hc
          rw [inputs_zero hs] at hc'
          cases hc'
        · have hc' : c ∈ ((graphOf nodes).heap (k + 1)).inputs := hc
          rw [inputs_eq hs hk] at hc'
          obtain ⟨c', hm', rfl⟩ := List.mem_map.1 hc'
          exact fixed_of_stop (c := c') hs hb hdown hk hm' hbp)
      (nudge θ m i) (fun n' i' => if n' = m ∧ i' = i then 1 else 0)
      (by
        intro n' _ i' _
        unfold nudge
        by_cases h : n' = m ∧ i' = i
        · simp only [if_pos h]
          exact (hasDerivAt_id (0 : ℝ)).const_add _
        · simp only [if_neg h]
          exact hasDerivAt_const _ _)
      hstatic y hy
      (by
        intro n hn hfx
        rcases node_cases hn with rfl | ⟨k, nd, rfl, hk⟩
        · exact absurd (fixed_data hs) hfx
        · have hd := hdep hk hfx
          have hmem := List.mem_of_getElem? hk
          rw [h0, layersOf_succ lowest data hk]
          have e1 : inputData (addNodes (netOf nodes) (order nodes)) (y 0) (k + 1) = fed nd (y 0) :=
            inputData_fed hs hk _
          have e2 : inputShapes (addNodes (netOf nodes) (order nodes)) (sizesAt ds known) (k + 1) =
            nd.inputs.map fun c => (sizesAt ds known c.node c.buffer, carries c) := inputShapes_eq hs hk _
          have e3 : countsOf nodes ds known (k + 1) =
              paramCount nd.layer (nd.inputs.map (shapeAt ds known)) (known.getD k []) := by
            show (match nodes[k]? with
              | some n => paramCount n.layer (n.inputs.map (shapeAt ds known)) (known.getD k [])
              | none => 0) = _
            rw [hk]
          rw [e1, e2, e3, heap_succ hk]
          have := layer_exact lowest (hs.ins hk) (hb nd hmem).conv
            (flags := nd.inputs.map carries) (by rw [List.length_map, List.length_map]) (x := fed nd (y 0))
            (by
              have := hreg k nd hk hd
              rw [List.any_map]
              exact this)
            (by
              intro hdn
              refine hfx (fixed_of_hides hs hb hdown (k + 1) k (by omega) nd hk ?_)
              obtain ⟨l, cs, o⟩ := nd
              cases l <;> first | exact trivial | exact hdn.elim)
            (by
              intro he
              refine ⟨hfit nd hmem he, ?_⟩
              obtain ⟨l, cs, o⟩ := nd
              cases l with
              | error w =>
                obtain ⟨c, -, hc⟩ := (hb _ hmem).error w rfl
                exact ⟨carries c, by rw [show cs = _ from hc]; rfl⟩
              | _ => exact he.elim) (θ (k + 1))
          have hz : List.zipWith (fun (s : Shape) fl => (s.elements, fl)) (nd.inputs.map (shapeAt ds known))
              (nd.inputs.map carries) = nd.inputs.map fun c => (sizesAt ds known c.node c.buffer, carries c) := by
            rw [List.zipWith_map, List.zipWith_self]
            rfl
          rw [hz] at this
          refine exactAt_out this ?_
          intro b _
          show (shapeAt ds known ⟨k + 1, b, true⟩).elements = _
          unfold shapeAt
          rw [if_neg (by show ¬ (k + 1 = 0); omega)]
          rfl)
      env st0
    rw [h0] at key1 key2
    refine ⟨key1, ?_⟩
    have hgrad : ∀ G : Nat → Vec, ∑ n ∈ (order nodes).toFinset, pair (countsOf nodes ds known n) (G n)
        ((fun n' i' => if n' = m ∧ i' = i then (1 : ℝ) else 0) n) = G m i := by
      intro G
      rw [Finset.sum_eq_single m]
      · unfold pair
        rw [Finset.sum_eq_single i]
        · simp
        · intro b _ hb
          simp [hb]
        · intro h
          exact absurd (Finset.mem_range.2 hi) h
      · intro b _ hb
        unfold pair
        refine Finset.sum_eq_zero fun k _ => ?_
        simp [hb]
      · intro h
        exact absurd (List.mem_toFinset.2 hm) h
    rw [hgrad] at key2
    have hclosed : Closed (graphOf nodes) := (wired_inv hw).2.2.2
    -- what is read from deltas that are never written stays
    have htot : ∀ s, totalLoss (addNodes (netOf nodes) (order nodes)) (layersOf lowest nodes ds known data)
        (fun n => ((netOf nodes).heap n).buffers) (sizesAt ds known) st0.delta (nudge θ m i s) (y s) =
        networkError nodes ds known (y s) +
        ∑ n ∈ (order nodes).toFinset, ∑ b ∈ range ((netOf nodes).heap n).buffers,
          if Consumed (graphOf nodes) n b then 0 else pair (sizesAt ds known n b) (st0.delta n b) (y 0 n b) := by
      intro s
      unfold totalLoss
      have hn : (addNodes (netOf nodes) (order nodes)).nodes = order nodes := graph_nodes hs
      rw [hn]
      congr 1
      · exact losses_eq hs hfit lowest data _ _
      · refine Finset.sum_congr rfl fun n hn => Finset.sum_congr rfl fun b hb' => ?_
        by_cases hc : Consumed (graphOf nodes) n b
        · rw [if_pos hc]
          exact if_pos hc
        · rw [if_neg hc]
          refine (if_neg hc).trans ?_
          have hn' := List.mem_toFinset.1 hn
          have hfx : Fixed (graphOf nodes) (countsOf nodes ds known) n := by
            rcases node_cases hn' with rfl | ⟨k, nd, rfl, hk⟩
            · exact fixed_data hs
            · by_contra hfx
              have hd := hdep hk hfx
              have hbb := Finset.mem_range.1 hb'
              rw [heap_succ hk] at hbb
              have hne : ¬ IsError nd.layer := by
                intro he
                obtain ⟨l, cs, o⟩ := nd
                cases l with
                | error w => exact Nat.not_lt_zero _ hbb
                | _ => exact he.elim
              have hb0 : b = 0 := by
                have : (nodeOf nd).buffers ≤ 1 := by
                  unfold nodeOf
                  dsimp only
                  split <;> omega
                omega
              obtain ⟨q, hq, hqc⟩ := hread k nd hk hd hne
              obtain ⟨r, hr⟩ := List.mem_iff_getElem?.1 hq
              refine hc ⟨r + 1, by rw [graph_nodes hs]; exact succ_mem hr, ?_⟩
              rw [inputs_eq hs hr, hb0]
              exact List.mem_map.2 ⟨_, hqc, by simp [carries]⟩
          rw [fixed_constant hclosed (by rw [graph_nodes hs]; exact hstatic) hy s hfx
            (by rw [graph_nodes hs]; exact hn')]
    simp only [htot] at key2
    simpa only [add_sub_cancel_right] using key2.sub_const (∑ n ∈ (order nodes).toFinset,
      ∑ b ∈ range ((netOf nodes).heap n).buffers, if Consumed (graphOf nodes) n b then 0
        else pair (sizesAt ds known n b) (st0.delta n b) (y 0 n b))

/-- C85, refuted for down-sampling after a layer that carries gradients: the backward pass calls the down-sampling
layer with gradients enabled, which ends the program. -/
theorem C85_downsampling_fatal {D : Type _} (nodes : List (NewNode D)) (ds : List Shape) (h4 : ds.length = 4)
    (known : List (List Shape)) (hsh : shapes 0 1 ds nodes [] = .done known) (n : NewNode D) (hn : n ∈ nodes)
    (hl : IsDown n.layer) (c : Conn) (hc : c ∈ n.inputs) (hcar : carries c = true) :
    ∃ g' N blog, (∀ fuel, 2 ≤ fuel → insertAll fuel (graphOf nodes) = some g') ∧
      (∀ fuel, N ≤ fuel → ∀ flags, ∃ v, backPropagate g' fuel flags = some ⟨v, blog⟩) ∧
      ∃ e ∈ blog, fatalCall nodes e = true := by
  have hs := sound_of h4 hsh
  obtain ⟨g', N, flog, blog, r1, -, r3, -⟩ := C65_gradient_partial (netOf nodes) (order nodes) (wired hs) (acyclic hs)
  obtain ⟨ha, hb⟩ := call_flags hs r1 r3
  refine ⟨g', N, blog, r1, r3, ?_⟩
  obtain ⟨k, hk⟩ := List.mem_iff_getElem?.1 hn
  obtain ⟨e, he⟩ := ha k n hk
  refine ⟨_, he, ?_⟩
  have : e = true := (hb k n e hk he).2 ⟨c, hc, hcar⟩
  subst this
  unfold fatalCall
  dsimp only
  rw [hk]
  dsimp only
  unfold backFatal
  unfold IsDown at hl
  split at hl
  · rename_i h; rw [h]
  · exact hl.elim

end

end CN24.NetTrain
