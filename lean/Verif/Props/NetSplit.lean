import Verif.Proof.NetSplit
import Verif.Proof.TrainerSplit
import Verif.Proof.SplitData
import Verif.Props.Session
import Verif.Props.LossSampling
import Verif.Props.NetTrainChain
import Verif.Props.Trainer

/-
C92: training with a batch gives what training with its parts gives.
-/

namespace CN24.NetSplit
open CN24 CN24.NetConfig CN24.Net CN24.NetTrain
open CN24.LossSampling (gradient)

/-- C92: a network that accepts a batch of `q * r` pictures accepts its `q` parts of `r` pictures.  In every tensor, what
it computes for a part is the part of what it computes for the batch, and the error of the batch is the sum of the
errors of the parts. -/
theorem C92_values_partial (conv : Config.Str → ℝ) (zero one : ℝ) (f : Fields) (lines : List Config.Str)
    (classes : Nat) (loss : Bool) (st : NetConfig.State ℝ)
    (hadd : addLayers conv zero one f lines ⟨0, 0, true⟩ 1 classes loss = .done st) (ds : List Shape)
    (h4 : ds.length = 4) (known : List (List Shape)) (hsh : shapes 0 1 ds st.nodes [] = .done known)
    (q r : Nat) (hn : 0 < q * r) (hd : ∀ a ∈ ds, a.samples = q * r) (hf : AllFit st.nodes ds known) :
    shapes 0 1 (ds.map (resized r)) st.nodes [] = .done (known.map (List.map (resized r))) ∧
    ∀ (lowest : ℝ) (data : Nat → Vec) (parts : Nat → Nat → Vec) (θ : Nat → Vec), DataParts q r ds data parts →
      ∀ (y : Nat → Nat → Vec) (y' : Nat → Nat → Nat → Vec),
        Solves (graphOf st.nodes) (layersOf lowest st.nodes ds known data) θ y →
        (∀ j, j < q → Solves (graphOf st.nodes) (layersOf lowest st.nodes (ds.map (resized r))
          (known.map (List.map (resized r))) (parts j)) θ (y' j)) →
        (∀ j, j < q → ∀ k b s, Has ds known k b s → IsPart j (resized r s) (y k b) (y' j k b)) ∧
        (LabelsFit st.nodes ds known → networkError st.nodes ds known y = ∑ j ∈ Finset.range q,
          networkError st.nodes (ds.map (resized r)) (known.map (List.map (resized r))) (y' j)) := by
  have hb := addLayers_built hadd
  generalize st.nodes = nodes at *
  have hs := sound_of h4 hsh
  have hg : ∀ m ∈ nodes, ∀ p d q w, m.layer = .conv p d q w → 0 < p.group ∧ p.group ∣ p.outputMaps :=
    fun m hm => (hb m hm).conv
  obtain ⟨h1, h2⟩ := shapes_resized hn hd r nodes [] known hsh hf hg (by simp)
  refine ⟨h1, fun lowest data parts θ hp y y' hy hy' => ?_⟩
  have key : ∀ j, j < q → ∀ k b s, Has ds known k b s → IsPart j (resized r s) (y k b) (y' j k b) :=
    fun j hj => values_parts lowest hs hf hg hn hd h2 hj (hp j hj) hy (hy' j hj)
  exact ⟨key, fun hl => networkError_parts hs hl hd h2 key⟩

theorem nudge_zero (θ : Nat → Vec) (m i : Nat) : nudge θ m i 0 = θ := by
  funext n' i'
  unfold nudge
  split <;> simp

theorem counts_resized {ds : List Shape} {nodes : List (NewNode ℝ)} {known : List (List Shape)}
    (hs : Sound ds nodes known) (r m : Nat) :
    countsOf nodes (ds.map (resized r)) (known.map (List.map (resized r))) m = countsOf nodes ds known m := by
  cases m with
  | zero => rfl
  | succ k =>
    show (match nodes[k]? with
      | some n => paramCount n.layer (n.inputs.map (shapeAt (ds.map (resized r)) (known.map (List.map (resized r)))))
          ((known.map (List.map (resized r))).getD k [])
      | none => 0) = (match nodes[k]? with
      | some n => paramCount n.layer (n.inputs.map (shapeAt ds known)) (known.getD k [])
      | none => 0)
    cases hn : nodes[k]? with
    | none => rfl
    | some n =>
      dsimp only
      rw [shapeAt_resized hs hn, getD_resized]
      unfold paramCount
      generalize n.inputs.map (shapeAt ds known) = ins
      generalize known.getD k [] = outs
      cases n.layer with
      | conv p d t w =>
        rcases ins with _ | ⟨a, _ | ⟨b, t⟩⟩ <;> rcases outs with _ | ⟨o, _ | ⟨o2, t2⟩⟩ <;> rfl
      | _ => rfl

/-- C92: the gradient that the two passes leave for a batch is the sum of those they leave for its parts, whatever the
buffers held before. -/
theorem C92_gradient_partial (conv : Config.Str → ℝ) (zero one : ℝ) (f : Fields) (lines : List Config.Str)
    (classes : Nat) (loss : Bool) (st : NetConfig.State ℝ)
    (hadd : addLayers conv zero one f lines ⟨0, 0, true⟩ 1 classes loss = .done st) (ds : List Shape)
    (h4 : ds.length = 4) (known : List (List Shape)) (hsh : shapes 0 1 ds st.nodes [] = .done known)
    (q r : Nat) (hn : 0 < q * r) (hd : ∀ a ∈ ds, a.samples = q * r) (hf : AllFit st.nodes ds known)
    (hdown : DownFirst st.nodes) (hread : AllRead st.nodes) (hl : LabelsFit st.nodes ds known) :
    ∃ g' N flog blog, (∀ fuel, 2 ≤ fuel → insertAll fuel (graphOf st.nodes) = some g') ∧
      (∀ fuel, N ≤ fuel → ∀ flags, ∃ v, feedForward g' fuel flags = some ⟨v, flog⟩) ∧
      (∀ fuel, N ≤ fuel → ∀ flags, ∃ v, backPropagate g' fuel flags = some ⟨v, blog⟩) ∧
      ∀ (lowest : ℝ) (data : Nat → Vec) (parts : Nat → Nat → Vec) (θ : Nat → Vec), DataParts q r ds data parts →
        (∀ y, Solves (graphOf st.nodes) (layersOf lowest st.nodes ds known data) θ y →
          AllRegular lowest st.nodes ds known y) →
        ∀ (m i : Nat), i < countsOf st.nodes ds known m →
        ∀ (env : Nat → Nat → Vec) (before : Deltas) (env' : Nat → Nat → Nat → Vec) (before' : Nat → Deltas),
          gradient lowest st.nodes ds known g' flog blog data θ env before m i =
            ∑ j ∈ Finset.range q, gradient lowest st.nodes (ds.map (resized r)) (known.map (List.map (resized r))) g'
              flog blog (parts j) θ (env' j) (before' j) m i := by
  obtain ⟨hsh', hvalues⟩ := C92_values_partial conv zero one f lines classes loss st hadd ds h4 known hsh q r hn hd hf
  obtain ⟨g', N, flog, blog, r1, r2, r3, -, r4⟩ := C85_gradient_partial conv zero one f lines classes loss st hadd ds h4
    known hsh
  obtain ⟨g2, N2, flog2, blog2, t1, t2, t3, -, t4⟩ := C85_gradient_partial conv zero one f lines classes loss st hadd
    (ds.map (resized r)) (by rw [List.length_map]; exact h4) _ hsh'
  obtain rfl : g' = g2 := Option.some.inj ((r1 2 (le_refl _)).symm.trans (t1 2 (le_refl _)))
  obtain rfl : flog = flog2 := by
    obtain ⟨v, e⟩ := r2 (max N N2) (le_max_left _ _) (fun _ => false)
    obtain ⟨v', e'⟩ := t2 (max N N2) (le_max_right _ _) (fun _ => false)
    have := Option.some.inj (e.symm.trans e')
    simpa using congrArg (·.log) this
  obtain rfl : blog = blog2 := by
    obtain ⟨v, e⟩ := r3 (max N N2) (le_max_left _ _) (fun _ => false)
    obtain ⟨v', e'⟩ := t3 (max N N2) (le_max_right _ _) (fun _ => false)
    have := Option.some.inj (e.symm.trans e')
    simpa using congrArg (·.log) this
  refine ⟨g', N, flog, blog, r1, r2, r3, ?_⟩
  have hb := addLayers_built hadd
  generalize st.nodes = nodes at *
  have hs := sound_of h4 hsh
  have hg : ∀ m ∈ nodes, ∀ p d q w, m.layer = .conv p d q w → 0 < p.group ∧ p.group ∣ p.outputMaps :=
    fun m hm => (hb m hm).conv
  obtain ⟨-, hk⟩ := shapes_resized hn hd r nodes [] known hsh hf hg (by simp)
  intro lowest data parts θ hp hreg m i hi env before env' before'
  obtain ⟨e1, e2⟩ := r4 lowest data θ
  choose y hy using fun s => e1 (nudge θ m i s)
  choose y' hy' using fun j s => (t4 lowest (parts j) θ).1 (nudge θ m i s)
  have hreg0 : AllRegular lowest nodes ds known (y 0) := hreg _ (by have := hy 0; rwa [nudge_zero] at this)
  have hval := fun s => hvalues lowest data parts (nudge θ m i s) hp (y s) (fun j => y' j s) (hy s) (fun j _ => hy' j s)
  have hwhole := (e2 y m i hi hy hdown hread hl hreg0 env before).2
  have hpart : ∀ j ∈ Finset.range q, HasDerivAt (fun s => networkError nodes (ds.map (resized r))
      (known.map (List.map (resized r))) (y' j s))
      (gradient lowest nodes (ds.map (resized r)) (known.map (List.map (resized r))) g' flog blog (parts j) θ (env' j)
        (before' j) m i) 0 := by
    intro j hj
    have hj := Finset.mem_range.1 hj
    refine ((t4 lowest (parts j) θ).2 (y' j) m i (by rw [counts_resized hs]; exact hi) (hy' j) hdown hread ?_ ?_ (env' j)
      (before' j)).2
    · intro n hnm he
      obtain ⟨k, hk1, hk2⟩ := List.getElem_of_mem hnm
      have hn' : nodes[k]? = some n := by rw [List.getElem?_eq_getElem hk1, hk2]
      rw [shapeAt_resized hs hn']
      have := hl n hnm he
      generalize n.inputs.map (shapeAt ds known) = ins at this
      match ins, this with
      | [a, b, c], ⟨c1, _, c3, c4, c5⟩ => exact ⟨congrArg (resized r) c1, rfl, c3, c4, c5⟩
    · intro k n hn' hdep
      rw [shapeAt_resized hs hn', getD_resized]
      refine regular_parts (hs.ins hn') hj ?_ ?_ (hreg0 k n hn' hdep)
      · intro a ha
        obtain ⟨c, hc, rfl⟩ := List.mem_map.1 ha
        exact has_samples hd hk (conn_has hs hn' hc)
      · intro l a ha
        rw [List.getElem?_map] at ha
        obtain ⟨c, hc, rfl⟩ := Option.map_eq_some_iff.1 ha
        unfold fed
        rw [hc]
        exact (hval 0).1 j hj _ _ _ (conn_has hs hn' (List.mem_of_getElem? hc))
  have hsum := HasDerivAt.fun_sum hpart
  refine hwhole.unique ?_
  convert hsum using 1
  funext s
  exact (hval s).2 hl

/-- The weights of the trainer are the parameters of the network. -/
def ParamsFit (nodes : List (NewNode ℝ)) (ds : List Shape) (known : List (List Shape)) (ws : List (List (List ℝ))) : Prop :=
  ∀ m, (ws.getD m []).flatten.length = countsOf nodes ds known m

/-- The gradients that pass number `p` of the network gives the trainer. -/
noncomputable def netOf (lowest : ℝ) (nodes : List (NewNode ℝ)) (ds : List Shape) (known : List (List Shape)) (g' : Graph)
    (flog : List Nat) (blog : List (Nat × Bool)) (data : Nat → Nat → Vec) (env : Nat → Nat → Nat → Vec)
    (before : Nat → Deltas) (ws : List (List (List ℝ))) (p : Nat) : List (List (List ℝ)) :=
  gradsOf ws fun m i => gradient lowest nodes ds known g' flog blog (data p) (paramsOf ws) (env p) (before p) m i

/-- C92: which numbers the trainer and the network exchange.  Element `e` of parameter tensor `p` of node `l` stands in
the parameters of the network behind the tensors before it, and what the trainer accumulates for it is the gradient of
the network at that very place. -/
theorem C92_parameters (ws : List (List (List ℝ))) (l p e : Nat) (bufs : List (List ℝ)) (b : List ℝ) (w : ℝ)
    (h1 : ws[l]? = some bufs) (h2 : bufs[p]? = some b) (h3 : b[e]? = some w) :
    paramsOf ws l (((bufs.take p).map List.length).sum + e) = w ∧
      ∀ (lowest : ℝ) (nodes : List (NewNode ℝ)) (ds : List Shape) (known : List (List Shape)) (g' : Graph)
        (flog : List Nat) (blog : List (Nat × Bool)) (data : Nat → Nat → Vec) (env : Nat → Nat → Nat → Vec)
        (before : Nat → Deltas) (pass : Nat), ∃ gs g,
        (netOf lowest nodes ds known g' flog blog data env before ws pass)[l]? = some gs ∧ gs[p]? = some g ∧
          g[e]? = some (gradient lowest nodes ds known g' flog blog (data pass) (paramsOf ws) (env pass) (before pass) l
            (((bufs.take p).map List.length).sum + e)) := by
  have h : Trainer.at3 ws l p e = some w := by
    unfold Trainer.at3 Trainer.at2 rd
    rw [h1, Option.bind_some, h2, Option.bind_some, h3]
  obtain ⟨k1, k2⟩ := at3_place h
  have hl : ws.getD l [] = bufs := by rw [List.getD_eq_getElem?_getD, h1]; rfl
  rw [hl] at k1 k2
  refine ⟨by unfold paramsOf; rw [hl, List.getD_eq_getElem?_getD, k1]; rfl, ?_⟩
  intro lowest nodes ds known g' flog blog data env before pass
  have k := k2 fun m i => gradient lowest nodes ds known g' flog blog (data pass) (paramsOf ws) (env pass) (before pass) m i
  unfold Trainer.at3 Trainer.at2 rd at k
  obtain ⟨gs, e1, k⟩ := Option.bind_eq_some_iff.1 k
  obtain ⟨g, e2, k⟩ := Option.bind_eq_some_iff.1 k
  exact ⟨gs, g, e1, e2, k⟩

example (a b c d : ℝ) : paramsOf [[], [[a, b], [c, d]]] 1 3 = d :=
  (C92_parameters [[], [[a, b], [c, d]]] 1 1 1 _ _ d rfl rfl rfl).1

theorem lengths_flatten {a b : List (List ℝ)} (h : a.map List.length = b.map List.length) :
    a.flatten.length = b.flatten.length := by
  rw [List.length_flatten, List.length_flatten, h]

theorem paramsFit_sizes {nodes : List (NewNode ℝ)} {ds : List Shape} {known : List (List Shape)}
    {ws ws' : List (List (List ℝ))} (h : ParamsFit nodes ds known ws) (he : Trainer.sizes ws' = Trainer.sizes ws) :
    ParamsFit nodes ds known ws' := by
  intro m
  rw [← h m]
  refine lengths_flatten ?_
  rw [← Trainer.sizes_getD, ← Trainer.sizes_getD, he]

/-- C92: training with sequential batches of `q * r` pictures gives the same weights (and the same further state) as
training with `q` times as many sequential batches of `r` pictures, when the latter hold the parts of the former and
layers can be differentiated wherever training comes along.  `c` is the number of label pixels of a part. -/
theorem C92_training_partial (conv : Config.Str → ℝ) (zero one : ℝ) (f : Fields) (lines : List Config.Str)
    (classes : Nat) (loss : Bool) (st : NetConfig.State ℝ)
    (hadd : addLayers conv zero one f lines ⟨0, 0, true⟩ 1 classes loss = .done st) (ds : List Shape)
    (h4 : ds.length = 4) (known : List (List Shape)) (hsh : shapes 0 1 ds st.nodes [] = .done known)
    (q r : Nat) (hn : 0 < q * r) (hd : ∀ a ∈ ds, a.samples = q * r) (hf : AllFit st.nodes ds known)
    (hdown : DownFirst st.nodes) (hread : AllRead st.nodes) (hl : LabelsFit st.nodes ds known) :
    ∃ g' N flog blog, (∀ fuel, 2 ≤ fuel → insertAll fuel (graphOf st.nodes) = some g') ∧
      (∀ fuel, N ≤ fuel → ∀ flags, ∃ v, feedForward g' fuel flags = some ⟨v, flog⟩) ∧
      (∀ fuel, N ≤ fuel → ∀ flags, ∃ v, backPropagate g' fuel flags = some ⟨v, blog⟩) ∧
      ∀ (lowest : ℝ) (data parts : Nat → Nat → Vec), (∀ p, DataParts q r ds (data p) fun j => parts (p * q + j)) →
        ∀ (cfg : Trainer.Settings ℝ) (c : Nat), cfg.sampleCount = c * q → ∀ (lr : Nat → ℝ) (localLr : List ℝ)
          (env env' : Nat → Nat → Nat → Vec) (before before' : Nat → Deltas) (tr : Trainer.State ℝ),
        Trainer.Aligned localLr tr → ParamsFit st.nodes ds known tr.weights → ∀ n,
        (∀ i tr', i < n → Trainer.iterate cfg lr localLr
            (netOf lowest st.nodes ds known g' flog blog data env before) i tr = some tr' →
          ∀ b, b < cfg.sbatchsize → ∀ y, Solves (graphOf st.nodes)
            (layersOf lowest st.nodes ds known (data (i * cfg.sbatchsize + b))) (paramsOf tr'.weights) y →
            AllRegular lowest st.nodes ds known y) →
        ∃ tr', Trainer.iterate cfg lr localLr (netOf lowest st.nodes ds known g' flog blog data env before) n tr = some tr' ∧
          Trainer.iterate { cfg with sampleCount := c, sbatchsize := cfg.sbatchsize * q } lr localLr
            (netOf lowest st.nodes (ds.map (resized r)) (known.map (List.map (resized r))) g' flog blog parts env' before')
            n tr = some tr' := by
  obtain ⟨g', N, flog, blog, r1, r2, r3, r4⟩ := C92_gradient_partial conv zero one f lines classes loss st hadd ds h4 known
    hsh q r hn hd hf hdown hread hl
  refine ⟨g', N, flog, blog, r1, r2, r3, ?_⟩
  intro lowest data parts hp cfg c hc lr localLr env env' before before' tr hfit hparams n hreg
  obtain ⟨tr', h1, h2, -, -⟩ := Trainer.iterate_resplit cfg (c := c) (s := cfg.sbatchsize * q)
    (by rw [hc]; ring) lr localLr (netOf lowest st.nodes ds known g' flog blog data env before)
    (netOf lowest st.nodes (ds.map (resized r)) (known.map (List.map (resized r))) g' flog blog parts env' before')
    (fun ws k => sizes_gradsOf ws _) (fun ws k => sizes_gradsOf ws _) tr hfit n (by
      intro i tr1 hi he hsz cell hcell
      rw [sum_split (fun b => (Trainer.at3 (netOf lowest st.nodes (ds.map (resized r)) (known.map (List.map (resized r))) g'
        flog blog parts env' before' tr1.weights (i * (cfg.sbatchsize * q) + b)) cell.node cell.param cell.elem).getD 0)]
      refine Finset.sum_congr rfl fun b hb => ?_
      have hb := Finset.mem_range.1 hb
      obtain ⟨w, hw⟩ := Option.isSome_iff_exists.1 (Trainer.mem_cells_at3 hcell)
      obtain ⟨e, e1, e2⟩ := at3_gradsOf hw
      rw [paramsFit_sizes hparams hsz] at e1
      unfold netOf
      rw [e2, Option.getD_some, r4 lowest (data (i * cfg.sbatchsize + b)) (fun j => parts ((i * cfg.sbatchsize + b) * q + j))
        (paramsOf tr1.weights) (hp _) (hreg i tr1 hi he b hb) cell.node e e1 _ _
        (fun j => env' ((i * cfg.sbatchsize + b) * q + j)) (fun j => before' ((i * cfg.sbatchsize + b) * q + j))]
      refine Finset.sum_congr rfl fun j _ => ?_
      rw [e2, Option.getD_some, show i * (cfg.sbatchsize * q) + (b * q + j) = (i * cfg.sbatchsize + b) * q + j by ring])
  exact ⟨tr', h1, h2⟩

/-- C92: the loss that is reported for an iteration is the same too. -/
theorem C92_reported_loss_partial (conv : Config.Str → ℝ) (zero one : ℝ) (f : Fields) (lines : List Config.Str)
    (classes : Nat) (loss : Bool) (st : NetConfig.State ℝ)
    (hadd : addLayers conv zero one f lines ⟨0, 0, true⟩ 1 classes loss = .done st) (ds : List Shape)
    (h4 : ds.length = 4) (known : List (List Shape)) (hsh : shapes 0 1 ds st.nodes [] = .done known)
    (q r : Nat) (hn : 0 < q * r) (hd : ∀ a ∈ ds, a.samples = q * r) (hf : AllFit st.nodes ds known)
    (hl : LabelsFit st.nodes ds known) (lowest : ℝ) (data parts : Nat → Nat → Vec)
    (hp : ∀ p, DataParts q r ds (data p) fun j => parts (p * q + j)) (cfg : Trainer.Settings ℝ) (c : Nat)
    (hc : cfg.sampleCount = c * q) (θ : Nat → Vec) (y y' : Nat → Nat → Nat → Vec)
    (hy : ∀ p, p < cfg.sbatchsize → Solves (graphOf st.nodes) (layersOf lowest st.nodes ds known (data p)) θ (y p))
    (hy' : ∀ p, p < cfg.sbatchsize * q → Solves (graphOf st.nodes) (layersOf lowest st.nodes (ds.map (resized r))
      (known.map (List.map (resized r))) (parts p)) θ (y' p)) :
    Trainer.reportedLoss cfg (∑ p ∈ Finset.range cfg.sbatchsize, networkError st.nodes ds known (y p)) =
      Trainer.reportedLoss { cfg with sampleCount := c, sbatchsize := cfg.sbatchsize * q }
        (∑ p ∈ Finset.range (cfg.sbatchsize * q), networkError st.nodes (ds.map (resized r))
          (known.map (List.map (resized r))) (y' p)) := by
  obtain ⟨-, key⟩ := C92_values_partial conv zero one f lines classes loss st hadd ds h4 known hsh q r hn hd hf
  have hlt : ∀ p j, p < cfg.sbatchsize → j < q → p * q + j < cfg.sbatchsize * q := fun p j hp hj => by
    calc p * q + j < p * q + q := by omega
      _ = (p + 1) * q := by ring
      _ ≤ _ := Nat.mul_le_mul_right _ hp
  have e : ∑ p ∈ Finset.range cfg.sbatchsize, networkError st.nodes ds known (y p) =
      ∑ p ∈ Finset.range (cfg.sbatchsize * q), networkError st.nodes (ds.map (resized r))
          (known.map (List.map (resized r))) (y' p) := by
    rw [sum_split]
    refine Finset.sum_congr rfl fun p h => ?_
    have h := Finset.mem_range.1 h
    exact (key lowest (data p) (fun j => parts (p * q + j)) θ (hp p) (y p) (fun j => y' (p * q + j)) (hy p h)
      fun j hj => hy' _ (hlt p j h hj)).2 hl
  unfold Trainer.reportedLoss
  rw [e]
  dsimp only
  rw [hc]
  congr 1
  push_cast
  ring

theorem shape_eq {t u : Tensor ℝ} (h : Tensor.Sh t u) : t.shape = u.shape := by
  obtain ⟨h1, h2, h3, h4⟩ := h
  unfold Tensor.shape
  rw [h1, h2, h3, h4]

end CN24.NetSplit

namespace CN24.Props
open CN24 CN24.Tensor CN24.Sampling CN24.SplitData

variable {R : Type _} [Field R] [LinearOrder R]

/-- What a position holds after the samples of a tensor stream dataset were written there. -/
theorem holds_at {ef : Nat → Nat → Nat → Nat → R} {ds : TensorStreamDataset.Dataset R} {image label : Tensor R}
    {b b' s s' : Nat} {o₁ o₂ r₁ r₂ : Outputs R} (f1 : OutputsFit ds b r₁) (f2 : OutputsFit ds b' r₂) (hs : s' < b')
    (h1 : Holds ef ds image label s o₁ r₁) (h2 : Holds ef ds image label s' o₂ r₂) : AtO s s' r₁ r₂ := by
  have mv : ∀ {t u a c : Tensor R} {x y m : Nat}, Sh a t → Sh c u → a.width = c.width → a.height = c.height →
      a.maps = c.maps → c.samples = b' → t.InRange x y m s → u.InRange x y m s' := by
    rintro t u a c x y m ⟨_, a2, a3, a4⟩ ⟨c1, c2, c3, c4⟩ e1 e2 e3 e4 ⟨i1, i2, i3, _⟩
    exact ⟨by omega, by omega, by omega, by omega⟩
  refine ⟨?_, ?_, ?_, ?_⟩
  · intro x y m hin
    have k := mv f1.data.1 f2.data.1 rfl rfl rfl rfl hin
    rw [h1.data x y m s hin, h2.data x y m s' k, if_pos rfl, if_pos rfl]
  · intro x y m hin
    have k := mv f1.label.1 f2.label.1 rfl rfl rfl rfl hin
    rw [h1.label x y m s hin, h2.label x y m s' k, if_pos rfl, if_pos rfl]
  · intro x y m hin
    have k := mv f1.helper.1 f2.helper.1 rfl rfl rfl rfl hin
    rw [h1.prior x y m s hin, h2.prior x y m s' k, if_pos rfl, if_pos rfl]
  · intro x y m hin
    have k := mv f1.error.1 f2.error.1 rfl rfl rfl rfl hin
    have hm0 : m = 0 := by
      have a := hin.2.2.1
      have b := f1.error.1.2.2.2
      dsimp only at b
      omega
    subst hm0
    by_cases hp : x < image.width ∧ y < image.height
    · obtain ⟨k, cw, best, a0, a1, a2, a3, a4⟩ := h1.inside x y hp.1 hp.2
      obtain ⟨k', cw', best', b0, b1, b2, b3, b4⟩ := h2.inside x y hp.1 hp.2
      have hk : k = k' := by
        rcases lt_trichotomy k k' with hlt | heq | hlt
        · exact absurd ((b3 k best a0 a2).2 hlt) (not_lt.2 (a3 k' best' b0 b2).1)
        · exact heq
        · exact absurd ((a3 k' best' b0 b2).2 hlt) (not_lt.2 (b3 k best a0 a2).1)
      subst hk
      rw [a1] at b1
      cases b1
      rw [a4, b4]
    · rw [h1.padding x y hin hp, h2.padding x y k hp]

/-- The other positions are kept. -/
theorem holds_keep {ef : Nat → Nat → Nat → Nat → R} {ds : TensorStreamDataset.Dataset R} {image label : Tensor R}
    {b s : Nat} {o r : Outputs R} (f : OutputsFit ds b r) (h : Holds ef ds image label s o r) :
    ∀ k, k ≠ s → AtO k k r o := by
  intro k hk
  refine ⟨?_, ?_, ?_, ?_⟩
  · intro x y m hin
    rw [h.data x y m k hin, if_neg hk]
  · intro x y m hin
    rw [h.label x y m k hin, if_neg hk]
  · intro x y m hin
    rw [h.prior x y m k hin, if_neg hk]
  · intro x y m hin
    have hm0 : m = 0 := by
      have a := hin.2.2.1
      have b := f.error.1.2.2.2
      dsimp only at b
      omega
    subst hm0
    exact h.others x y k hin hk

/-- A tensor stream dataset writes the same into every position, whatever the size of the batch (see C30). -/
theorem C92_splits (lowest : R) (ef : Nat → Nat → Nat → Nat → R) (ds : TensorStreamDataset.Dataset R) (q r : Nat)
    (htrain : ∀ i, i < ds.training.length / 2 → ∃ image label, ds.training[2 * i]? = some image ∧
      ds.training[2 * i + 1]? = some label ∧ PairFits ds lowest image label)
    (htest : ∀ i, i < ds.testing.length / 2 → ∃ image label, ds.testing[2 * i]? = some image ∧
      ds.testing[2 * i + 1]? = some label ∧ PairFits ds lowest image label) :
    Splits (ofTensorStream lowest ef ds) (q * r) r (OutputsFit ds (q * r)) (OutputsFit ds r) where
  goodL := C27_tensor_stream lowest ef ds (q * r) htrain htest
  goodR := C27_tensor_stream lowest ef ds r htrain htest
  shapeL := fun o₁ o₂ h1 h2 => ⟨(Tensor.Sh.symm h1.data.1).trans h2.data.1, (Tensor.Sh.symm h1.label.1).trans h2.label.1,
    (Tensor.Sh.symm h1.helper.1).trans h2.helper.1, (Tensor.Sh.symm h1.error.1).trans h2.error.1⟩
  size := by
    intro o₁ o₂ h1 h2
    have key : ∀ {a c t u : Tensor R}, Sh a t → Sh c u → a.width = c.width → a.height = c.height → a.maps = c.maps →
        c.samples = r → LikeT r t u := by
      rintro a c t u ⟨_, a2, a3, a4⟩ ⟨c1, c2, c3, c4⟩ e1 e2 e3 e4
      exact ⟨by omega, by omega, by omega, by omega⟩
    exact ⟨key h1.data.1 h2.data.1 rfl rfl rfl rfl, key h1.label.1 h2.label.1 rfl rfl rfl rfl,
      key h1.helper.1 h2.helper.1 rfl rfl rfl rfl, key h1.error.1 h2.error.1 rfl rfl rfl rfl⟩
  keepL := by
    intro o s i x h1 hs hi e
    obtain ⟨image, label, k1, k2, k3⟩ := htrain i hi
    obtain ⟨a, a1, a2, a3⟩ := C30_training_sample lowest ef ds (q * r) o h1 s i hs image label k1 k2 k3
    have q1 : (ofTensorStream lowest ef ds).getTraining o s i = some (true, a) := a1
    rw [q1] at e
    cases e
    exact holds_keep a2 a3
  keepR := by
    intro o s i x h1 hs hi e
    obtain ⟨image, label, k1, k2, k3⟩ := htrain i hi
    obtain ⟨a, a1, a2, a3⟩ := C30_training_sample lowest ef ds r o h1 s i hs image label k1 k2 k3
    have q1 : (ofTensorStream lowest ef ds).getTraining o s i = some (true, a) := a1
    rw [q1] at e
    cases e
    exact holds_keep a2 a3
  same := by
    intro o₁ o₂ s s' i r₁ r₂ h1 h2 hs hs' hi e1 e2
    obtain ⟨image, label, k1, k2, k3⟩ := htrain i hi
    obtain ⟨a, a1, a2, a3⟩ := C30_training_sample lowest ef ds (q * r) o₁ h1 s i hs image label k1 k2 k3
    obtain ⟨b, b1, b2, b3⟩ := C30_training_sample lowest ef ds r o₂ h2 s' i hs' image label k1 k2 k3
    have q1 : (ofTensorStream lowest ef ds).getTraining o₁ s i = some (true, a) := a1
    have q2 : (ofTensorStream lowest ef ds).getTraining o₂ s' i = some (true, b) := b1
    rw [q1] at e1
    rw [q2] at e2
    cases e1
    cases e2
    exact holds_at a2 b2 hs' a3 b3

end CN24.Props

namespace CN24.NetSplit
open CN24 CN24.NetConfig CN24.Net CN24.NetTrain
open CN24.LossSampling (gradient)

/-! ### The batches of an input layer -/

theorem isPart_tensors {q r j : Nat} (hj : j < q) {t u : Tensor ℝ} (ht : t.WF) (hu : u.WF) (hts : t.samples = q * r)
    (hl : SplitData.LikeT r t u) (h : ∀ s, s < r → SplitData.AtT (j * r + s) s t u) :
    IsPart j (resized r t.shape) (vecOf t) (vecOf u) := by
  obtain ⟨l1, l2, l3, l4⟩ := hl
  refine (part_tensors (w := t.width) (h := t.height) (m := t.maps) hj ⟨hts, rfl, rfl, rfl, ht⟩
    ⟨l4, l1.symm, l2.symm, l3.symm, hu⟩).2 ?_
  intro s hs x y c hx hy hc
  have hlt : j * r + s < q * r := by
    calc j * r + s < (j + 1) * r := by rw [Nat.succ_mul]; omega
      _ ≤ q * r := Nat.mul_le_mul_right _ hj
  have e := h s hs x y c ⟨hx, hy, hc, by omega⟩
  unfold Tensor.get rd at e
  unfold Tensor.val
  rw [List.getD_eq_getElem?_getD, List.getD_eq_getElem?_getD, e]

/-- C92: two input layers with the same tensor stream dataset, the same seed and the same probability of dropping blocks,
one with batches of `q * r` pictures, the other with batches of `r`: batch number `p` of the former consists of the
batches `p * q` to `p * q + q - 1` of the latter, in images, labels, helper images and weights of all pixels. -/
theorem C92_batches {G : Type _} (rnd : Sampling.Random ℝ G) (hrnd : Props.Shuffles rnd) (drop lowest : ℝ)
    (ef : Nat → Nat → Nat → Nat → ℝ) (ds : TensorStreamDataset.Dataset ℝ) (q r : Nat)
    (htrain : ∀ i, i < ds.training.length / 2 → ∃ image label, ds.training[2 * i]? = some image ∧
      ds.training[2 * i + 1]? = some label ∧ Props.PairFits ds lowest image label)
    (htest : ∀ i, i < ds.testing.length / 2 → ∃ image label, ds.testing[2 * i]? = some image ∧
      ds.testing[2 * i + 1]? = some label ∧ Props.PairFits ds lowest image label)
    (hpos : 0 < ds.training.length / 2) (seed : G) (outs outs' : Outputs ℝ) (hf : Props.OutputsFit ds (q * r) outs)
    (hf' : Props.OutputsFit ds r outs') :
    ∃ T U : Nat → Sampling.State ℝ G,
      T 0 = Sampling.construct rnd (Props.ofTensorStream lowest ef ds) seed outs ∧
      U 0 = Sampling.construct rnd (Props.ofTensorStream lowest ef ds) seed outs' ∧
      (∀ p, Sampling.feedForward rnd drop (Props.ofTensorStream lowest ef ds) (q * r) (T p) = .done (T (p + 1))) ∧
      (0 < q → ∀ k, Sampling.feedForward rnd drop (Props.ofTensorStream lowest ef ds) r (U k) = .done (U (k + 1))) ∧
      ∀ p, DataParts q r (LossSampling.shapesOf outs) (LossSampling.dataOf (T (p + 1)).outs)
        fun j => LossSampling.dataOf (U (p * q + j + 1)).outs := by
  have hs := Props.C92_splits lowest ef ds q r htrain htest
  have hp : SplitData.Pair (Props.ofTensorStream lowest ef ds) (Props.OutputsFit ds (q * r)) (Props.OutputsFit ds r)
      (Sampling.construct rnd (Props.ofTensorStream lowest ef ds) seed outs)
      (Sampling.construct rnd (Props.ofTensorStream lowest ef ds) seed outs') := by
    refine ⟨rfl, rfl, rfl, hf, hf', ?_, ?_, rfl, rfl⟩
    · intro e he
      exact List.mem_range.1 ((hrnd seed _).mem_iff.1 he)
    · show 0 < (rnd.shuffle seed (List.range (ds.training.length / 2))).1.length
      rw [(hrnd seed _).length_eq, List.length_range]
      exact hpos
  have key := SplitData.batches_split (p := drop) hrnd hs hp
  refine ⟨SplitData.nexts rnd drop (Props.ofTensorStream lowest ef ds) (q * r)
      (Sampling.construct rnd (Props.ofTensorStream lowest ef ds) seed outs),
    SplitData.nexts rnd drop (Props.ofTensorStream lowest ef ds) r
      (Sampling.construct rnd (Props.ofTensorStream lowest ef ds) seed outs'), rfl, rfl, fun p => (key p).2.1, ?_, ?_⟩
  · intro hq k
    have := ((key (k / q)).2.2 (k % q) (Nat.mod_lt _ hq)).1
    rwa [show k / q * q + k % q = k by rw [Nat.mul_comm]; exact Nat.div_add_mod k q] at this
  · intro p j hj b s hb
    have h1 := (key (p + 1)).1.fitL
    have hsh := hs.shapeL _ _ hf h1
    have h2 : Props.OutputsFit ds r (SplitData.nexts rnd drop (Props.ofTensorStream lowest ef ds) r
        (Sampling.construct rnd (Props.ofTensorStream lowest ef ds) seed outs') (p * q + j + 1)).outs := by
      obtain ⟨t', -, a, -⟩ := SplitData.parts_split (p := drop) hrnd hs (key p).1 (j + 1) hj
      rw [← SplitData.nexts_add] at a
      exact a.fitR
    have hat := ((key p).2.2 j hj).2
    have hlike := hs.size _ _ h1 h2
    match b with
    | 0 =>
      cases hb
      rw [show outs.data.shape = _ from shape_eq hsh.data]
      exact isPart_tensors hj h1.data.2 h2.data.2 h1.data.1.1.symm hlike.data fun i hi => (hat i hi).data
    | 1 =>
      cases hb
      rw [show outs.label.shape = _ from shape_eq hsh.label]
      exact isPart_tensors hj h1.label.2 h2.label.2 h1.label.1.1.symm hlike.label fun i hi => (hat i hi).label
    | 2 =>
      cases hb
      rw [show outs.helper.shape = _ from shape_eq hsh.helper]
      exact isPart_tensors hj h1.helper.2 h2.helper.2 h1.helper.1.1.symm hlike.helper fun i hi => (hat i hi).helper
    | 3 =>
      cases hb
      rw [show outs.error.shape = _ from shape_eq hsh.error]
      exact isPart_tensors hj h1.error.2 h2.error.2 h1.error.1.1.symm hlike.error fun i hi => (hat i hi).error
    | b + 4 => cases hb

/-- C92: training a described network from a tensor stream dataset with batches of `q * r` pictures, and with batches of
`r` pictures and `q` times as many of them before each update, from the same seed and the same parameters, gives the
same parameters after any number of updates. -/
theorem C92_sessions_partial (conv : Config.Str → ℝ) (zero one : ℝ) (f : Fields) (lines : List Config.Str)
    (classes : Nat) (loss : Bool) (st : NetConfig.State ℝ)
    (hadd : addLayers conv zero one f lines ⟨0, 0, true⟩ 1 classes loss = .done st) {G : Type _}
    (rnd : Sampling.Random ℝ G) (hrnd : Props.Shuffles rnd) (drop low : ℝ) (ef : Nat → Nat → Nat → Nat → ℝ)
    (ds : TensorStreamDataset.Dataset ℝ) (q r : Nat) (hn : 0 < q * r)
    (htrain : ∀ i, i < ds.training.length / 2 → ∃ image label, ds.training[2 * i]? = some image ∧
      ds.training[2 * i + 1]? = some label ∧ Props.PairFits ds low image label)
    (htest : ∀ i, i < ds.testing.length / 2 → ∃ image label, ds.testing[2 * i]? = some image ∧
      ds.testing[2 * i + 1]? = some label ∧ Props.PairFits ds low image label)
    (hpos : 0 < ds.training.length / 2) (seed : G) (outs outs' : Outputs ℝ) (hfit : Props.OutputsFit ds (q * r) outs)
    (hfit' : Props.OutputsFit ds r outs') (known : List (List Shape))
    (hsh : shapes 0 1 (LossSampling.shapesOf outs) st.nodes [] = .done known)
    (hf : AllFit st.nodes (LossSampling.shapesOf outs) known) (hdown : DownFirst st.nodes) (hread : AllRead st.nodes)
    (hl : LabelsFit st.nodes (LossSampling.shapesOf outs) known) :
    ∃ g' N flog blog, (∀ fuel, 2 ≤ fuel → insertAll fuel (graphOf st.nodes) = some g') ∧
      (∀ fuel, N ≤ fuel → ∀ flags, ∃ v, feedForward g' fuel flags = some ⟨v, flog⟩) ∧
      (∀ fuel, N ≤ fuel → ∀ flags, ∃ v, backPropagate g' fuel flags = some ⟨v, blog⟩) ∧
      ∃ T U : Nat → Sampling.State ℝ G,
        T 0 = Sampling.construct rnd (Props.ofTensorStream low ef ds) seed outs ∧
        U 0 = Sampling.construct rnd (Props.ofTensorStream low ef ds) seed outs' ∧
        (∀ p, Sampling.feedForward rnd drop (Props.ofTensorStream low ef ds) (q * r) (T p) = .done (T (p + 1))) ∧
        (∀ k, Sampling.feedForward rnd drop (Props.ofTensorStream low ef ds) r (U k) = .done (U (k + 1))) ∧
        ∀ (lowest : ℝ) (cfg : Trainer.Settings ℝ), cfg.sampleCount = q * r * (ds.maxWidth * ds.maxHeight) →
          ∀ (lr : Nat → ℝ) (localLr : List ℝ) (env env' : Nat → Nat → Nat → Vec) (before before' : Nat → Deltas)
            (tr : Trainer.State ℝ), Trainer.Aligned localLr tr →
          ParamsFit st.nodes (LossSampling.shapesOf outs) known tr.weights → ∀ n,
          (∀ i tr', i < n → Trainer.iterate cfg lr localLr (netOf lowest st.nodes (LossSampling.shapesOf outs) known g'
              flog blog (fun p => LossSampling.dataOf (T (p + 1)).outs) env before) i tr = some tr' →
            ∀ b, b < cfg.sbatchsize → ∀ y, Solves (graphOf st.nodes) (layersOf lowest st.nodes
                (LossSampling.shapesOf outs) known (LossSampling.dataOf (T (i * cfg.sbatchsize + b + 1)).outs))
                (paramsOf tr'.weights) y →
              AllRegular lowest st.nodes (LossSampling.shapesOf outs) known y) →
          ∃ tr', Trainer.iterate cfg lr localLr (netOf lowest st.nodes (LossSampling.shapesOf outs) known g' flog blog
              (fun p => LossSampling.dataOf (T (p + 1)).outs) env before) n tr = some tr' ∧
            Trainer.iterate { cfg with sampleCount := r * (ds.maxWidth * ds.maxHeight), sbatchsize := cfg.sbatchsize * q }
              lr localLr (netOf lowest st.nodes ((LossSampling.shapesOf outs).map (resized r))
                (known.map (List.map (resized r))) g' flog blog (fun k => LossSampling.dataOf (U (k + 1)).outs) env' before')
              n tr = some tr' := by
  have hd : ∀ a ∈ LossSampling.shapesOf outs, a.samples = q * r := by
    intro a ha
    simp only [LossSampling.shapesOf, List.mem_cons, List.not_mem_nil, or_false] at ha
    rcases ha with rfl | rfl | rfl | rfl
    · exact hfit.data.1.1.symm
    · exact hfit.label.1.1.symm
    · exact hfit.helper.1.1.symm
    · exact hfit.error.1.1.symm
  obtain ⟨g', N, flog, blog, a1, a2, a3, a4⟩ := C92_training_partial conv zero one f lines classes loss st hadd
    (LossSampling.shapesOf outs) rfl known hsh q r hn hd hf hdown hread hl
  obtain ⟨T, U, b1, b2, b3, b4, b5⟩ := C92_batches rnd hrnd drop low ef ds q r htrain htest hpos seed outs outs' hfit hfit'
  refine ⟨g', N, flog, blog, a1, a2, a3, T, U, b1, b2, b3, b4 (Nat.pos_of_mul_pos_right hn), ?_⟩
  intro lowest cfg hc lr localLr env env' before before' tr hfitT hparams n hreg
  exact a4 lowest (fun p => LossSampling.dataOf (T (p + 1)).outs) (fun k => LossSampling.dataOf (U (k + 1)).outs) b5 cfg
    (r * (ds.maxWidth * ds.maxHeight)) (by rw [hc]; ring) lr localLr env env' before before' tr hfitT hparams n hreg

/-! ### Non-vacuity -/

/-- Every batch has parts. -/
theorem parts_exist (q r : Nat) (ds : List Shape) (data : Nat → Vec) : ∃ parts, DataParts q r ds data parts := by
  refine ⟨fun j b i => data b (j * (resized r (ds.getD b ⟨0, 0, 0, 0⟩)).elements + i), ?_⟩
  intro j _ b s hb i _
  dsimp only
  rw [List.getD_eq_getElem?_getD, hb]
  rfl

/-- Weights for the network of two convolutions in Props/NetTrainChain.lean. -/
noncomputable def trainWeights (a b c d : ℝ) : List (List (List ℝ)) :=
  [[], [List.replicate 54 a, List.replicate 2 b], [], [List.replicate 2 c, List.replicate 1 d], [], []]

/-- Training that network with four patches at a time, or with twice as many sequential batches of two patches, gives
the same weights, with both methods, all rates and any number of iterations. -/
example (conv : Config.Str → ℝ) (f : Fields) (hf : f.method = .patch) (data : Nat → Nat → Vec) (a b c d : ℝ) (env env' : Nat → Nat → Nat → Vec)
    (before before' : Nat → Deltas)
    (cfg : Trainer.Settings ℝ) (hc : cfg.sampleCount = 2 * 2) (lr : Nat → ℝ) (l0 l1 l2 l3 l4 l5 : ℝ) (n : Nat) :
    ∃ st known g' flog blog parts, addLayers conv 0 1 f (linesOf (Props.descriptionText trainItems)) ⟨0, 0, true⟩ 1 1 true = .done st ∧
      shapes 0 1 trainShapes st.nodes [] = .done known ∧
      (∀ p, DataParts 2 2 trainShapes (data p) fun j => parts (p * 2 + j)) ∧
      ∃ tr', Trainer.iterate cfg lr [l0, l1, l2, l3, l4, l5]
          (netOf 0 st.nodes trainShapes known g' flog blog data env before) n
          (Trainer.construct (trainWeights a b c d)) = some tr' ∧
        Trainer.iterate { cfg with sampleCount := 2, sbatchsize := cfg.sbatchsize * 2 } lr [l0, l1, l2, l3, l4, l5]
          (netOf 0 st.nodes (trainShapes.map (resized 2)) (known.map (List.map (resized 2))) g' flog blog parts
            env' before') n (Trainer.construct (trainWeights a b c d)) = some tr' := by
  obtain ⟨st, h1, h2⟩ := trainNodes_layers conv f hf
  obtain ⟨st', g1, known, g2, g3, g4, g5, -, -, -⟩ := trainItems_meet conv f hf 0 (fun _ _ _ => 0)
  rw [h1] at g1
  cases g1
  have hk : known = [[⟨4, 1, 1, 2⟩], [⟨4, 1, 1, 2⟩], [⟨4, 1, 1, 1⟩], [⟨4, 1, 1, 1⟩], []] := by
    have := g2
    rw [h2, trainNodes_shapes] at this
    cases this
    rfl
  choose parts hparts using fun p => parts_exist 2 2 trainShapes (data p)
  have hreg : ∀ y, AllRegular 0 st.nodes trainShapes known y := by
    intro y
    obtain ⟨st'', e1, known', e2, -, -, -, e3, -, -⟩ := trainItems_meet conv f hf 0 y
    rw [h1] at e1
    cases e1
    rw [g2] at e2
    cases e2
    exact e3
  obtain ⟨g', N, flog, blog, -, -, -, key⟩ := C92_training_partial conv 0 1 f _ 1 true st h1 trainShapes rfl known g2 2 2
    (by decide) (by decide) (by
      rw [h2, hk]
      intro n hn
      simp only [trainNodes, List.mem_cons, List.not_mem_nil, or_false] at hn
      rcases hn with rfl | rfl | rfl | rfl | rfl
      · rfl
      · trivial
      · rfl
      · trivial
      · trivial) g3 g4 g5
  refine ⟨st, known, g', flog, blog, fun p => parts (p / 2) (p % 2), h1, g2, ?_, ?_⟩
  · intro p j hj
    have e1 : (p * 2 + j) / 2 = p := by omega
    have e2 : (p * 2 + j) % 2 = j := by omega
    dsimp only
    rw [e1, e2]
    exact hparts p j hj
  · refine key 0 data _ ?_ cfg 2 hc lr _ _ _ _ _ _ ?_ ?_ n fun i tr' _ _ b _ y _ => hreg y
    · intro p j hj
      have e1 : (p * 2 + j) / 2 = p := by omega
      have e2 : (p * 2 + j) % 2 = j := by omega
      dsimp only
      rw [e1, e2]
      exact hparts p j hj
    · exact (Props.C25_construct_fits (trainWeights a b c d) [l0, l1, l2, l3, l4, l5] rfl).1
    · rw [h2, hk]
      intro m
      match m with
      | 0 => rfl
      | 1 => rfl
      | 2 => rfl
      | 3 => rfl
      | 4 => rfl
      | 5 => rfl
      | m + 6 => rfl

end CN24.NetSplit
