import Verif.Props.NetConfig

/-
C56, continued: the layers that are created and their connections.
-/

namespace CN24.Props
open CN24 CN24.Config CN24.Net CN24.NetConfig
variable {D : Type _}

/-- The layers a description names, in its order: the `draw`-th convolution uses the `draw`-th random
number. -/
def describedLayers (zero one : D) : Nat → List Item → List (Layer D)
  | _, [] => []
  | draw, .conv n k s p :: is =>
    .conv { outputMaps := n, kernelWidth := k.1, kernelHeight := k.2,
            strideWidth := (s.getD (1, 1)).1, strideHeight := (s.getD (1, 1)).2,
            padWidth := (p.getD (0, 0)).1, padHeight := (p.getD (0, 0)).2, group := 1 } draw zero one ::
      describedLayers zero one (draw + 1) is
  | draw, .full n :: is =>
    .conv { outputMaps := n, kernelWidth := 1, kernelHeight := 1, strideWidth := 1, strideHeight := 1,
            padWidth := 0, padHeight := 0, group := 1 } draw zero one :: describedLayers zero one (draw + 1) is
  | draw, .maxPool k :: is => .maxPool k.1 k.2 :: describedLayers zero one draw is
  | draw, .down k :: is => .downSample k.1 k.2 :: describedLayers zero one draw is
  | draw, .stridedPool k s :: is =>
    .advMaxPool k.1 k.2 (s.getD k).1 (s.getD k).2 :: describedLayers zero one draw is
  | draw, .act .sigm :: is => .sigmoid :: describedLayers zero one draw is
  | draw, .act .relu :: is => .relu :: describedLayers zero one draw is
  | draw, .act .tanh :: is => .tanh :: describedLayers zero one draw is
  | draw, .comment _ :: is => describedLayers zero one draw is
  | draw, .other _ :: is => describedLayers zero one draw is
  | draw, .patches :: is => describedLayers zero one draw is

/-- Whether the gradient is wanted behind a layer: not for the enlarged or reduced input image. -/
def wantsGradient : Layer D → Bool
  | .resize .. => false
  | .downSample .. => false
  | _ => true

/-- The connection from the layer before the `k`-th. -/
def before (base : Nat) (data : Conn) (ls : List (Layer D)) (k : Nat) : Conn :=
  match k with
  | 0 => data
  | k + 1 => match ls[k]? with
    | none => data
    | some l => ⟨base + k, 0, wantsGradient l⟩

/-- The layers of the net but the loss: the border, the described layers, the activation of the output,
and what restores the size of the image. -/
def netLayers (zero one : D) (f : Fields) (classes : Nat) (items : List Item) : List (Layer D) :=
  (if f.method = .fcn ∧ 0 < f.rfx ∧ 0 < f.rfy then [.resize f.rfx.toNat f.rfy.toNat] else []) ++
  describedLayers zero one 0 items ++ [if classes = 1 then .tanh else .sigmoid] ++
  (if f.method = .fcn ∧ ¬ (f.factorx = 1 ∧ f.factory = 1) then
    [.upscale (toUInt f.factorx) (toUInt f.factory)] else [])

/-- A state that consists of a chain of layers. -/
structure Chain (base : Nat) (data : Conn) (ls : List (Layer D)) (st : State D) : Prop where
  base_eq : st.base = base
  count : st.nodes.length = ls.length
  last_eq : st.last = before base data ls ls.length
  node : ∀ (k : Nat) (l : Layer D), ls[k]? = some l → st.nodes[k]? = some ⟨l, [before base data ls k], false⟩

theorem before_append {base : Nat} {data : Conn} {ls ms : List (Layer D)} {k : Nat} (h : k ≤ ls.length) :
    before base data (ls ++ ms) k = before base data ls k := by
  cases k with
  | zero => rfl
  | succ k =>
    show (match (ls ++ ms)[k]? with | none => data | some l => _) = (match ls[k]? with | none => data | some l => _)
    rw [List.getElem?_append_left (by omega)]

theorem Chain.add {base : Nat} {data : Conn} {ls : List (Layer D)} {st : State D} (h : Chain base data ls st)
    (l : Layer D) (draws : Nat) (up : Bool) :
    Chain base data (ls ++ [l])
      { st.add ⟨l, [st.last], false⟩ (wantsGradient l) with draws := draws, upscaled := up } where
  base_eq := h.base_eq
  count := by simp [State.add, h.count]
  last_eq := by
    unfold before
    simp [State.add, h.base_eq, h.count]
  node := fun k m hk => by
    simp only [State.add]
    rcases Nat.lt_or_ge k ls.length with hlt | hge
    · rw [List.getElem?_append_left hlt] at hk
      rw [List.getElem?_append_left (by rw [h.count]; exact hlt), before_append (Nat.le_of_lt hlt)]
      exact h.node k m hk
    · have hke : k = ls.length := by
        have := (List.getElem?_eq_some_iff.1 hk).1
        simp only [List.length_append, List.length_singleton] at this
        omega
      subst hke
      rw [List.getElem?_append_right (by omega)] at hk
      rw [List.getElem?_append_right (by rw [h.count]), before_append (Nat.le_refl _), h.last_eq]
      simp only [Nat.sub_self, List.getElem?_cons_zero, Option.some.injEq] at hk
      simp [h.count, hk]

theorem Chain.steps {base : Nat} {data : Conn} (zero one : D) : ∀ (items : List Item) (ls : List (Layer D))
    (st : State D), Chain base data ls st →
    Chain base data (ls ++ describedLayers zero one st.draws items) (items.foldl (State.step zero one) st)
  | [], ls, st, h => by simpa [describedLayers] using h
  | i :: is, ls, st, h => by
    rw [List.foldl_cons]
    have skip : State.step zero one st i = st →
        describedLayers zero one st.draws (i :: is) = describedLayers zero one st.draws is →
        Chain base data (ls ++ describedLayers zero one st.draws (i :: is))
          (is.foldl (State.step zero one) (State.step zero one st i)) := by
      intro e e'
      rw [e, e']
      exact Chain.steps zero one is ls st h
    have one' : ∀ (l : Layer D) (d : Nat), State.step zero one st i =
          { st.add ⟨l, [st.last], false⟩ (wantsGradient l) with draws := d, upscaled := st.upscaled } →
        describedLayers zero one st.draws (i :: is) = l :: describedLayers zero one d is →
        Chain base data (ls ++ describedLayers zero one st.draws (i :: is))
          (is.foldl (State.step zero one) (State.step zero one st i)) := by
      intro l d e e'
      rw [e, e', List.append_cons]
      exact Chain.steps zero one is (ls ++ [l]) _ (h.add l d st.upscaled)
    cases i with
    | comment t => exact skip rfl rfl
    | other t => exact skip rfl rfl
    | patches => exact skip rfl rfl
    | conv n k s p => exact one' _ (st.draws + 1) rfl rfl
    | full n => exact one' _ (st.draws + 1) rfl rfl
    | maxPool k => exact one' _ st.draws rfl rfl
    | down k => exact one' _ st.draws rfl rfl
    | stridedPool k s => exact one' _ st.draws rfl rfl
    | act a => cases a <;> exact one' _ st.draws rfl rfl

/-- C56: every description of a chain is turned into exactly the layers it names, in its order and with
its parameters, each fed by the one before it and the first by the data; only the last one is the output;
the loss compares it with the labels and weights of the data layer. -/
theorem C56_layers (conv : Str → D) (zero one : D) (items : List Item) (f : Fields) (data : Conn)
    (base classes : Nat) (loss : Bool) (hok : ∀ i ∈ items, i.Ok) (hnl : ∀ i ∈ items, '\n' ∉ i.text) :
    ∃ st, addLayers conv zero one f (linesOf (descriptionText items)) data base classes loss = .done st ∧
      st.nodes.length = (netLayers zero one f classes items).length + (if loss then 1 else 0) ∧
      (∀ (k : Nat) (l : Layer D), (netLayers zero one f classes items)[k]? = some l →
        st.nodes[k]? = some ⟨l, [before base data (netLayers zero one f classes items) k],
          decide (k + 1 = (netLayers zero one f classes items).length)⟩) ∧
      (loss = true → st.nodes[(netLayers zero one f classes items).length]? = some
        ⟨.error one, [⟨base + (netLayers zero one f classes items).length - 1, 0, true⟩,
          { data with buffer := 1 }, { data with buffer := 3 }], false⟩) := by
  rw [descriptionLines hnl]
  unfold addLayers
  rw [addLines_items conv zero one f data classes loss _ items hok, addLines, addLine_output, Outcome.bind_done]
  generalize hbl : (if f.method = .fcn ∧ 0 < f.rfx ∧ 0 < f.rfy then
    [(.resize f.rfx.toNat f.rfy.toNat : Layer D)] else []) = border
  have hstart : Chain base data border (start f data base : State D) ∧
      (start f data base : State D).upscaled = (decide (f.factorx = 1) && decide (f.factory = 1)) ∧
      (start f data base : State D).draws = 0 := by
    subst hbl
    unfold start
    have h0 : Chain base data [] ({ base := base, last := data, upscaled := decide (f.factorx = 1) && decide (f.factory = 1) } : State D) :=
      ⟨rfl, rfl, rfl, fun k l e => by simp at e⟩
    split
    · exact ⟨h0.add (.resize f.rfx.toNat f.rfy.toNat) 0 _, rfl, rfl⟩
    · exact ⟨h0, rfl, rfl⟩
  obtain ⟨hc, hu, hd⟩ := hstart
  have hc1 := Chain.steps zero one items border _ hc
  rw [hd] at hc1
  have hu1 := (steps_fields zero one items (start f data base)).1.trans hu
  generalize hst : items.foldl (State.step zero one) (start f data base) = st at hc1 hu1
  generalize hms : border ++ describedLayers zero one 0 items = ms at hc1
  have hact : ((outputAct classes).layer : Layer D) = if classes = 1 then .tanh else .sigmoid := by
    unfold outputAct
    split <;> rfl
  have hwant : wantsGradient ((outputAct classes).layer : Layer D) = true := by
    rw [hact]
    split <;> rfl
  -- the chain with its output
  have key : ∃ st' : State D, scaleOutput f true
        (st.add ⟨(outputAct classes).layer, [st.last], decide (f.method = .patch) || st.upscaled⟩) = st' ∧
      st'.nodes.length = (netLayers zero one f classes items).length ∧
      st'.last.node = base + (netLayers zero one f classes items).length - 1 ∧
      ∀ (k : Nat) (l : Layer D), (netLayers zero one f classes items)[k]? = some l →
        st'.nodes[k]? = some ⟨l, [before base data (netLayers zero one f classes items) k],
          decide (k + 1 = (netLayers zero one f classes items).length)⟩ := by
    refine ⟨_, rfl, ?_⟩
    unfold scaleOutput netLayers
    rw [hbl, hms, ← hact]
    have hupd : (st.add ⟨(outputAct classes).layer, [st.last],
        decide (f.method = .patch) || st.upscaled⟩).upscaled = st.upscaled := rfl
    rw [hupd]
    have hnode : ∀ (o : Bool) (k : Nat) (l : Layer D), (ms ++ [(outputAct classes).layer])[k]? = some l →
        (st.add ⟨(outputAct classes).layer, [st.last], o⟩).nodes[k]? =
          some ⟨l, [before base data (ms ++ [(outputAct classes).layer]) k],
            decide (k = ms.length) && o⟩ := by
      intro o k l hk
      simp only [State.add]
      rcases Nat.lt_or_ge k ms.length with hlt | hge
      · rw [List.getElem?_append_left hlt] at hk
        rw [List.getElem?_append_left (by rw [hc1.count]; exact hlt), before_append (Nat.le_of_lt hlt),
          hc1.node k l hk]
        simp [Nat.ne_of_lt hlt]
      · have hke : k = ms.length := by
          have := (List.getElem?_eq_some_iff.1 hk).1
          simp only [List.length_append, List.length_singleton] at this
          omega
        subst hke
        rw [List.getElem?_append_right (by omega)] at hk
        rw [List.getElem?_append_right (by rw [hc1.count]), before_append (Nat.le_refl _), hc1.last_eq]
        simp only [Nat.sub_self, List.getElem?_cons_zero, Option.some.injEq] at hk
        simp [hc1.count, hk]
    by_cases hup : f.method = .fcn ∧ ¬ (f.factorx = 1 ∧ f.factory = 1)
    · have hnu : st.upscaled = false := by
        rw [hu1]
        by_cases e : f.factorx = 1
        · have : f.factory ≠ 1 := fun e' => hup.2 ⟨e, e'⟩
          simp [this]
        · simp [e]
      have hne : f.factorx ≠ 1 ∨ f.factory ≠ 1 := by
        by_cases e : f.factorx = 1
        · exact Or.inr fun e' => hup.2 ⟨e, e'⟩
        · exact Or.inl e
      rw [if_pos ⟨rfl, by rw [hnu]; rfl, hup.1, hne⟩, if_pos hup]
      have ho : (decide (f.method = .patch) || st.upscaled) = false := by
        rw [hnu, hup.1]; rfl
      rw [ho]
      refine ⟨by simp [State.add, hc1.count], ?_, ?_⟩
      · simp [State.add, hc1.count, hc1.base_eq]
      · intro k l hk
        rcases Nat.lt_or_ge k (ms.length + 1) with hlt | hge
        · rw [List.getElem?_append_left (by simp; omega)] at hk
          have := hnode false k l hk
          rw [before_append (by simp; omega)]
          have hl : (st.add ⟨(outputAct classes).layer, [st.last], false⟩).nodes.length = ms.length + 1 := by
            simp [State.add, hc1.count]
          show ((st.add ⟨(outputAct classes).layer, [st.last], false⟩).nodes ++ _)[k]? = _
          rw [List.getElem?_append_left (by omega), this]
          have : ¬ k + 1 = (ms ++ [((outputAct classes).layer : Layer D)] ++
              [Layer.upscale (toUInt f.factorx) (toUInt f.factory)]).length := by simp; omega
          rw [decide_eq_false this, Bool.and_false]
        · have hke : k = ms.length + 1 := by
            have := (List.getElem?_eq_some_iff.1 hk).1
            simp only [List.length_append, List.length_singleton] at this
            omega
          subst hke
          rw [List.getElem?_append_right (by simp)] at hk
          simp only [List.length_append, List.length_singleton, Nat.sub_self, List.getElem?_cons_zero,
            Option.some.injEq] at hk
          have hl : (st.add ⟨(outputAct classes).layer, [st.last], false⟩).nodes.length = ms.length + 1 := by
            simp [State.add, hc1.count]
          show ((st.add ⟨(outputAct classes).layer, [st.last], false⟩).nodes ++ _)[ms.length + 1]? = _
          rw [List.getElem?_append_right (by omega), hl, Nat.sub_self, List.getElem?_cons_zero]
          have hlast : (st.add ⟨(outputAct classes).layer, [st.last], false⟩).last = before base data
              (ms ++ [(outputAct classes).layer] ++ [Layer.upscale (toUInt f.factorx) (toUInt f.factory)])
              (ms.length + 1) := by
            unfold before
            simp [State.add, hc1.count, hc1.base_eq, hwant]
          rw [hlast, ← hk]
          simp [upscaleBy]
    · have hcond : ¬ (true = true ∧ (!st.upscaled) = true ∧ f.method = .fcn ∧ (f.factorx ≠ 1 ∨ f.factory ≠ 1)) := by
        rintro ⟨_, _, h1, h2⟩
        exact hup ⟨h1, fun e => h2.elim (fun h => h e.1) (fun h => h e.2)⟩
      rw [if_neg hcond, if_neg hup]
      have ho : (decide (f.method = .patch) || st.upscaled) = true := by
        cases hm : f.method with
        | patch => rfl
        | fcn =>
          have : f.factorx = 1 ∧ f.factory = 1 := by
            by_cases e : f.factorx = 1 ∧ f.factory = 1
            · exact e
            · exact absurd ⟨hm, e⟩ hup
          rw [hu1, this.1, this.2]
          rfl
      rw [ho]
      refine ⟨by simp [State.add, hc1.count], by simp [State.add, hc1.count, hc1.base_eq], ?_⟩
      intro k l hk
      rw [List.append_nil] at hk ⊢
      rw [hnode true k l hk]
      simp
  obtain ⟨st', k1, k2, k3, k4⟩ := key
  rw [k1]
  have hpos : 0 < (netLayers zero one f classes items).length := by
    unfold netLayers
    simp
  cases loss with
  | false =>
    refine ⟨st', by simp [addLines, addLoss], by simp [k2], k4, fun e => by cases e⟩
  | true =>
    refine ⟨_, by simp only [addLines]; rfl, ?_, ?_, ?_⟩
    · simp [addLoss, k2]
    · intro k l hk
      have hlt := (List.getElem?_eq_some_iff.1 hk).1
      simp only [addLoss, and_self, if_true]
      rw [List.getElem?_append_left (by omega)]
      exact k4 k l hk
    · intro _
      simp only [addLoss, and_self, if_true]
      rw [List.getElem?_append_right (by omega), k2, Nat.sub_self, List.getElem?_cons_zero, k3]

/-- Non-vacuity: three layers and what belongs to them. -/
example : netLayers (D := Nat) 0 1 ⟨.fcn, 4, 4, 2, 2, false⟩ 1
    [.conv 8 (5, 5) none none, .comment "x".toList, .maxPool (2, 2), .act .relu] =
    [.resize 4 4, .conv ⟨8, 5, 5, 1, 1, 0, 0, 1⟩ 0 0 1, .maxPool 2 2, .relu, .tanh, .upscale 2 2] := by
  decide +kernel

end CN24.Props
