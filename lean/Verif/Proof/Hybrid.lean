import Verif.Model.Hybrid
import Verif.Proof.NetConfig
import Verif.Proof.Config
import Mathlib.Tactic.Tauto

/-
The shapes of the parameters depend on the numbers of maps only, and these do not depend on the method.
-/

namespace CN24.Hybrid
open CN24 CN24.Config CN24.Net CN24.NetConfig
variable {D : Type _}

/-- Number of maps at a connection. -/
def look (data base : Nat) (dm ms : List Nat) (c : Conn) : Nat :=
  if c.node = data then dm.getD c.buffer 0 else ms.getD (c.node - base) 0

/-- Maps of the output of a layer. -/
def nodeMaps (l : Layer D) (ins : List Nat) : Nat :=
  match l with
  | .conv p _ _ _ => p.outputMaps
  | .concat => ins.sum
  | _ => ins.headD 0

/-- Parameters of a layer from the maps of its inputs. -/
def nodeParams (l : Layer D) (ins : List Nat) : List Shape :=
  match l with
  | .conv p _ _ _ => [⟨p.outputMaps, p.kernelWidth, p.kernelHeight, ins.headD 0 / p.group⟩, ⟨1, p.outputMaps, 1, 1⟩]
  | .hmax .. => [⟨1, 2, 1, 1⟩]
  | _ => []

/-- Maps of all nodes. -/
def maps (data base : Nat) (dm : List Nat) : List (NewNode D) → List Nat → List Nat
  | [], k => k
  | n :: ns, k => maps data base dm ns (k ++ [nodeMaps n.layer (n.inputs.map (look data base dm k))])

/-- Parameters of all nodes. -/
def params (data base : Nat) (dm : List Nat) : List (NewNode D) → List Nat → List (Param D)
  | [], _ => []
  | n :: ns, k => (nodeParams n.layer (n.inputs.map (look data base dm k))).map (⟨n.layer, ·⟩) ++
      params data base dm ns (k ++ [nodeMaps n.layer (n.inputs.map (look data base dm k))])

theorem maps_append (data base : Nat) (dm : List Nat) (ns : List (NewNode D)) (n : NewNode D) (k : List Nat) :
    maps data base dm (ns ++ [n]) k = maps data base dm ns k ++
      [nodeMaps n.layer (n.inputs.map (look data base dm (maps data base dm ns k)))] := by
  induction ns generalizing k with
  | nil => rfl
  | cons m ns ih => simp only [List.cons_append, maps, ih]

theorem params_append (data base : Nat) (dm : List Nat) (ns : List (NewNode D)) (n : NewNode D) (k : List Nat) :
    params data base dm (ns ++ [n]) k = params data base dm ns k ++
      (nodeParams n.layer (n.inputs.map (look data base dm (maps data base dm ns k)))).map (⟨n.layer, ·⟩) := by
  induction ns generalizing k with
  | nil => simp [params, maps]
  | cons m ns ih => simp only [List.cons_append, params, maps, ih, List.append_assoc]

theorem maps_length (data base : Nat) (dm : List Nat) (ns : List (NewNode D)) (k : List Nat) :
    (maps data base dm ns k).length = k.length + ns.length := by
  induction ns generalizing k with
  | nil => rfl
  | cons m ns ih => rw [maps, ih]; simp; omega

/-! ### Shapes -/

/-- The maps of the known shapes. -/
def Known (known : List (List Shape)) (ms : List Nat) : Prop :=
  known.length = ms.length ∧ ∀ i o s, known[i]? = some o → s ∈ o → s.maps = ms.getD i 0

theorem source_maps {data base : Nat} {ds : List Shape} {known : List (List Shape)} {ms : List Nat} {c : Conn}
    {a : Shape} (hk : Known known ms) (h : source data base ds known c = .done a) :
    a.maps = look data base (ds.map (·.maps)) ms c := by
  unfold source at h
  unfold look
  split at h
  · rename_i hc
    rw [if_pos hc]
    rw [Outcome.ofOption_eq_done] at h
    simp [List.getD_eq_getElem?_getD, h]
  · rename_i hc
    rw [if_neg hc]
    split at h
    · rw [Outcome.ofOption_eq_done, Option.bind_eq_some_iff] at h
      obtain ⟨o, h1, h2⟩ := h
      exact hk.2 _ _ _ h1 (List.mem_of_getElem? h2)
    · exact absurd h (by simp)

theorem sources_maps {data base : Nat} {ds : List Shape} {known : List (List Shape)} {ms : List Nat} (hk : Known known ms)
    (cs : List Conn) {as : List Shape} (h : sources data base ds known cs = .done as) :
    as.map (·.maps) = cs.map (look data base (ds.map (·.maps)) ms) := by
  induction cs generalizing as with
  | nil => rw [sources] at h; rw [← Outcome.done.inj h]; rfl
  | cons c cs ih =>
    rw [sources] at h
    obtain ⟨a, h1, h⟩ := bind_eq_done h
    obtain ⟨as', h2, h⟩ := bind_eq_done h
    rw [← Outcome.done.inj h, List.map_cons, List.map_cons, ih h2, source_maps hk h1]

theorem outputs_maps {l : Layer D} {ins outs : List Shape} (h : l.outputs ins = .done outs) :
    (∀ s ∈ outs, s.maps = nodeMaps l (ins.map (·.maps))) ∧
    layerParameters l ins = nodeParams l (ins.map (·.maps)) := by
  have one : ∀ {o : Shape}, Outcome.done [o] = Outcome.done outs → ∀ s ∈ outs, s = o := by
    intro o h s hs
    rw [← Outcome.done.inj h] at hs
    exact List.mem_singleton.mp hs
  unfold Layer.outputs at h
  split at h
  · exact ⟨fun s hs => by rw [one h s hs]; rfl, rfl⟩
  · refine ⟨fun s hs => ?_, rfl⟩
    obtain ⟨r, _, h⟩ := bind_eq_done h
    cases r with
    | none => exact absurd h (by simp)
    | some r => rw [one h s hs]; rfl
  · refine ⟨fun s hs => ?_, rfl⟩
    obtain ⟨r, _, h⟩ := bind_eq_done h
    cases r with
    | none => exact absurd h (by simp)
    | some r => rw [one h s hs]; rfl
  · refine ⟨fun s hs => ?_, rfl⟩
    obtain ⟨r, _, h⟩ := bind_eq_done h
    cases r with
    | none => exact absurd h (by simp)
    | some r => rw [one h s hs]; rfl
  · refine ⟨fun s hs => ?_, rfl⟩
    obtain ⟨r, _, h⟩ := bind_eq_done h
    cases r with
    | none => exact absurd h (by simp)
    | some r =>
      dsimp only at h
      split at h
      · exact absurd h (by simp)
      · rw [one h s hs]; rfl
  · exact ⟨fun s hs => by rw [one h s hs]; rfl, rfl⟩
  · exact ⟨fun s hs => by rw [one h s hs]; rfl, rfl⟩
  · exact ⟨fun s hs => by rw [one h s hs]; rfl, rfl⟩
  · exact ⟨fun s hs => by rw [one h s hs]; rfl, rfl⟩
  · exact ⟨fun s hs => by rw [one h s hs]; rfl, rfl⟩
  · exact ⟨fun s hs => by rw [one h s hs]; rfl, rfl⟩
  · refine ⟨fun s hs => ?_, rfl⟩
    split at h
    · exact absurd h (by simp)
    · rename_i ho
      split at h
      · rw [one h s hs]
        unfold Layers.concatCreate at ho
        split at ho
        · exact absurd ho (by simp)
        · rw [← Option.some.inj ho]; simp [nodeMaps]
      · exact absurd h (by simp)
  · refine ⟨fun s hs => ?_, rfl⟩
    split at h
    · exact absurd h (by simp)
    · rename_i ho
      obtain ⟨ok, _, h⟩ := bind_eq_done h
      split at h
      · rw [one h s hs]
        unfold Layers.sumCreate at ho
        split at ho
        · exact absurd ho (by simp)
        · split at ho
          · exact absurd ho (by simp)
          · rw [← Option.some.inj ho]; simp [nodeMaps]
      · exact absurd h (by simp)
  · split at h
    · rw [← Outcome.done.inj h]
      exact ⟨fun s hs => absurd hs (by simp), rfl⟩
    · exact absurd h (by simp)
  · exact absurd h (by simp)

theorem parameters_eq {data base : Nat} {ds : List Shape} (ns : List (NewNode D)) {known : List (List Shape)}
    {ms : List Nat} (hk : Known known ms) {ps : List (Param D)} (h : parameters data base ds ns known = .done ps) :
    ps = params data base (ds.map (·.maps)) ns ms := by
  induction ns generalizing known ms ps with
  | nil => rw [parameters] at h; exact (Outcome.done.inj h).symm
  | cons n ns ih =>
    rw [parameters] at h
    obtain ⟨ins, h1, h⟩ := bind_eq_done h
    obtain ⟨outs, h2, h⟩ := bind_eq_done h
    obtain ⟨qs, h3, h⟩ := bind_eq_done h
    obtain ⟨a1, a2⟩ := outputs_maps h2
    rw [sources_maps hk _ h1] at a1 a2
    rw [← Outcome.done.inj h, params, a2]
    congr 1
    refine ih ⟨?_, ?_⟩ h3
    · simp [hk.1]
    · intro i o s hi hs
      rcases Nat.lt_or_ge i known.length with h' | h'
      · rw [List.getElem?_append_left h'] at hi
        rw [hk.2 i o s hi hs, List.getD_eq_getElem?_getD, List.getD_eq_getElem?_getD,
          List.getElem?_append_left (by rw [← hk.1]; exact h')]
      · rw [List.getElem?_append_right h'] at hi
        have hz : i - known.length = 0 := by
          rcases Nat.eq_zero_or_pos (i - known.length) with h0 | h0
          · exact h0
          · rw [List.getElem?_eq_none (by simp; omega)] at hi; exact absurd hi (by simp)
        rw [hz] at hi
        simp only [List.getElem?_cons_zero, Option.some.injEq] at hi
        subst hi
        have hi' : i = ms.length := by rw [← hk.1]; omega
        rw [a1 s hs, hi', List.getD_eq_getElem?_getD, List.getElem?_append_right (Nat.le_refl _)]
        simp

/-! ### States -/

/-- A connection to an existing node. -/
def Valid (data base n : Nat) (c : Conn) : Prop := c.node = data ∨ (base ≤ c.node ∧ c.node < base + n)

theorem look_grow {data base : Nat} {dm ms : List Nat} {c : Conn} (x : List Nat) (h : Valid data base ms.length c) :
    look data base dm (ms ++ x) c = look data base dm ms c := by
  unfold look
  split
  · rfl
  · rename_i hc
    rcases h with h | h
    · exact absurd h hc
    · rw [List.getD_eq_getElem?_getD, List.getD_eq_getElem?_getD, List.getElem?_append_left (by omega)]

theorem look_new {data base : Nat} {dm ms : List Nat} (hd : data < base) (x b : Nat) (bp : Bool) :
    look data base dm (ms ++ [x]) ⟨base + ms.length, b, bp⟩ = x := by
  unfold look
  rw [if_neg (by show ¬ base + ms.length = data; omega)]
  simp

/-- Two states with the same numbers of maps everywhere. -/
structure Rel (data base : Nat) (dm : List Nat) (P F : State D) : Prop where
  baseP : P.base = base
  baseF : F.base = base
  validP : ∀ c ∈ P.last :: (P.stackA ++ P.stackB), Valid data base P.nodes.length c
  validF : ∀ c ∈ F.last :: (F.stackA ++ F.stackB), Valid data base F.nodes.length c
  last : look data base dm (maps data base dm P.nodes []) P.last = look data base dm (maps data base dm F.nodes []) F.last
  stackA : P.stackA.map (look data base dm (maps data base dm P.nodes [])) =
    F.stackA.map (look data base dm (maps data base dm F.nodes []))
  stackB : P.stackB.map (look data base dm (maps data base dm P.nodes [])) =
    F.stackB.map (look data base dm (maps data base dm F.nodes []))
  params : params data base dm P.nodes [] = params data base dm F.nodes []
  draws : P.draws = F.draws

variable {data base : Nat} {dm : List Nat} {P F : State D}

theorem Rel.symm (h : Rel data base dm P F) : Rel data base dm F P :=
  ⟨h.baseF, h.baseP, h.validF, h.validP, h.last.symm, h.stackA.symm, h.stackB.symm, h.params.symm, h.draws.symm⟩

theorem Valid.mono {n m : Nat} {c : Conn} (h : Valid data base n c) (hm : n ≤ m) : Valid data base m c := by
  rcases h with h | h
  · exact Or.inl h
  · exact Or.inr ⟨h.1, by omega⟩

theorem map_look {cs : List Conn} {ms : List Nat} (x : List Nat) (h : ∀ c ∈ cs, Valid data base ms.length c) :
    cs.map (look data base dm (ms ++ x)) = cs.map (look data base dm ms) :=
  List.map_congr_left fun c hc => look_grow x (h c hc)

theorem map_look' {cs : List Conn} {ns : List (NewNode D)} (x : List Nat) (h : ∀ c ∈ cs, Valid data base ns.length c) :
    cs.map (look data base dm (maps data base dm ns [] ++ x)) = cs.map (look data base dm (maps data base dm ns [])) :=
  map_look x (by rw [maps_length]; simpa using h)

theorem look_new' {ns : List (NewNode D)} (hd : data < base) (x b : Nat) (bp : Bool) :
    look data base dm (maps data base dm ns [] ++ [x]) ⟨base + ns.length, b, bp⟩ = x := by
  have := look_new (dm := dm) (ms := maps data base dm ns []) hd x b bp
  rw [maps_length] at this
  simpa using this

/-- The same layer added to both networks. -/
theorem Rel.add (hd : data < base) (h : Rel data base dm P F) {l : Layer D} {ip jf : List Conn} {o o' b b' : Bool}
    (hi : ip.map (look data base dm (maps data base dm P.nodes [])) =
      jf.map (look data base dm (maps data base dm F.nodes []))) :
    Rel data base dm (P.add ⟨l, ip, o⟩ b) (F.add ⟨l, jf, o'⟩ b') where
  baseP := h.baseP
  baseF := h.baseF
  validP := by
    intro c hc
    simp only [State.add, List.length_append, List.length_singleton, List.mem_cons] at hc ⊢
    rcases hc with rfl | hc
    · exact Or.inr (by rw [h.baseP]; constructor <;> simp)
    · exact (h.validP c (List.mem_cons_of_mem _ hc)).mono (by omega)
  validF := by
    intro c hc
    simp only [State.add, List.length_append, List.length_singleton, List.mem_cons] at hc ⊢
    rcases hc with rfl | hc
    · exact Or.inr (by rw [h.baseF]; constructor <;> simp)
    · exact (h.validF c (List.mem_cons_of_mem _ hc)).mono (by omega)
  last := by
    simp only [State.add, maps_append]
    rw [h.baseP, h.baseF, look_new' hd, look_new' hd, hi]
  stackA := by
    simp only [State.add, maps_append]
    rw [map_look' _ fun c hc => h.validP c (by simp [hc]), map_look' _ fun c hc => h.validF c (by simp [hc]), h.stackA]
  stackB := by
    simp only [State.add, maps_append]
    rw [map_look' _ fun c hc => h.validP c (by simp [hc]), map_look' _ fun c hc => h.validF c (by simp [hc]), h.stackB]
  params := by
    simp only [State.add, params_append]
    rw [h.params, hi]
  draws := h.draws

/-- A layer that keeps the maps, added to the second network only. -/
theorem Rel.addRight (hd : data < base) (h : Rel data base dm P F) {l : Layer D} {o' b' : Bool}
    (hm : ∀ x, nodeMaps l [x] = x) (hp : ∀ x, nodeParams l x = []) :
    Rel data base dm P (F.add ⟨l, [F.last], o'⟩ b') where
  baseP := h.baseP
  baseF := h.baseF
  validP := h.validP
  validF := by
    intro c hc
    simp only [State.add, List.length_append, List.length_singleton, List.mem_cons] at hc ⊢
    rcases hc with rfl | hc
    · exact Or.inr (by rw [h.baseF]; constructor <;> simp)
    · exact (h.validF c (List.mem_cons_of_mem _ hc)).mono (by omega)
  last := by
    simp only [State.add, maps_append]
    rw [h.baseF, look_new' hd, List.map_cons, List.map_nil, hm, h.last]
  stackA := by
    simp only [State.add, maps_append]
    rw [map_look' _ fun c hc => h.validF c (by simp [hc]), h.stackA]
  stackB := by
    simp only [State.add, maps_append]
    rw [map_look' _ fun c hc => h.validF c (by simp [hc]), h.stackB]
  params := by
    simp only [State.add, params_append]
    rw [h.params, hp, List.map_nil, List.append_nil]
  draws := h.draws

/-- The members that do not matter. -/
theorem Rel.upscaledRight (h : Rel data base dm P F) (u : Bool) : Rel data base dm P { F with upscaled := u } :=
  ⟨h.baseP, h.baseF, h.validP, h.validF, h.last, h.stackA, h.stackB, h.params, h.draws⟩

theorem Rel.upscaled (h : Rel data base dm P F) (u v : Bool) :
    Rel data base dm { P with upscaled := u } { F with upscaled := v } :=
  ⟨h.baseP, h.baseF, h.validP, h.validF, h.last, h.stackA, h.stackB, h.params, h.draws⟩

theorem Rel.withDraws (h : Rel data base dm P F) (u : Nat) :
    Rel data base dm { P with draws := u } { F with draws := u } :=
  ⟨h.baseP, h.baseF, h.validP, h.validF, h.last, h.stackA, h.stackB, h.params, rfl⟩

/-- A layer on the current connection. -/
theorem Rel.step (hd : data < base) (h : Rel data base dm P F) (l : Layer D) (o o' b b' : Bool) :
    Rel data base dm (P.add ⟨l, [P.last], o⟩ b) (F.add ⟨l, [F.last], o'⟩ b') :=
  h.add hd (by simp only [List.map_cons, List.map_nil, h.last])

/-! ### Lines -/

/-- Independent parts of both computations. -/
theorem sim_bind {α β : Type _} {o : Outcome α} {f g : α → Outcome β} {b : β} {R : β → β → Prop}
    (h : o.bind f = .done b) (hf : ∀ a, o = .done a → f a = .done b → ∃ c, g a = .done c ∧ R b c) :
    ∃ c, o.bind g = .done c ∧ R b c := by
  obtain ⟨a, h1, h2⟩ := bind_eq_done h
  obtain ⟨c, h3, h4⟩ := hf a h1 h2
  exact ⟨c, by rw [h1]; exact h3, h4⟩

theorem convolutionLine_rel (hd : data < base) {conv : Str → D} {zero one : D} {line : Str} {P' : State D}
    (h : Rel data base dm P F) (hp : convolutionLine conv zero one line P = .done P') :
    ∃ F', convolutionLine conv zero one line F = .done F' ∧ Rel data base dm P' F' := by
  unfold convolutionLine at hp ⊢
  refine sim_bind hp fun k _ hp => ?_
  refine sim_bind hp fun s _ hp => ?_
  refine sim_bind hp fun p _ hp => ?_
  refine sim_bind hp fun m _ hp => ?_
  refine sim_bind hp fun g _ hp => ?_
  refine sim_bind hp fun d _ hp => ?_
  refine sim_bind hp fun l _ hp => ?_
  refine sim_bind hp fun q _ hp => ?_
  refine ⟨_, rfl, ?_⟩
  rw [← Outcome.done.inj hp, ← h.draws]
  exact (h.withDraws (P.draws + 1)).step hd _ _ _ _ _

theorem lrnLine_rel (hd : data < base) {conv : Str → D} {one : D} {line : Str} {P' : State D}
    (h : Rel data base dm P F) (hp : lrnLine conv one line P = .done P') :
    ∃ F', lrnLine conv one line F = .done F' ∧ Rel data base dm P' F' := by
  unfold lrnLine at hp ⊢
  refine sim_bind hp fun m _ hp => ?_
  refine sim_bind hp fun a _ hp => ?_
  refine sim_bind hp fun s _ hp => ?_
  refine sim_bind hp fun al _ hp => ?_
  refine sim_bind hp fun be _ hp => ?_
  refine ⟨_, rfl, ?_⟩
  rw [← Outcome.done.inj hp]
  exact h.step hd _ _ _ _ _

/-- The relation on results that may be absent. -/
def RelOpt (data base : Nat) (dm : List Nat) : Option (State D) → Option (State D) → Prop
  | none, none => True
  | some P, some F => Rel data base dm P F
  | _, _ => False

theorem poolingLine_rel (hd : data < base) {line : Str} {r : Option (State D)}
    (h : Rel data base dm P F) (hp : poolingLine line P = .done r) :
    ∃ r', poolingLine line F = .done r' ∧ RelOpt data base dm r r' := by
  unfold poolingLine at hp ⊢
  split
  · rename_i hc
    rw [if_pos hc] at hp
    refine sim_bind hp fun k _ hp => ⟨_, rfl, ?_⟩
    rw [← Outcome.done.inj hp]
    exact h.step hd _ _ _ _ _
  · rename_i hc
    rw [if_neg hc] at hp
    split
    · rename_i hc
      rw [if_pos hc] at hp
      refine sim_bind hp fun k _ hp => ⟨_, rfl, ?_⟩
      rw [← Outcome.done.inj hp]
      exact h.step hd _ _ _ _ _
    · rename_i hc
      rw [if_neg hc] at hp
      split
      · rename_i hc
        rw [if_pos hc] at hp
        refine sim_bind hp fun k _ hp => ?_
        refine sim_bind hp fun s _ hp => ⟨_, rfl, ?_⟩
        rw [← Outcome.done.inj hp]
        exact h.step hd _ _ _ _ _
      · rename_i hc
        rw [if_neg hc] at hp
        refine ⟨_, rfl, ?_⟩
        rw [← Outcome.done.inj hp]
        trivial

theorem activationLine_rel (hd : data < base) {conv : Str → D} {zero one : D} {m m' : Method} {o : Bool} {line : Str}
    {r : Option (State D)} (h : Rel data base dm P F) (hp : activationLine conv zero one m o line P = .done r) :
    ∃ r', activationLine conv zero one m' o line F = .done r' ∧ RelOpt data base dm r r' := by
  unfold activationLine at hp ⊢
  dsimp only at hp ⊢
  split
  · rename_i hc
    rw [if_pos hc] at hp
    refine ⟨_, rfl, ?_⟩
    rw [← Outcome.done.inj hp]
    exact h.step hd _ _ _ _ _
  · rename_i hc
    rw [if_neg hc] at hp
    split
    · rename_i hc
      rw [if_pos hc] at hp
      refine sim_bind hp fun k _ hp => ?_
      refine sim_bind hp fun s _ hp => ⟨_, rfl, ?_⟩
      rw [← Outcome.done.inj hp]
      exact h.step hd _ _ _ _ _
    · rename_i hc
      rw [if_neg hc] at hp
      split
      · rename_i hc
        rw [if_pos hc] at hp
        refine ⟨_, rfl, ?_⟩
        rw [← Outcome.done.inj hp]
        exact h.step hd _ _ _ _ _
      · rename_i hc
        rw [if_neg hc] at hp
        split
        · rename_i hc
          rw [if_pos hc] at hp
          refine ⟨_, rfl, ?_⟩
          rw [← Outcome.done.inj hp]
          exact h.step hd _ _ _ _ _
        · rename_i hc
          rw [if_neg hc] at hp
          refine ⟨_, rfl, ?_⟩
          rw [← Outcome.done.inj hp]
          trivial

theorem upscaleRight (hd : data < base) (h : Rel data base dm P F) (f : Fields) (o b : Bool) :
    Rel data base dm P (F.add ⟨upscaleBy f, [F.last], o⟩ b) :=
  h.addRight hd (fun _ => rfl) (fun _ => rfl)

theorem spatialLine_rel (hd : data < base) {f g : Fields} (hf : f.method = .patch) {b : Nat} {bp : Bool}
    (h : Rel data base dm P F) :
    Rel data base dm (spatialLine f ⟨data, b, bp⟩ P) (spatialLine g ⟨data, b, bp⟩ F) := by
  unfold spatialLine
  dsimp only
  rw [if_neg (fun e => by rw [hf] at e; exact absurd e.2 (by decide))]
  split
  · have h' : Rel data base dm P { F.add ⟨upscaleBy g, [F.last], false⟩ with upscaled := true } :=
      (upscaleRight hd h g _ _).upscaledRight true
    refine h'.add hd ?_
    simp only [List.map_cons, List.map_nil, h'.last]
    simp [look]
  · refine h.add hd ?_
    simp only [List.map_cons, List.map_nil, h.last]
    simp [look]

/-- The relation on states with a flag. -/
def RelFlag (data base : Nat) (dm : List Nat) (r s : State D × Bool) : Prop :=
  Rel data base dm r.1 s.1 ∧ r.2 = s.2

theorem namedStack_rel {line : Str} {s : List Conn} (h : Rel data base dm P F) (hp : namedStack line P = .done s) :
    ∃ s', namedStack line F = .done s' ∧ s.map (look data base dm (maps data base dm P.nodes [])) =
      s'.map (look data base dm (maps data base dm F.nodes [])) := by
  unfold namedStack at hp ⊢
  obtain ⟨name, h1, h2⟩ := bind_eq_done hp
  rw [h1, Outcome.bind_done]
  refine ⟨_, rfl, ?_⟩
  rw [← Outcome.done.inj h2]
  split
  · exact h.stackB
  · exact h.stackA

theorem joinLine_rel (hd : data < base) {f g : Fields} (hf : f.method = .patch) {b : Nat} {bp : Bool} {o : Bool}
    {line : Str} {r : State D × Bool} (h : Rel data base dm P F)
    (hp : joinLine f ⟨data, b, bp⟩ o line P = .done r) :
    ∃ r', joinLine g ⟨data, b, bp⟩ o line F = .done r' ∧ RelFlag data base dm r r' := by
  unfold joinLine at hp ⊢
  split
  · rename_i hc
    rw [if_pos hc] at hp
    refine ⟨_, rfl, ?_⟩
    rw [← Outcome.done.inj hp]
    exact ⟨spatialLine_rel hd hf h, rfl⟩
  · rename_i hc
    rw [if_neg hc] at hp
    split
    · rename_i hc
      rw [if_pos hc] at hp
      obtain ⟨s, h1, h2⟩ := bind_eq_done hp
      obtain ⟨s', h3, h4⟩ := namedStack_rel h h1
      rw [h3, Outcome.bind_done]
      refine ⟨_, rfl, ?_⟩
      rw [← Outcome.done.inj h2]
      exact ⟨h.add hd h4, rfl⟩
    · rename_i hc
      rw [if_neg hc] at hp
      split
      · rename_i hc
        rw [if_pos hc] at hp
        obtain ⟨s, h1, h2⟩ := bind_eq_done hp
        obtain ⟨s', h3, h4⟩ := namedStack_rel h h1
        rw [h3, Outcome.bind_done]
        refine ⟨_, rfl, ?_⟩
        rw [← Outcome.done.inj h2]
        exact ⟨h.add hd h4, rfl⟩
      · rename_i hc
        rw [if_neg hc] at hp
        split
        · rename_i hc
          rw [if_pos hc] at hp
          refine sim_bind hp fun u _ hp => ?_
          refine sim_bind hp fun v _ hp => ⟨_, rfl, ?_⟩
          rw [← Outcome.done.inj hp]
          exact ⟨(h.step hd _ _ _ _ _).upscaled _ _, rfl⟩
        · rename_i hc
          rw [if_neg hc] at hp
          refine ⟨_, rfl, ?_⟩
          rw [← Outcome.done.inj hp]
          exact ⟨h, rfl⟩

theorem layerLine_rel (hd : data < base) {conv : Str → D} {zero one : D} {f g : Fields} (hf : f.method = .patch)
    {b : Nat} {bp : Bool} {o : Bool} {line : Str} {r : State D × Bool} (h : Rel data base dm P F)
    (hp : layerLine conv zero one f ⟨data, b, bp⟩ o line P = .done r) :
    ∃ r', layerLine conv zero one g ⟨data, b, bp⟩ o line F = .done r' ∧ RelFlag data base dm r r' := by
  unfold layerLine at hp ⊢
  split
  · rename_i hc
    rw [if_pos hc] at hp
    obtain ⟨P', h1, h2⟩ := bind_eq_done hp
    obtain ⟨F', h3, h4⟩ := convolutionLine_rel hd h h1
    rw [h3, Outcome.bind_done]
    refine ⟨_, rfl, ?_⟩
    rw [← Outcome.done.inj h2]
    exact ⟨h4, rfl⟩
  · rename_i hc
    rw [if_neg hc] at hp
    split
    · rename_i hc
      rw [if_pos hc] at hp
      obtain ⟨P', h1, h2⟩ := bind_eq_done hp
      obtain ⟨F', h3, h4⟩ := lrnLine_rel hd h h1
      rw [h3, Outcome.bind_done]
      refine ⟨_, rfl, ?_⟩
      rw [← Outcome.done.inj h2]
      exact ⟨h4, rfl⟩
    · rename_i hc
      rw [if_neg hc] at hp
      obtain ⟨P', h1, h2⟩ := bind_eq_done hp
      obtain ⟨F', h3, h4⟩ := poolingLine_rel hd h h1
      rw [h3, Outcome.bind_done]
      cases P' with
      | some P' =>
        cases F' with
        | none => exact absurd h4 (by simp [RelOpt])
        | some F' =>
          refine ⟨_, rfl, ?_⟩
          rw [← Outcome.done.inj h2]
          exact ⟨h4, rfl⟩
      | none =>
        cases F' with
        | some F' => exact absurd h4 (by simp [RelOpt])
        | none =>
          dsimp only at h2 ⊢
          obtain ⟨P', h1, h2⟩ := bind_eq_done h2
          obtain ⟨F', h3, h4⟩ := activationLine_rel (m' := g.method) hd h h1
          rw [h3, Outcome.bind_done]
          cases P' with
          | some P' =>
            cases F' with
            | none => exact absurd h4 (by simp [RelOpt])
            | some F' =>
              refine ⟨_, rfl, ?_⟩
              rw [← Outcome.done.inj h2]
              exact ⟨h4, rfl⟩
          | none =>
            cases F' with
            | some F' => exact absurd h4 (by simp [RelOpt])
            | none => exact joinLine_rel hd hf h h2

theorem scaleOutput_rel (hd : data < base) {f g : Fields} (hf : f.method = .patch) {o : Bool}
    (h : Rel data base dm P F) : Rel data base dm (scaleOutput f o P) (scaleOutput g o F) := by
  unfold scaleOutput
  rw [if_neg (fun e => by rw [hf] at e; exact absurd e.2.2.1 (by decide))]
  split
  · exact upscaleRight hd h g _ _
  · exact h

theorem Valid.look_app {ns : List (NewNode D)} {c : Conn} (x : List Nat) (h : Valid data base ns.length c) :
    look data base dm (maps data base dm ns [] ++ x) c = look data base dm (maps data base dm ns []) c :=
  look_grow x (by rw [maps_length]; simpa using h)

theorem addLoss_rel {loss : Bool} {b : Nat} {bp : Bool} {o : Bool} {w : D}
    (h : Rel data base dm P F) :
    Rel data base dm (addLoss loss ⟨data, b, bp⟩ o w P) (addLoss loss ⟨data, b, bp⟩ o w F) := by
  unfold addLoss
  split
  · exact {
      baseP := h.baseP
      baseF := h.baseF
      validP := fun c hc => (h.validP c hc).mono (by simp)
      validF := fun c hc => (h.validF c hc).mono (by simp)
      last := by
        simp only [maps_append]
        rw [Valid.look_app _ (h.validP _ (by simp)), Valid.look_app _ (h.validF _ (by simp)), h.last]
      stackA := by
        simp only [maps_append]
        rw [map_look' _ fun c hc => h.validP c (by simp [hc]), map_look' _ fun c hc => h.validF c (by simp [hc]), h.stackA]
      stackB := by
        simp only [maps_append]
        rw [map_look' _ fun c hc => h.validP c (by simp [hc]), map_look' _ fun c hc => h.validF c (by simp [hc]), h.stackB]
      params := by
        simp only [params_append]
        rw [h.params]; rfl
      draws := h.draws }
  · exact h

theorem push_rel {c c' : Conn} {s s' t : List Conn} {mp mf : List Nat}
    (hc : look data base dm mp c = look data base dm mf c')
    (hs : s.map (look data base dm mp) = s'.map (look data base dm mf)) (h : push c s = .done t) :
    push c' s' = .done (c' :: s') ∧ t = c :: s ∧
      (c :: s).map (look data base dm mp) = (c' :: s').map (look data base dm mf) := by
  have hl : s.length = s'.length := by simpa using congrArg List.length hs
  unfold push at h ⊢
  split at h
  · rename_i hlt
    exact ⟨if_pos (by omega), (Outcome.done.inj h).symm, by simp only [List.map_cons, hc, hs]⟩
  · exact absurd h (by simp)

theorem pop_rel {c : Conn} {s s' t : List Conn} {mp mf : List Nat}
    (hs : s.map (look data base dm mp) = s'.map (look data base dm mf)) (h : pop s = .done (c, t)) :
    ∃ c' t', s = c :: t ∧ s' = c' :: t' ∧ pop s' = .done (c', t') ∧ look data base dm mp c = look data base dm mf c' ∧
      t.map (look data base dm mp) = t'.map (look data base dm mf) := by
  cases s with
  | nil => exact absurd h (by simp [pop])
  | cons a s =>
    cases s' with
    | nil => exact absurd hs (by simp)
    | cons a' s' =>
      simp only [List.map_cons, List.cons.injEq] at hs
      have := Outcome.done.inj h
      simp only [Prod.mk.injEq] at this
      obtain ⟨rfl, rfl⟩ := this
      exact ⟨a', s', rfl, rfl, rfl, hs.1, hs.2⟩

theorem sub_pushA {c x : Conn} {A B : List Conn} (h : c ∈ x :: ((x :: A) ++ B)) : c ∈ x :: (A ++ B) := by
  simp only [List.mem_cons, List.mem_append] at h ⊢; tauto

theorem sub_pushB {c x : Conn} {A B : List Conn} (h : c ∈ x :: (A ++ x :: B)) : c ∈ x :: (A ++ B) := by
  simp only [List.mem_cons, List.mem_append] at h ⊢; tauto

theorem sub_popA {c x y : Conn} {A B : List Conn} (h : c ∈ y :: (A ++ B)) : c ∈ x :: ((y :: A) ++ B) := by
  simp only [List.mem_cons, List.mem_append] at h ⊢; tauto

theorem sub_popB {c x y : Conn} {A B : List Conn} (h : c ∈ y :: (A ++ B)) : c ∈ x :: (A ++ y :: B) := by
  simp only [List.mem_cons, List.mem_append] at h ⊢; tauto

theorem stackLine_rel {line : Str} {P' : State D} (h : Rel data base dm P F) (hp : stackLine line P = .done P') :
    ∃ F', stackLine line F = .done F' ∧ Rel data base dm P' F' := by
  unfold stackLine at hp ⊢
  split
  · rename_i hc
    rw [if_pos hc] at hp
    obtain ⟨t, h1, h2⟩ := bind_eq_done hp
    obtain ⟨h3, rfl, h4⟩ := push_rel h.last h.stackA h1
    rw [h3, Outcome.bind_done]
    refine ⟨_, rfl, ?_⟩
    rw [← Outcome.done.inj h2]
    exact { h with
      validP := fun c hc => h.validP c (sub_pushA hc)
      validF := fun c hc => h.validF c (sub_pushA hc)
      stackA := h4 }
  · rename_i hc
    rw [if_neg hc] at hp
    split
    · rename_i hc
      rw [if_pos hc] at hp
      obtain ⟨t, h1, h2⟩ := bind_eq_done hp
      obtain ⟨h3, rfl, h4⟩ := push_rel h.last h.stackB h1
      rw [h3, Outcome.bind_done]
      refine ⟨_, rfl, ?_⟩
      rw [← Outcome.done.inj h2]
      exact { h with
        validP := fun c hc => h.validP c (sub_pushB hc)
        validF := fun c hc => h.validF c (sub_pushB hc)
        stackB := h4 }
    · rename_i hc
      rw [if_neg hc] at hp
      split
      · rename_i hc
        rw [if_pos hc] at hp
        obtain ⟨⟨c, t⟩, h1, h2⟩ := bind_eq_done hp
        obtain ⟨c', t', e1, e2, h3, h4, h5⟩ := pop_rel h.stackA h1
        rw [h3, Outcome.bind_done]
        refine ⟨_, rfl, ?_⟩
        rw [← Outcome.done.inj h2]
        exact { h with
          validP := fun c hc => h.validP c (by rw [e1]; exact sub_popA hc)
          validF := fun c hc => h.validF c (by rw [e2]; exact sub_popA hc)
          last := h4
          stackA := h5 }
      · rename_i hc
        rw [if_neg hc] at hp
        split
        · rename_i hc
          rw [if_pos hc] at hp
          obtain ⟨⟨c, t⟩, h1, h2⟩ := bind_eq_done hp
          obtain ⟨c', t', e1, e2, h3, h4, h5⟩ := pop_rel h.stackB h1
          rw [h3, Outcome.bind_done]
          refine ⟨_, rfl, ?_⟩
          rw [← Outcome.done.inj h2]
          exact { h with
            validP := fun c hc => h.validP c (by rw [e1]; exact sub_popB hc)
            validF := fun c hc => h.validF c (by rw [e2]; exact sub_popB hc)
            last := h4
            stackB := h5 }
        · rename_i hc
          rw [if_neg hc] at hp
          refine ⟨_, rfl, ?_⟩
          rw [← Outcome.done.inj hp]
          exact h

/-! ### The word `flatten` -/

/-- An occurrence does not cross a character it does not contain. -/
theorem infix_split {w a b : Str} {c : Char} (hc : c ∉ w) (h : w <:+: a ++ c :: b) : w <:+: a ∨ w <:+: b := by
  obtain ⟨u, v, e⟩ := h
  rw [List.append_assoc] at e
  rcases List.append_eq_append_iff.1 e with ⟨x, e1, e2⟩ | ⟨x, e1, e2⟩
  · -- `a = u ++ x`, `w ++ v = x ++ c :: b`
    rcases List.append_eq_append_iff.1 e2 with ⟨y, e3, e4⟩ | ⟨y, e3, e4⟩
    · exact Or.inl ⟨u, y, by rw [e1, e3, List.append_assoc]⟩
    · cases y with
      | nil => exact Or.inl ⟨u, [], by rw [e1, e3]; simp⟩
      | cons d y =>
        simp only [List.cons_append, List.cons.injEq] at e4
        exact absurd (by rw [e3, e4.1]; simp : c ∈ w) hc
  · -- `u = a ++ x`, `c :: b = x ++ (w ++ v)`
    cases x with
    | nil =>
      cases w with
      | nil => exact Or.inr (List.nil_infix)
      | cons d w =>
        simp only [List.nil_append, List.cons_append, List.cons.injEq] at e2
        exact absurd (by rw [e2.1]; simp : c ∈ d :: w) hc
    | cons d x =>
      simp only [List.cons_append, List.cons.injEq] at e2
      exact Or.inr ⟨x, v, by rw [List.append_assoc]; exact e2.2.symm⟩

/-- The word that marks lines for patch-wise processing. -/
abbrev flat : Str := "flatten".toList

theorem infix_digits {a b ds : Str} (hn : ds ≠ []) (hd : ∀ c ∈ ds, c.isDigit = true) (h : flat <:+: a ++ ds ++ b) :
    flat <:+: a ∨ flat <:+: b := by
  have no : ∀ c : Char, c.isDigit = true → c ∉ flat := by
    intro c h1 h2
    have : flat.all (fun c => !c.isDigit) = true := by decide
    rw [List.all_eq_true] at this
    have := this c h2
    rw [h1] at this
    exact absurd this (by decide)
  induction ds with
  | nil => exact absurd rfl hn
  | cons d ds ih =>
    rw [List.append_assoc, List.cons_append] at h
    rcases infix_split (no d (hd d (by simp))) h with h | h
    · exact Or.inl h
    · cases ds with
      | nil => exact Or.inr h
      | cons e ds =>
        rw [List.cons_append] at h
        rcases infix_split (a := []) (no e (hd e (by simp))) h with h | h
        · exact absurd h (by decide)
        · exact ih (by simp) (fun c hc => hd c (by simp [hc])) (by
            obtain ⟨u, v, e'⟩ := h
            exact ⟨a ++ e :: u, v, by
              rw [List.append_assoc a (e :: ds) b, List.cons_append, ← e']; simp⟩)

theorem infix_text {a b m : Str} {c d : Char} (hc : c ∉ flat) (hd : d ∉ flat) (hm : ¬ flat <:+: m)
    (h : flat <:+: a ++ (c :: (m ++ [d])) ++ b) : flat <:+: a ∨ flat <:+: b := by
  rw [List.append_assoc, List.cons_append, List.append_assoc] at h
  rcases infix_split hc h with h | h
  · exact Or.inl h
  · rcases infix_split hd h with h | h
    · exact absurd h hm
    · exact Or.inr h

theorem infix_take_drop {line : Str} {p q : Nat} (h : flat <:+: line.take p ∨ flat <:+: line.drop q) : flat <:+: line := by
  rcases h with h | h
  · exact h.trans (List.take_prefix _ _).isInfix
  · exact h.trans (List.drop_suffix _ _).isInfix

theorem replace_first {pat text line line' : Str} (h : replaceFirst pat text line = some line') :
    ∃ p, find pat line = some p ∧ line' = line.take p ++ text ++ line.drop (p + pat.length) := by
  unfold replaceFirst at h
  rw [Option.map_eq_some_iff] at h
  obtain ⟨p, h1, h2⟩ := h
  exact ⟨p, h1, h2.symm⟩

/-- A replacement does not touch the beginning. -/
theorem replace_keeps {pat text rest line' : Str} (h : replaceFirst pat text ('?' :: 'f' :: 'l' :: rest) = some line')
    (h0 : ¬ pat <+: '?' :: 'f' :: 'l' :: rest) (h1 : ¬ pat <+: 'f' :: 'l' :: rest) (h2 : ¬ pat <+: 'l' :: rest) :
    ∃ rest', line' = '?' :: 'f' :: 'l' :: rest' := by
  obtain ⟨p, hp, rfl⟩ := replace_first h
  rw [find_not_prefix h0, find_not_prefix h1, find_not_prefix h2] at hp
  cases hr : find pat rest with
  | none => rw [hr] at hp; simp at hp
  | some q =>
    rw [hr] at hp
    simp only [Option.map_some, Option.some.injEq] at hp
    subst hp
    exact ⟨_, rfl⟩

theorem not_prefix_cons {c d : Char} {p s : Str} (h : c ≠ d) : ¬ (c :: p) <+: d :: s := by
  intro e
  exact h (List.cons_prefix_cons.1 e).1

theorem not_prefix_cons2 {c d c' d' : Char} {p s : Str} (h : c' ≠ d') : ¬ (c :: c' :: p) <+: d :: d' :: s := by
  intro e
  exact h (List.cons_prefix_cons.1 (List.cons_prefix_cons.1 e).2).1

/-- The line after the replacements, without the last step. -/
def replaced (classes : Nat) (line : Str) : Outcome Str :=
  let line := (replaceFirst "(o)".toList (digitsOf classes) line).getD line
  match replaceFirst "fullyconnected".toList "convolutional size=1x1".toList line with
    | none => Outcome.done line
    | some line => orThrow (replaceFirst "neurons=".toList "kernels=".toList line)

theorem preprocess_eq (m : Method) (classes : Nat) (line : Str) : preprocess m classes line =
    (replaced classes line).bind fun line =>
      Outcome.done (if m = Method.fcn ∧ (find "flatten".toList line).isSome then [] else line) := rfl

theorem replaced_flat {classes : Nat} {line line' : Str} (h : replaced classes line = .done line')
    (hf : flat <:+: line') : flat <:+: line := by
  have one : ∀ {l l' : Str}, replaceFirst "(o)".toList (digitsOf classes) l = some l' → flat <:+: l' → flat <:+: l := by
    intro l l' h hf
    obtain ⟨p, _, rfl⟩ := replace_first h
    exact infix_take_drop (infix_digits (digitsOf_ne_nil _) (fun c hc => digitsOf_isDigit hc) hf)
  have two : ∀ {l l' : Str}, replaceFirst "fullyconnected".toList "convolutional size=1x1".toList l = some l' →
      flat <:+: l' → flat <:+: l := by
    intro l l' h hf
    obtain ⟨p, _, rfl⟩ := replace_first h
    refine infix_take_drop (infix_text (c := 'c') (d := '1') (m := "onvolutional size=1x".toList) ?_ ?_ ?_ hf) <;> decide
  have three : ∀ {l l' : Str}, replaceFirst "neurons=".toList "kernels=".toList l = some l' →
      flat <:+: l' → flat <:+: l := by
    intro l l' h hf
    obtain ⟨p, _, rfl⟩ := replace_first h
    refine infix_take_drop (infix_text (c := 'k') (d := '=') (m := "ernels".toList) ?_ ?_ ?_ hf) <;> decide
  unfold replaced at h
  dsimp only at h
  have fin : flat <:+: (replaceFirst "(o)".toList (digitsOf classes) line).getD line → flat <:+: line := by
    intro hf
    cases hr : replaceFirst "(o)".toList (digitsOf classes) line with
    | none => rw [hr] at hf; exact hf
    | some l => rw [hr] at hf; exact one hr hf
  split at h
  · rw [← Outcome.done.inj h] at hf
    exact fin hf
  · rename_i l hl
    rw [orThrow_eq_done] at h
    exact fin (two hl (three h hf))

theorem replaced_keeps {classes : Nat} {rest line' : Str}
    (h : replaced classes ('?' :: 'f' :: 'l' :: rest) = .done line') : ∃ rest', line' = '?' :: 'f' :: 'l' :: rest' := by
  unfold replaced at h
  dsimp only at h
  have first : ∃ r, (replaceFirst "(o)".toList (digitsOf classes) ('?' :: 'f' :: 'l' :: rest)).getD
      ('?' :: 'f' :: 'l' :: rest) = '?' :: 'f' :: 'l' :: r := by
    cases hr : replaceFirst "(o)".toList (digitsOf classes) ('?' :: 'f' :: 'l' :: rest) with
    | none => exact ⟨rest, rfl⟩
    | some l =>
      exact replace_keeps hr (not_prefix_cons (by decide)) (not_prefix_cons (by decide)) (not_prefix_cons (by decide))
  obtain ⟨r, hr⟩ := first
  rw [hr] at h
  split at h
  · exact ⟨r, (Outcome.done.inj h).symm⟩
  · rename_i l hl
    obtain ⟨r', rfl⟩ := replace_keeps hl (not_prefix_cons (by decide)) (not_prefix_cons2 (by decide))
      (not_prefix_cons (by decide))
    rw [orThrow_eq_done] at h
    exact replace_keeps h (not_prefix_cons (by decide)) (not_prefix_cons (by decide)) (not_prefix_cons (by decide))

/-! ### Descriptions -/

theorem not_identifier {c d : Char} {p s : Str} (h : c ≠ d) : startsWithIdentifier (d :: s) (c :: p) = false := by
  unfold startsWithIdentifier
  rw [Bool.eq_false_iff]
  intro e
  exact not_prefix_cons h (List.isPrefixOf_iff_prefix.1 e)

theorem layerLine_flat (conv : Str → D) (zero one : D) (f : Fields) (c : Conn) (rest : Str) (st : State D) :
    layerLine conv zero one f c false ('f' :: 'l' :: rest) st = .done (st, false) := by
  have no : ∀ {p : Str}, (p.headD 'f' ≠ 'f') → ¬ (startsWithIdentifier ('f' :: 'l' :: rest) p = true) := by
    intro p h
    cases p with
    | nil => exact absurd rfl h
    | cons c p => rw [not_identifier (c := c) h]; simp
  unfold layerLine poolingLine activationLine joinLine
  dsimp only
  rw [if_neg (no (by decide)), if_neg (no (by decide)), if_neg (no (by decide)), if_neg (no (by decide)),
    if_neg (no (by decide)), Outcome.bind_done]
  dsimp only
  rw [if_neg (no (by decide)), if_neg (no (by decide)), if_neg (no (by decide)), if_neg (no (by decide)),
    Outcome.bind_done]
  dsimp only
  rw [if_neg (no (by decide)), if_neg (no (by decide)), if_neg (no (by decide)), if_neg (no (by decide))]

theorem stackLine_other {c : Char} {rest : Str} (h : 'p' ≠ c) (st : State D) : stackLine (c :: rest) st = .done st := by
  have no : ∀ {p : Str}, p.head? = some 'p' → ¬ (startsWithIdentifier (c :: rest) p = true) := by
    intro p hp
    cases p with
    | nil => exact absurd hp (by simp)
    | cons d p =>
      rw [List.head?_cons, Option.some.injEq] at hp
      subst hp
      rw [not_identifier h]; simp
  unfold stackLine
  rw [if_neg (no (by decide)), if_neg (no (by decide)), if_neg (no (by decide)), if_neg (no (by decide))]

/-- A line with this word changes nothing in patch mode. -/
theorem flat_line (conv : Str → D) (one : D) (classes : Nat) (rest : Str) :
    outputLine conv one classes ('?' :: 'f' :: 'l' :: rest) = .done ('?' :: 'f' :: 'l' :: rest, false, one) := by
  unfold outputLine
  rw [if_neg]
  intro e
  exact not_prefix_cons2 (by decide) (List.isPrefixOf_iff_prefix.1 e)

/-- The layer part of a line. -/
def layerPart (conv : Str → D) (zero one : D) (f : Fields) (data : Conn) (loss : Bool) (o : Bool) (w : D)
    (st : State D) : Str → Outcome (State D)
  | '?' :: line => (layerLine conv zero one f data o line st).bind fun (r : State D × Bool) =>
      .done (addLoss loss data r.2 w (scaleOutput f r.2 r.1))
  | _ => .done st

theorem layerPart_other (conv : Str → D) (zero one : D) (f : Fields) (data : Conn) (loss : Bool) (o : Bool) (w : D)
    (st : State D) {l : Str} (h : ¬ ∃ t, l = '?' :: t) : layerPart conv zero one f data loss o w st l = .done st := by
  unfold layerPart
  split
  · rename_i t
    exact absurd ⟨t, rfl⟩ h
  · rfl

theorem growField_other {l : Str} (h : ¬ ∃ t, l = '?' :: t) (f : Fields) : growField l f = .done f := by
  unfold growField
  split
  · rename_i t
    exact absurd ⟨t, rfl⟩ h
  · rfl

theorem growField_cons (l : Str) (f : Fields) :
    growField ('?' :: l) f = if f.ignore then .done f else (readEffect l).bind (applyEffect f) := rfl

/-- What is left of a line after the replacements. -/
def afterReplace (conv : Str → D) (zero one : D) (f : Fields) (data : Conn) (classes : Nat) (loss : Bool)
    (line : Str) (st : State D) : Outcome (State D) :=
  (outputLine conv one classes line).bind fun (o : Str × Bool × D) =>
    (stackLine o.1 st).bind fun st => layerPart conv zero one f data loss o.2.1 o.2.2 st o.1

theorem addLine_eq (conv : Str → D) (zero one : D) (f : Fields) (data : Conn) (classes : Nat) (loss : Bool)
    (line : Str) (st : State D) : addLine conv zero one f data classes loss line st =
    if startsWithIdentifier line ['#'] then .done st
    else (preprocess f.method classes line).bind fun line => afterReplace conv zero one f data classes loss line st := by
  unfold addLine afterReplace layerPart
  rfl

theorem afterReplace_rel (hd : data < base) {conv : Str → D} {zero one : D} {f g : Fields} (hf : f.method = .patch)
    {b : Nat} {bp : Bool} {classes : Nat} {loss : Bool} {line : Str} {P' : State D} (h : Rel data base dm P F)
    (hp : afterReplace conv zero one f ⟨data, b, bp⟩ classes loss line P = .done P') :
    ∃ F', afterReplace conv zero one g ⟨data, b, bp⟩ classes loss line F = .done F' ∧ Rel data base dm P' F' := by
  unfold afterReplace at hp ⊢
  refine sim_bind hp fun o _ hp => ?_
  obtain ⟨P1, h1, h2⟩ := bind_eq_done hp
  obtain ⟨F1, h3, h4⟩ := stackLine_rel h h1
  rw [h3, Outcome.bind_done]
  revert h2
  generalize o.1 = l
  intro h2
  by_cases hl : ∃ t, l = '?' :: t
  · obtain ⟨t, rfl⟩ := hl
    rw [layerPart] at h2 ⊢
    obtain ⟨r, h5, h6⟩ := bind_eq_done h2
    obtain ⟨r', h7, h8, h9⟩ := layerLine_rel (g := g) hd hf h4 h5
    rw [h7, Outcome.bind_done]
    refine ⟨_, rfl, ?_⟩
    rw [← Outcome.done.inj h6, ← h9]
    exact addLoss_rel (scaleOutput_rel hd hf h8)
  · rw [layerPart_other _ _ _ _ _ _ _ _ _ hl] at h2 ⊢
    refine ⟨_, rfl, ?_⟩
    rw [← Outcome.done.inj h2]
    exact h4

theorem afterReplace_flat (conv : Str → D) (zero one : D) (f : Fields) (data : Conn) (classes : Nat) (loss : Bool)
    (rest : Str) (st : State D) :
    afterReplace conv zero one f data classes loss ('?' :: 'f' :: 'l' :: rest) st = .done st := by
  unfold afterReplace
  rw [flat_line, Outcome.bind_done]
  dsimp only
  rw [stackLine_other (by decide), Outcome.bind_done, layerPart, layerLine_flat, Outcome.bind_done]
  rfl

theorem afterReplace_nil (conv : Str → D) (zero one : D) (f : Fields) (data : Conn) (classes : Nat) (loss : Bool)
    (st : State D) : afterReplace conv zero one f data classes loss [] st = .done st := by
  rfl

/-- Lines with the word `flatten` are the marker itself or comments. -/
def Marked (line : Str) : Prop := flat <:+: line → "?flatten".toList <+: line ∨ ['#'] <+: line

theorem addLine_rel (hd : data < base) {conv : Str → D} {zero one : D} {f g : Fields} (hf : f.method = .patch)
    {b : Nat} {bp : Bool} {classes : Nat} {loss : Bool} {line : Str} {P' : State D} (hm : Marked line)
    (h : Rel data base dm P F) (hp : addLine conv zero one f ⟨data, b, bp⟩ classes loss line P = .done P') :
    ∃ F', addLine conv zero one g ⟨data, b, bp⟩ classes loss line F = .done F' ∧ Rel data base dm P' F' := by
  rw [addLine_eq] at hp ⊢
  split
  · rename_i hc
    rw [if_pos hc] at hp
    refine ⟨_, rfl, ?_⟩
    rw [← Outcome.done.inj hp]
    exact h
  · rename_i hc
    rw [if_neg hc, preprocess_eq] at hp
    rw [preprocess_eq]
    obtain ⟨l', hr', hp⟩ := bind_eq_done hp
    obtain ⟨l, hr, hr'⟩ := bind_eq_done hr'
    rw [if_neg (fun e => by rw [hf] at e; exact absurd e.1 (by decide))] at hr'
    rw [← Outcome.done.inj hr'] at hp
    rw [hr]
    · rw [Outcome.bind_done, Outcome.bind_done]
      split
      · rename_i hfl
        rw [afterReplace_nil]
        have hin : flat <:+: l := by
          by_contra hno
          have h2 := hfl.2
          rw [show find "flatten".toList l = none from find_none_of_not_infix (by decide) hno] at h2
          exact absurd h2 (by decide)
        rcases hm (replaced_flat hr hin) with ⟨t, ht⟩ | hx
        · rw [← ht] at hr
          obtain ⟨rest', rfl⟩ := replaced_keeps (rest := "atten".toList ++ t) hr
          rw [afterReplace_flat] at hp
          rw [← Outcome.done.inj hp]
          exact ⟨_, rfl, h⟩
        · exact absurd (List.isPrefixOf_iff_prefix.2 hx) hc
      · exact afterReplace_rel hd hf h hp

theorem addLines_rel (hd : data < base) {conv : Str → D} {zero one : D} {f g : Fields} (hf : f.method = .patch)
    {b : Nat} {bp : Bool} {classes : Nat} {loss : Bool} (lines : List Str) {P F P' : State D}
    (hm : ∀ l ∈ lines, Marked l) (h : Rel data base dm P F)
    (hp : addLines conv zero one f ⟨data, b, bp⟩ classes loss lines P = .done P') :
    ∃ F', addLines conv zero one g ⟨data, b, bp⟩ classes loss lines F = .done F' ∧ Rel data base dm P' F' := by
  induction lines generalizing P F with
  | nil =>
    rw [addLines] at hp
    rw [← Outcome.done.inj hp]
    exact ⟨_, rfl, h⟩
  | cons l ls ih =>
    rw [addLines] at hp ⊢
    obtain ⟨P1, h1, h2⟩ := bind_eq_done hp
    obtain ⟨F1, h3, h4⟩ := addLine_rel (g := g) hd hf (hm l (by simp)) h h1
    rw [h3, Outcome.bind_done]
    exact ih (fun l hl => hm l (by simp [hl])) h4 h2

theorem start_rel (hd : data < base) {f g : Fields} (hf : f.method = .patch) {b : Nat} {bp : Bool} :
    Rel (D := D) data base dm (start f ⟨data, b, bp⟩ base) (start g ⟨data, b, bp⟩ base) := by
  have h0 : ∀ u v : Bool, Rel (D := D) data base dm { base, last := ⟨data, b, bp⟩, upscaled := u }
      { base, last := ⟨data, b, bp⟩, upscaled := v } := by
    intro u v
    exact ⟨rfl, rfl, fun c hc => by rw [List.mem_singleton.1 hc]; exact Or.inl rfl,
      fun c hc => by rw [List.mem_singleton.1 hc]; exact Or.inl rfl, rfl, rfl, rfl, rfl, rfl⟩
  unfold start
  dsimp only
  rw [if_neg (fun e => by rw [hf] at e; exact absurd e.1 (by decide))]
  split
  · exact (h0 _ _).addRight hd (fun _ => rfl) (fun _ => rfl)
  · exact h0 _ _

theorem manual_any {line : Str} {f r : Fields} (m : Method) (h : manual line f = .done r) :
    manual line { f with method := m } = .done { r with method := m } := by
  unfold manual at h ⊢
  split
  · rename_i hc
    rw [if_pos hc] at h
    obtain ⟨a, h1, h⟩ := bind_eq_done h
    obtain ⟨b, h2, h⟩ := bind_eq_done h
    obtain ⟨c, h3, h⟩ := bind_eq_done h
    obtain ⟨d, h4, h⟩ := bind_eq_done h
    rw [h1, Outcome.bind_done, h2, Outcome.bind_done, h3, Outcome.bind_done, h4, Outcome.bind_done]
    split
    · rename_i hc
      rw [if_pos hc] at h
      rw [← Outcome.done.inj h]
    · rename_i hc
      rw [if_neg hc] at h
      rw [← Outcome.done.inj h]
  · rename_i hc
    rw [if_neg hc] at h
    rw [← Outcome.done.inj h]

theorem growField_any {line : Str} {f r : Fields} (m : Method) (h : growField line f = .done r) :
    growField line { f with method := m } = .done { r with method := m } := by
  by_cases hl : ∃ t, line = '?' :: t
  · obtain ⟨t, rfl⟩ := hl
    rw [growField_cons] at h ⊢
    split
    · rename_i hc
      rw [if_pos hc] at h
      rw [← Outcome.done.inj h]
    · rename_i hc
      rw [if_neg hc] at h
      obtain ⟨e, h1, h⟩ := bind_eq_done h
      rw [h1, Outcome.bind_done]
      cases e with
      | none => rw [applyEffect] at h ⊢; rw [← Outcome.done.inj h]
      | some e =>
        rw [applyEffect, Effect.apply] at h ⊢
        obtain ⟨x, h2, h⟩ := bind_eq_done h
        obtain ⟨y, h3, h⟩ := bind_eq_done h
        dsimp only
        rw [h2, Outcome.bind_done, h3, Outcome.bind_done, ← Outcome.done.inj h]
  · rw [growField_other hl] at h ⊢
    rw [← Outcome.done.inj h]

theorem measureLine_any {line : Str} {f r : Fields} (m : Method) (h : measureLine true line f = .done r) :
    ∃ m', measureLine false line { f with method := m } = .done { r with method := m' } := by
  unfold measureLine at h ⊢
  split
  · rename_i hc
    rw [if_pos hc] at h
    exact ⟨m, by rw [← Outcome.done.inj h]⟩
  · rename_i hc
    rw [if_neg hc] at h
    obtain ⟨f1, h1, h⟩ := bind_eq_done h
    obtain ⟨f2, h2, h⟩ := bind_eq_done h
    refine ⟨m, ?_⟩
    unfold readMethod at h1 ⊢
    obtain ⟨n, h3, h1⟩ := bind_eq_done h1
    rw [h3, Outcome.bind_done, if_neg (by simp), Outcome.bind_done]
    have e : { f with method := m } = { f1 with method := m } := by
      split at h1 <;> rw [← Outcome.done.inj h1]
    rw [e, manual_any m h2, Outcome.bind_done, growField_any m h]

theorem measure_any (lines : List Str) {f r : Fields} (m : Method) (h : measure true lines f = .done r) :
    ∃ m', measure false lines { f with method := m } = .done { r with method := m' } := by
  induction lines generalizing f m with
  | nil => rw [NetConfig.measure] at h; exact ⟨m, by rw [NetConfig.measure, Outcome.done.inj h]⟩
  | cons l ls ih =>
    rw [NetConfig.measure] at h ⊢
    obtain ⟨f1, h1, h⟩ := bind_eq_done h
    obtain ⟨m1, h2⟩ := measureLine_any m h1
    rw [h2, Outcome.bind_done]
    exact ih m1 h

theorem measure_false (lines : List Str) {f r : Fields} (hf : f.method = .fcn) (h : measure false lines f = .done r) :
    r.method = .fcn := by
  induction lines generalizing f with
  | nil => rw [NetConfig.measure] at h; rw [← Outcome.done.inj h]; exact hf
  | cons l ls ih =>
    rw [NetConfig.measure] at h
    obtain ⟨f1, h1, h⟩ := bind_eq_done h
    refine ih ?_ h
    unfold measureLine at h1
    split at h1
    · rw [← Outcome.done.inj h1]; exact hf
    · obtain ⟨f2, h2, h1'⟩ := bind_eq_done h1
      obtain ⟨f3, h3, h6⟩ := bind_eq_done h1'
      have e2 : f2 = f := by
        unfold readMethod at h2
        obtain ⟨n, _, h2⟩ := bind_eq_done h2
        rw [if_neg (by simp)] at h2
        exact (Outcome.done.inj h2).symm
      subst e2
      have h4 := manual_any .fcn h3
      have h5 := growField_any .fcn h6
      have : { f2 with method := .fcn } = f2 := by rw [← hf]
      rw [this, h3] at h4
      have h4 := Outcome.done.inj h4
      rw [← h4, h6] at h5
      rw [Outcome.done.inj h5]

/-- The second factory accepts what the first one accepts, and is fully convolutional. -/
theorem construct_any {lines : List Str} {f : Fields} (h : construct lines true = .done f) :
    ∃ g, construct lines false = .done g ∧ g.method = .fcn := by
  unfold construct at h ⊢
  obtain ⟨r, h1, _⟩ := bind_eq_done h
  obtain ⟨m, h2⟩ := measure_any lines .fcn h1
  have hm := measure_false lines rfl h2
  rw [h2, Outcome.bind_done]
  dsimp only at hm
  subst hm
  exact ⟨_, rfl, rfl⟩

/-! ### Sharing -/

theorem share_done (training : List Shape) (testing : List Storage) (h : training.length ≤ testing.length) :
    ∃ t, share training testing = .done t ∧ t.length = testing.length ∧
      (∀ p (hp : p < training.length), t[p]? = some (.shadow p training[p])) ∧
      ∀ p, training.length ≤ p → t[p]? = testing[p]? := by
  unfold share
  obtain ⟨t, h1, h2, h3, h4⟩ := forO_inv (fun n (t : List Storage) => t.length = testing.length ∧
    (∀ p (hp : p < training.length), p < n → t[p]? = some (.shadow p training[p])) ∧
    ∀ p, n ≤ p → t[p]? = testing[p]?) (n := training.length)
    (f := fun p t => .ofOption ((rd training p).bind fun s => wr t p (.shadow p s))) (s := testing)
    ⟨rfl, fun p _ hp => absurd hp (by omega), fun p _ => rfl⟩ (by
      intro i s hi ⟨a1, a2, a3⟩
      refine ⟨s.set i (.shadow i training[i]), ?_, ?_, ?_, ?_⟩
      · rw [rd_eq_some hi, Option.bind_some, wr_of_lt (by omega), Outcome.ofOption_some]
      · simpa using a1
      · intro p hp hlt
        rcases Nat.lt_or_ge p i with h' | h'
        · rw [List.getElem?_set_ne (by omega)]; exact a2 p hp h'
        · have : p = i := by omega
          subst this
          rw [List.getElem?_set_self (by omega)]
      · intro p hp
        rw [List.getElem?_set_ne (by omega)]; exact a3 p (by omega))
  exact ⟨t, h1, h2, fun p hp => h3 p hp hp, h4⟩

end CN24.Hybrid
