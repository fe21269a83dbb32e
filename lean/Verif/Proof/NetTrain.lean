import Verif.Spec.NetTrain
import Verif.Proof.NetConfig
import Verif.Props.Gradient
import Verif.Props.GradientNorm
import Verif.Props.GradientNet

/-
Helper lemmas for C85.
-/

namespace CN24.NetTrain
open CN24 CN24.NetConfig CN24.Net

/-! ### What `AddLayers` builds -/

section build
variable {D : Type _}

/-- The layer hides its inputs from gradients. -/
def Hides (n : NewNode D) : Prop :=
  match n.layer with
  | .resize .. => n.inputs = [⟨0, 0, true⟩]
  | .downSample .. => True
  | _ => False

/-- A connection without gradients leads to the data layer or to a layer that hides its inputs. -/
def BackOk (nodes : List (NewNode D)) (c : Conn) : Prop :=
  c.backprop = false → c.node = 0 ∨ ∃ j m, c.node = j + 1 ∧ nodes[j]? = some m ∧ Hides m

/-- Of the data layer, the connection uses the images or the helper images only. -/
def Plain (c : Conn) : Prop := c.node = 0 → c.buffer = 0 ∨ c.buffer = 2

/-- A connection as the factory makes them, except those of error layers. -/
def OkConn (nodes : List (NewNode D)) (c : Conn) : Prop := BackOk nodes c ∧ Plain c

/-- A node as the factory makes them. -/
structure OkNode (nodes : List (NewNode D)) (n : NewNode D) : Prop where
  conns : ∀ c ∈ n.inputs, BackOk nodes c
  plain : (∀ w, n.layer ≠ .error w) → ∀ c ∈ n.inputs, Plain c
  conv : ∀ p d r l, n.layer = .conv p d r l → 0 < p.group ∧ p.group ∣ p.outputMaps
  error : ∀ w, n.layer = .error w → ∃ c, Plain c ∧ n.inputs = [c, ⟨0, 1, true⟩, ⟨0, 3, true⟩]

/-- All nodes are. -/
def Built (nodes : List (NewNode D)) : Prop := ∀ n ∈ nodes, OkNode nodes n

theorem BackOk.mono {nodes : List (NewNode D)} {c : Conn} (h : BackOk nodes c) (ms : List (NewNode D)) :
    BackOk (nodes ++ ms) c := by
  intro hb
  rcases h hb with h | ⟨j, m, h1, h2, h3⟩
  · exact Or.inl h
  · refine Or.inr ⟨j, m, h1, ?_, h3⟩
    rw [List.getElem?_append_left (List.getElem?_eq_some_iff.1 h2).1]
    exact h2

theorem OkConn.mono {nodes : List (NewNode D)} {c : Conn} (h : OkConn nodes c) (ms : List (NewNode D)) :
    OkConn (nodes ++ ms) c := ⟨h.1.mono ms, h.2⟩

theorem OkNode.mono {nodes : List (NewNode D)} {n : NewNode D} (h : OkNode nodes n) (ms : List (NewNode D)) :
    OkNode (nodes ++ ms) n := ⟨fun c hc => (h.conns c hc).mono ms, h.plain, h.conv, h.error⟩

theorem Built.add {nodes : List (NewNode D)} (h : Built nodes) {n : NewNode D} (hn : OkNode nodes n) :
    Built (nodes ++ [n]) := by
  intro m hm
  rcases List.mem_append.1 hm with hm | hm
  · exact (h m hm).mono _
  · rw [List.mem_singleton.1 hm]
    exact hn.mono _

/-- The invariant of `AddLayers`. -/
structure Inv (st : State D) : Prop where
  base : st.base = 1
  built : Built st.nodes
  last : OkConn st.nodes st.last
  stackA : ∀ c ∈ st.stackA, OkConn st.nodes c
  stackB : ∀ c ∈ st.stackB, OkConn st.nodes c

theorem Inv.add {st : State D} (h : Inv st) {n : NewNode D} (hn : OkNode st.nodes n) {bp : Bool}
    (hbp : bp = false → Hides n) : Inv (st.add n bp) where
  base := h.base
  built := h.built.add hn
  last := by
    refine ⟨fun hb => Or.inr ⟨st.nodes.length, n, ?_, ?_, hbp hb⟩, fun _ => Or.inl rfl⟩
    · show st.base + st.nodes.length = _
      rw [h.base, Nat.add_comm]
    · show (st.nodes ++ [n])[st.nodes.length]? = some n
      simp
  stackA := fun c hc => (h.stackA c hc).mono _
  stackB := fun c hc => (h.stackB c hc).mono _

/-- A layer of another kind that reads connections in good order. -/
theorem okNode_of {nodes : List (NewNode D)} {l : NetConfig.Layer D} {cs : List Conn} {o : Bool}
    (hc : ∀ c ∈ cs, OkConn nodes c) (h1 : ∀ p d r l', l ≠ .conv p d r l') (h2 : ∀ w, l ≠ .error w) :
    OkNode nodes ⟨l, cs, o⟩ :=
  ⟨fun c h => (hc c h).1, fun _ c h => (hc c h).2, fun p d r l' h => absurd h (h1 p d r l'), fun w h => absurd h (h2 w)⟩

theorem single_ok {nodes : List (NewNode D)} {c : Conn} (h : OkConn nodes c) : ∀ d ∈ [c], OkConn nodes d := by
  intro d hd
  rw [List.mem_singleton.1 hd]
  exact h

theorem convolutionLine_inv {conv : Config.Str → D} {zero one : D} {line : Config.Str} {st st' : State D} (hi : Inv st)
    (h : convolutionLine conv zero one line st = .done st') : Inv st' := by
  unfold convolutionLine at h
  obtain ⟨_, _, h⟩ := bind_eq_done h
  obtain ⟨_, _, h⟩ := bind_eq_done h
  obtain ⟨_, _, h⟩ := bind_eq_done h
  obtain ⟨_, _, h⟩ := bind_eq_done h
  obtain ⟨_, _, h⟩ := bind_eq_done h
  obtain ⟨_, _, h⟩ := bind_eq_done h
  obtain ⟨_, _, h⟩ := bind_eq_done h
  obtain ⟨p, hp, h⟩ := bind_eq_done h
  obtain rfl := Outcome.done.inj h
  have hi' : Inv { st with draws := st.draws + 1 } := ⟨hi.base, hi.built, hi.last, hi.stackA, hi.stackB⟩
  refine hi'.add ⟨fun c h => (single_ok hi.last c h).1, fun _ c h => (single_ok hi.last c h).2, ?_, by exact nofun⟩
    (by exact nofun)
  intro p' d r l e
  cases e
  unfold Convolution.construct at hp
  split at hp
  · cases hp
  split at hp
  · cases hp
  split at hp
  · cases hp
  split at hp
  · cases hp
  · cases hp
    exact ⟨by omega, Nat.dvd_of_mod_eq_zero (by omega)⟩

theorem lrnLine_inv {conv : Config.Str → D} {one : D} {line : Config.Str} {st st' : State D} (hi : Inv st)
    (h : lrnLine conv one line st = .done st') : Inv st' := by
  unfold lrnLine at h
  obtain ⟨_, _, h⟩ := bind_eq_done h
  obtain ⟨_, _, h⟩ := bind_eq_done h
  obtain ⟨_, _, h⟩ := bind_eq_done h
  obtain ⟨_, _, h⟩ := bind_eq_done h
  obtain ⟨_, _, h⟩ := bind_eq_done h
  obtain rfl := Outcome.done.inj h
  exact hi.add (okNode_of (single_ok hi.last) (by exact nofun) (by exact nofun)) (by exact nofun)

theorem poolingLine_inv {line : Config.Str} {st st' : State D} (hi : Inv st)
    (h : poolingLine line st = .done (some st')) : Inv st' := by
  unfold poolingLine at h
  split at h
  · obtain ⟨_, _, h⟩ := bind_eq_done h
    obtain rfl := Option.some.inj (Outcome.done.inj h)
    exact hi.add (okNode_of (single_ok hi.last) (by exact nofun) (by exact nofun)) (by exact nofun)
  split at h
  · obtain ⟨_, _, h⟩ := bind_eq_done h
    obtain rfl := Option.some.inj (Outcome.done.inj h)
    exact hi.add (okNode_of (single_ok hi.last) (by exact nofun) (by exact nofun)) fun _ => trivial
  split at h
  · obtain ⟨_, _, h⟩ := bind_eq_done h
    obtain ⟨_, _, h⟩ := bind_eq_done h
    obtain rfl := Option.some.inj (Outcome.done.inj h)
    exact hi.add (okNode_of (single_ok hi.last) (by exact nofun) (by exact nofun)) (by exact nofun)
  · cases Outcome.done.inj h

theorem activationLine_inv {conv : Config.Str → D} {zero one : D} {m : Method} {o : Bool} {line : Config.Str}
    {st st' : State D} (hi : Inv st) (h : activationLine conv zero one m o line st = .done (some st')) : Inv st' := by
  unfold activationLine at h
  simp only [] at h
  split at h
  · obtain rfl := Option.some.inj (Outcome.done.inj h)
    exact hi.add (okNode_of (single_ok hi.last) (by exact nofun) (by exact nofun)) (by exact nofun)
  split at h
  · obtain ⟨_, _, h⟩ := bind_eq_done h
    obtain ⟨_, _, h⟩ := bind_eq_done h
    obtain rfl := Option.some.inj (Outcome.done.inj h)
    exact hi.add (okNode_of (single_ok hi.last) (by exact nofun) (by exact nofun)) (by exact nofun)
  split at h
  · obtain rfl := Option.some.inj (Outcome.done.inj h)
    exact hi.add (okNode_of (single_ok hi.last) (by exact nofun) (by exact nofun)) (by exact nofun)
  split at h
  · obtain rfl := Option.some.inj (Outcome.done.inj h)
    exact hi.add (okNode_of (single_ok hi.last) (by exact nofun) (by exact nofun)) (by exact nofun)
  · cases Outcome.done.inj h

theorem Inv.upscaled {st : State D} (h : Inv st) (u : Bool) : Inv { st with upscaled := u } :=
  ⟨h.base, h.built, h.last, h.stackA, h.stackB⟩

theorem spatialLine_inv {f : Fields} {st : State D} (hi : Inv st) : Inv (spatialLine f ⟨0, 0, true⟩ st) := by
  have step : ∀ st' : State D, Inv st' →
      Inv (st'.add ⟨.concat, [st'.last, ⟨0, 2, false⟩], false⟩) := by
    intro st' h
    refine h.add (okNode_of ?_ (by exact nofun) (by exact nofun)) (by exact nofun)
    intro c hc
    rcases List.mem_cons.1 hc with rfl | hc
    · exact h.last
    · rw [List.mem_singleton.1 hc]
      exact ⟨fun _ => Or.inl rfl, fun _ => by decide⟩
  unfold spatialLine
  simp only []
  split
  · exact step _ (Inv.upscaled (st := st.add ⟨upscaleBy f, [st.last], false⟩) (hi.add (okNode_of (single_ok hi.last)
      (by exact nofun) (by exact nofun)) (by exact nofun)) true)
  · exact step _ hi

theorem namedStack_ok {line : Config.Str} {st : State D} (hi : Inv st) {s : List Conn}
    (h : namedStack line st = .done s) : ∀ c ∈ s, OkConn st.nodes c := by
  unfold namedStack at h
  obtain ⟨_, _, h⟩ := bind_eq_done h
  obtain rfl := Outcome.done.inj h
  split
  · exact hi.stackB
  · exact hi.stackA

theorem joinLine_inv {f : Fields} {o : Bool} {line : Config.Str} {st : State D} (hi : Inv st)
    {r : State D × Bool} (h : joinLine f ⟨0, 0, true⟩ o line st = .done r) : Inv r.1 := by
  unfold joinLine at h
  split at h
  · obtain rfl := Outcome.done.inj h
    exact spatialLine_inv hi
  split at h
  · obtain ⟨s, hs, h⟩ := bind_eq_done h
    obtain rfl := Outcome.done.inj h
    exact hi.add (okNode_of (namedStack_ok hi hs) (by exact nofun) (by exact nofun)) (by exact nofun)
  split at h
  · obtain ⟨s, hs, h⟩ := bind_eq_done h
    obtain rfl := Outcome.done.inj h
    exact hi.add (okNode_of (namedStack_ok hi hs) (by exact nofun) (by exact nofun)) (by exact nofun)
  split at h
  · obtain ⟨_, _, h⟩ := bind_eq_done h
    obtain ⟨_, _, h⟩ := bind_eq_done h
    obtain rfl := Outcome.done.inj h
    exact Inv.upscaled (st := st.add _) (hi.add (okNode_of (single_ok hi.last) (by exact nofun) (by exact nofun)) (by exact nofun)) true
  · obtain rfl := Outcome.done.inj h
    exact hi

theorem layerLine_inv {conv : Config.Str → D} {zero one : D} {f : Fields} {o : Bool} {line : Config.Str}
    {st : State D} (hi : Inv st) {r : State D × Bool}
    (h : layerLine conv zero one f ⟨0, 0, true⟩ o line st = .done r) : Inv r.1 := by
  unfold layerLine at h
  split at h
  · obtain ⟨st', h1, h⟩ := bind_eq_done h
    obtain rfl := Outcome.done.inj h
    exact convolutionLine_inv hi h1
  split at h
  · obtain ⟨st', h1, h⟩ := bind_eq_done h
    obtain rfl := Outcome.done.inj h
    exact lrnLine_inv hi h1
  obtain ⟨p, h1, h⟩ := bind_eq_done h
  cases p with
  | some st' =>
    obtain rfl := Outcome.done.inj h
    exact poolingLine_inv hi h1
  | none =>
    obtain ⟨a, h2, h⟩ := bind_eq_done h
    cases a with
    | some st' =>
      obtain rfl := Outcome.done.inj h
      exact activationLine_inv hi h2
    | none => exact joinLine_inv hi h

theorem stackLine_inv {line : Config.Str} {st st' : State D} (hi : Inv st) (h : stackLine line st = .done st') : Inv st' := by
  have hpush : ∀ {s s' : List Conn}, push st.last s = .done s' → (∀ c ∈ s, OkConn st.nodes c) →
      ∀ c ∈ s', OkConn st.nodes c := by
    intro s s' hp hs c hc
    unfold push at hp
    split at hp
    · obtain rfl := Outcome.done.inj hp
      rcases List.mem_cons.1 hc with rfl | hc
      · exact hi.last
      · exact hs c hc
    · cases hp
  have hpop : ∀ {s : List Conn} {r : Conn × List Conn}, pop s = .done r → (∀ c ∈ s, OkConn st.nodes c) →
      OkConn st.nodes r.1 ∧ ∀ c ∈ r.2, OkConn st.nodes c := by
    intro s r hp hs
    cases s with
    | nil => cases hp
    | cons c s =>
      obtain rfl := Outcome.done.inj hp
      exact ⟨hs _ (List.mem_cons_self ..), fun d hd => hs d (List.mem_cons_of_mem _ hd)⟩
  unfold stackLine at h
  split at h
  · obtain ⟨s, hs, h⟩ := bind_eq_done h
    obtain rfl := Outcome.done.inj h
    exact ⟨hi.base, hi.built, hi.last, hpush hs hi.stackA, hi.stackB⟩
  split at h
  · obtain ⟨s, hs, h⟩ := bind_eq_done h
    obtain rfl := Outcome.done.inj h
    exact ⟨hi.base, hi.built, hi.last, hi.stackA, hpush hs hi.stackB⟩
  split at h
  · obtain ⟨r, hs, h⟩ := bind_eq_done h
    obtain rfl := Outcome.done.inj h
    exact ⟨hi.base, hi.built, (hpop hs hi.stackA).1, (hpop hs hi.stackA).2, hi.stackB⟩
  split at h
  · obtain ⟨r, hs, h⟩ := bind_eq_done h
    obtain rfl := Outcome.done.inj h
    exact ⟨hi.base, hi.built, (hpop hs hi.stackB).1, hi.stackA, (hpop hs hi.stackB).2⟩
  · obtain rfl := Outcome.done.inj h
    exact hi

theorem scaleOutput_inv {f : Fields} {o : Bool} {st : State D} (hi : Inv st) : Inv (scaleOutput f o st) := by
  unfold scaleOutput
  split
  · exact hi.add (okNode_of (single_ok hi.last) (by exact nofun) (by exact nofun)) (by exact nofun)
  · exact hi

theorem addLoss_inv {loss o : Bool} {w : D} {st : State D} (hi : Inv st) :
    Inv (addLoss loss ⟨0, 0, true⟩ o w st) := by
  unfold addLoss
  split
  · refine ⟨hi.base, hi.built.add ⟨?_, fun h => absurd rfl (h _), by exact nofun,
      fun w' _ => ⟨_, fun _ => Or.inl rfl, rfl⟩⟩, hi.last.mono _, fun c hc => (hi.stackA c hc).mono _,
      fun c hc => (hi.stackB c hc).mono _⟩
    intro c hc
    simp only [List.mem_cons, List.not_mem_nil, or_false] at hc
    rcases hc with rfl | rfl | rfl
    · exact nofun
    · exact nofun
    · exact nofun
  · exact hi

theorem addLine_inv {conv : Config.Str → D} {zero one : D} {f : Fields} {classes : Nat} {loss : Bool} {line : Config.Str}
    {st st' : State D} (hi : Inv st) (h : addLine conv zero one f ⟨0, 0, true⟩ classes loss line st = .done st') :
    Inv st' := by
  unfold addLine at h
  split at h
  · obtain rfl := Outcome.done.inj h
    exact hi
  obtain ⟨line', h1, h⟩ := bind_eq_done h
  obtain ⟨o, h2, h⟩ := bind_eq_done h
  obtain ⟨st1, h3, h⟩ := bind_eq_done h
  have hi1 := stackLine_inv hi h3
  split at h
  · obtain ⟨r, h4, h⟩ := bind_eq_done h
    obtain rfl := Outcome.done.inj h
    exact addLoss_inv (scaleOutput_inv (layerLine_inv hi1 h4))
  · obtain rfl := Outcome.done.inj h
    exact hi1

theorem start_inv (f : Fields) : Inv (start (D := D) f ⟨0, 0, true⟩ 1) := by
  have h0 : Inv ({ base := 1, last := ⟨0, 0, true⟩, upscaled := f.factorx = 1 && f.factory = 1 } : State D) :=
    ⟨rfl, fun n hn => absurd hn List.not_mem_nil, ⟨nofun, fun _ => Or.inl rfl⟩, fun c hc => absurd hc List.not_mem_nil,
      fun c hc => absurd hc List.not_mem_nil⟩
  unfold start
  simp only []
  split
  · exact h0.add (okNode_of (single_ok h0.last) (by exact nofun) (by exact nofun)) fun _ => rfl
  · exact h0

/-- Whatever the description says, the nodes are built like this. -/
theorem addLayers_built {conv : Config.Str → D} {zero one : D} {f : Fields} {lines : List Config.Str} {classes : Nat} {loss : Bool}
    {st : State D} (h : addLayers conv zero one f lines ⟨0, 0, true⟩ 1 classes loss = .done st) :
    Built st.nodes := by
  have key : ∀ (ls : List Config.Str) (s s' : State D), Inv s →
      addLines conv zero one f ⟨0, 0, true⟩ classes loss ls s = .done s' → Inv s' := by
    intro ls
    induction ls with
    | nil =>
      intro s s' hs e
      obtain rfl := Outcome.done.inj e
      exact hs
    | cons l ls ih =>
      intro s s' hs e
      obtain ⟨s1, h1, h2⟩ := bind_eq_done e
      exact ih s1 s' (addLine_inv hs h1) h2
  exact (key lines _ st (start_inv f) h).built

/-! ### Sizes -/

/-- What is known after `Initialize`: every layer got its shapes from earlier layers. -/
theorem shapes_spec {ds : List Shape} : ∀ (nodes : List (NewNode D)) (known0 known : List (List Shape)),
    shapes 0 1 ds nodes known0 = .done known →
    known.length = known0.length + nodes.length ∧ known.take known0.length = known0 ∧
    ∀ k n, nodes[k]? = some n → ∃ ins outs, sources 0 1 ds (known.take (known0.length + k)) n.inputs = .done ins ∧
      n.layer.outputs ins = .done outs ∧ known[known0.length + k]? = some outs
  | [], known0, known, h => by
    obtain rfl := Outcome.done.inj h
    exact ⟨rfl, List.take_length, by simp⟩
  | n :: nodes, known0, known, h => by
    obtain ⟨ins, h1, h⟩ := bind_eq_done h
    obtain ⟨outs, h2, h⟩ := bind_eq_done h
    obtain ⟨a, b, c⟩ := shapes_spec nodes _ _ h
    rw [List.length_append, List.length_singleton] at a b
    have b0 : known.take known0.length = known0 := by
      have := congrArg (List.take known0.length) b
      rw [List.take_take, List.take_left, Nat.min_eq_left (by omega)] at this
      exact this
    refine ⟨by rw [a, List.length_cons]; omega, b0, ?_⟩
    intro k m hk
    cases k with
    | zero =>
      obtain rfl : n = m := by simpa using hk
      refine ⟨ins, outs, by rw [Nat.add_zero, b0]; exact h1, h2, ?_⟩
      have : (known.take (known0.length + 1))[known0.length]? = some outs := by rw [b]; simp
      rw [List.getElem?_take_of_lt (by omega)] at this
      rw [Nat.add_zero]
      exact this
    | succ k =>
      have := c k m (by simpa using hk)
      rw [List.length_append, List.length_singleton] at this
      obtain ⟨i', o', e1, e2, e3⟩ := this
      refine ⟨i', o', ?_, e2, ?_⟩
      · rw [← e1]; congr 2; omega
      · rw [← e3]; congr 1; omega

/-- The connections lead to tensors that exist, and to earlier nodes. -/
theorem sources_spec {ds : List Shape} {known : List (List Shape)} {k : Nat} :
    ∀ (cs : List Conn) (ins : List Shape), sources 0 1 ds (known.take k) cs = .done ins →
    ins = cs.map (shapeAt ds known) ∧ ∀ c ∈ cs,
      (c.node = 0 ∧ c.buffer < ds.length) ∨
      ∃ j o, c.node = j + 1 ∧ j < k ∧ known[j]? = some o ∧ c.buffer < o.length
  | [], ins, h => by
    obtain rfl := Outcome.done.inj h
    exact ⟨rfl, fun c hc => absurd hc List.not_mem_nil⟩
  | c :: cs, ins, h => by
    obtain ⟨a, h1, h⟩ := bind_eq_done h
    obtain ⟨as, h2, h⟩ := bind_eq_done h
    obtain rfl := Outcome.done.inj h
    obtain ⟨e, hrest⟩ := sources_spec cs as h2
    have key : shapeAt ds known c = a ∧ ((c.node = 0 ∧ c.buffer < ds.length) ∨
        ∃ j o, c.node = j + 1 ∧ j < k ∧ known[j]? = some o ∧ c.buffer < o.length) := by
      unfold source at h1
      unfold shapeAt
      split at h1
      · rename_i h0
        rw [if_pos h0]
        have := Outcome.ofOption_eq_done.1 h1
        refine ⟨by rw [List.getD_eq_getElem?_getD, this]; rfl, Or.inl ⟨h0, (List.getElem?_eq_some_iff.1 this).1⟩⟩
      · rename_i h0
        rw [if_neg h0]
        split at h1
        · have := Outcome.ofOption_eq_done.1 h1
          obtain ⟨o, ho, hb⟩ := Option.bind_eq_some_iff.1 this
          rw [List.getElem?_take] at ho
          split at ho
          · rename_i hlt
            refine ⟨?_, Or.inr ⟨c.node - 1, o, by omega, hlt, ho, (List.getElem?_eq_some_iff.1 hb).1⟩⟩
            rw [List.getD_eq_getElem?_getD, List.getD_eq_getElem?_getD, ho, Option.getD_some, hb]
            rfl
          · cases ho
        · cases h1
    refine ⟨by rw [List.map_cons, e, key.1], ?_⟩
    intro d hd
    rcases List.mem_cons.1 hd with rfl | hd
    · exact key.2
    · exact hrest d hd

/-- Layers have one output; error layers have none. -/
theorem outputs_length {l : NetConfig.Layer D} {ins outs : List Shape} (h : l.outputs ins = .done outs) :
    ∀ cs o, outs.length = (nodeOf ⟨l, cs, o⟩).buffers := by
  intro cs o
  cases l with
  | concat =>
    rcases ins with _ | ⟨a, _ | ⟨b, _ | ⟨c, t⟩⟩⟩
    · cases h
    · cases h
    · simp only [Layer.outputs] at h
      split at h
      · cases h
      · split at h
        · obtain rfl := Outcome.done.inj h; rfl
        · cases h
    · cases h
  | sum =>
    rcases ins with _ | ⟨a, _ | ⟨b, _ | ⟨c, t⟩⟩⟩
    · cases h
    · cases h
    · simp only [Layer.outputs] at h
      split at h
      · cases h
      · obtain ⟨r, -, h⟩ := bind_eq_done h
        split at h
        · obtain rfl := Outcome.done.inj h; rfl
        · cases h
    · cases h
  | error w =>
    rcases ins with _ | ⟨a, _ | ⟨b, _ | ⟨c, _ | ⟨d, t⟩⟩⟩⟩
    · cases h
    · cases h
    · cases h
    · simp only [Layer.outputs] at h
      split at h
      · obtain rfl := Outcome.done.inj h; rfl
      · cases h
    · cases h
  | conv =>
    rcases ins with _ | ⟨a, _ | ⟨b, t⟩⟩
    · cases h
    · obtain ⟨r, -, h⟩ := bind_eq_done h
      cases r with
      | none => cases h
      | some r => obtain rfl := Outcome.done.inj h; rfl
    · cases h
  | maxPool =>
    rcases ins with _ | ⟨a, _ | ⟨b, t⟩⟩
    · cases h
    · obtain ⟨r, -, h⟩ := bind_eq_done h
      cases r with
      | none => cases h
      | some r => obtain rfl := Outcome.done.inj h; rfl
    · cases h
  | downSample =>
    rcases ins with _ | ⟨a, _ | ⟨b, t⟩⟩
    · cases h
    · obtain ⟨r, -, h⟩ := bind_eq_done h
      cases r with
      | none => cases h
      | some r => obtain rfl := Outcome.done.inj h; rfl
    · cases h
  | advMaxPool =>
    rcases ins with _ | ⟨a, _ | ⟨b, t⟩⟩
    · cases h
    · obtain ⟨r, -, h⟩ := bind_eq_done h
      cases r with
      | none => cases h
      | some r =>
        dsimp only at h
        split at h
        · cases h
        · obtain rfl := Outcome.done.inj h; rfl
    · cases h
  | _ =>
    rcases ins with _ | ⟨a, _ | ⟨b, t⟩⟩
    · cases h
    · obtain rfl := Outcome.done.inj h; rfl
    · cases h

/-- The facts about a described network that the sizes give. -/
structure Sound (ds : List Shape) (nodes : List (NewNode D)) (known : List (List Shape)) : Prop where
  four : ds.length = 4
  length : known.length = nodes.length
  ins : ∀ {k : Nat} {n : NewNode D}, nodes[k]? = some n → n.layer.outputs (n.inputs.map (shapeAt ds known)) = .done (known.getD k [])
  conns : ∀ {k : Nat} {n : NewNode D}, nodes[k]? = some n → ∀ c ∈ n.inputs, (c.node = 0 ∧ c.buffer < 4) ∨
    ∃ j m, c.node = j + 1 ∧ j < k ∧ nodes[j]? = some m ∧ c.buffer < (nodeOf m).buffers

theorem sound_of {ds : List Shape} {nodes : List (NewNode D)} {known : List (List Shape)} (h4 : ds.length = 4)
    (h : shapes 0 1 ds nodes [] = .done known) : Sound ds nodes known := by
  obtain ⟨a, -, c⟩ := shapes_spec nodes [] known h
  simp only [List.length_nil, Nat.zero_add] at a c
  refine ⟨h4, a, ?_, ?_⟩
  · intro k n hk
    obtain ⟨ins, outs, e1, e2, e3⟩ := c k n hk
    obtain ⟨rfl, -⟩ := sources_spec _ _ e1
    rw [List.getD_eq_getElem?_getD, e3]
    exact e2
  · intro k n hk x hx
    obtain ⟨ins, outs, e1, -, -⟩ := c k n hk
    rcases (sources_spec _ _ e1).2 x hx with h | ⟨j, o, h1, h2, h3, h4⟩
    · rw [h4] at h
      exact Or.inl h
    · right
      have hj : j < nodes.length := by
        rw [← a]; exact (List.getElem?_eq_some_iff.1 h3).1
      refine ⟨j, nodes[j], h1, h2, List.getElem?_eq_getElem hj, ?_⟩
      obtain ⟨ins', outs', f1, f2, f3⟩ := c j nodes[j] (List.getElem?_eq_getElem hj)
      rw [f3] at h3
      obtain rfl := Option.some.inj h3
      rw [outputs_length f2 nodes[j].inputs nodes[j].isOutput] at h4
      exact h4

end build

/-! ### The graph -/

section graph
variable {D : Type _} {ds : List Shape} {nodes : List (NewNode D)} {known : List (List Shape)}

theorem heap_succ {k : Nat} {n : NewNode D} (h : nodes[k]? = some n) : (netOf nodes).heap (k + 1) = nodeOf n := by
  show (match nodes[k]? with
    | some n => nodeOf n
    | none => {}) = _
  rw [h]

theorem heap_zero : (netOf nodes).heap 0 = { isInput := true, buffers := 4 } := rfl

theorem mem_order {k : Nat} : k ∈ order nodes ↔ k < nodes.length + 1 := List.mem_range

/-- A node is the data layer or a layer of the description. -/
theorem node_cases {k : Nat} (h : k ∈ order nodes) : k = 0 ∨ ∃ j n, k = j + 1 ∧ nodes[j]? = some n := by
  rw [mem_order] at h
  cases k with
  | zero => exact Or.inl rfl
  | succ j => exact Or.inr ⟨j, nodes[j], rfl, List.getElem?_eq_getElem (by omega)⟩

theorem succ_mem {j : Nat} {n : NewNode D} (h : nodes[j]? = some n) : j + 1 ∈ order nodes := by
  rw [mem_order]
  have := (List.getElem?_eq_some_iff.1 h).1
  omega

theorem isInput_iff (k : Nat) : ((netOf nodes).heap k).isInput = true ↔ k = 0 := by
  cases k with
  | zero => simp [netOf]
  | succ j =>
    show ((match nodes[j]? with
      | some n => nodeOf n
      | none => ({} : Net.Node)).isInput = true) ↔ _
    cases nodes[j]? <;> simp [nodeOf]

theorem wired (h : Sound ds nodes known) : Wired (netOf nodes) (order nodes) where
  start := by
    refine ⟨rfl, ?_⟩
    intro k
    cases k with
    | zero => rfl
    | succ j =>
      show (match nodes[j]? with
        | some n => nodeOf n
        | none => ({} : Net.Node)).bps = []
      cases nodes[j]? <;> rfl
  nodup := List.nodup_range
  old := fun k hk => mem_order.1 hk
  noGA := by
    intro k hk
    rcases node_cases hk with rfl | ⟨j, n, rfl, hn⟩
    · rfl
    · rw [heap_succ hn]; rfl
  conn := by
    intro k hk c hc
    rcases node_cases hk with rfl | ⟨j, n, rfl, hn⟩
    · exact absurd hc List.not_mem_nil
    · rw [heap_succ hn] at hc
      rcases h.conns hn c hc with ⟨h0, -⟩ | ⟨i, m, e, -, hm, -⟩
      · rw [h0, mem_order]; omega
      · rw [e]; exact succ_mem hm
  single := by
    intro k hk c hc _ hin
    rcases node_cases hk with rfl | ⟨j, n, rfl, hn⟩
    · exact absurd hc List.not_mem_nil
    · rw [heap_succ hn] at hc
      rcases h.conns hn c hc with ⟨h0, -⟩ | ⟨i, m, e, -, hm, hb⟩
      · rw [h0] at hin
        cases hin
      · have : (nodeOf m).buffers ≤ 1 := by
          unfold nodeOf
          dsimp only
          split <;> omega
        omega

/-- The connections of a node after `AddNode`. -/
theorem inputs_eq (h : Sound ds nodes known) {k : Nat} {n : NewNode D} (hn : nodes[k]? = some n) :
    ((graphOf nodes).heap (k + 1)).inputs = n.inputs.map fun c => { c with backprop := carries c } := by
  have hw := wired h
  obtain ⟨-, -, -, -, e⟩ := addNodes_spec (order nodes) (netOf nodes)
    (by intro s r b; rw [hw.start.1, hw.start.2]; simp)
    (by intro r hr; rw [hw.start.1] at hr; simp at hr)
    (by rw [hw.start.1]; simpa using hw.nodup)
  have := (e (k + 1)).2.2.2.2
  rw [if_pos (succ_mem hn), heap_succ hn] at this
  show ((addNodes (netOf nodes) (order nodes)).heap (k + 1)).inputs = _
  rw [this]
  refine List.map_congr_left fun c _ => ?_
  unfold carries
  by_cases hb : c.backprop = true
  · by_cases h0 : c.node = 0
    · have : ((netOf nodes).heap c.node).isInput = true := (isInput_iff _).2 h0
      rw [hb, this]
      simp [h0]
    · have : ((netOf nodes).heap c.node).isInput = false := by
        rw [Bool.eq_false_iff]
        exact fun hh => h0 ((isInput_iff _).1 hh)
      rw [hb, this]
      simp only [Bool.and_false, Bool.false_eq_true, if_false]
      have : (c.node != 0) = true := by simpa using h0
      rw [this]
      cases c
      simp_all
  · have hb' : c.backprop = false := by simpa using hb
    rw [hb']
    simp only [Bool.false_and, Bool.false_eq_true, if_false]
    cases c
    simp_all

theorem inputs_zero (h : Sound ds nodes known) : ((graphOf nodes).heap 0).inputs = [] := by
  have hw := wired h
  obtain ⟨-, -, -, -, e⟩ := addNodes_spec (order nodes) (netOf nodes)
    (by intro s r b; rw [hw.start.1, hw.start.2]; simp)
    (by intro r hr; rw [hw.start.1] at hr; simp at hr)
    (by rw [hw.start.1]; simpa using hw.nodup)
  have := (e 0).2.2.2.2
  rw [if_pos (mem_order.2 (by omega))] at this
  exact this

theorem graph_nodes (h : Sound ds nodes known) : (graphOf nodes).nodes = order nodes := (wired_inv (wired h)).2.1

theorem acyclic (h : Sound ds nodes known) : Acyclic (graphOf nodes) := by
  have hlt : ∀ a b, Reads (graphOf nodes) a b → b < a := by
    rintro a b ⟨ha, c, hc, rfl⟩
    rw [graph_nodes h] at ha
    rcases node_cases ha with rfl | ⟨j, n, rfl, hn⟩
    · rw [inputs_zero h] at hc
      cases hc
    · rw [inputs_eq h hn] at hc
      obtain ⟨c', hc', rfl⟩ := List.mem_map.1 hc
      rcases h.conns hn c' hc' with ⟨h0, -⟩ | ⟨i, m, e, hi, -, -⟩
      · show c'.node < _
        omega
      · show c'.node < _
        omega
  intro n hn
  have : ∀ a b, Relation.TransGen (Reads (graphOf nodes)) a b → b < a := by
    intro a b h
    induction h with
    | single h => exact hlt _ _ h
    | tail _ h ih => exact Nat.lt_trans (hlt _ _ h) ih
  exact Nat.lt_irrefl _ (this n n hn)

theorem inputData_fed (h : Sound ds nodes known) {k : Nat} {n : NewNode D} (hn : nodes[k]? = some n)
    (y : Nat → Nat → Vec) : inputData (graphOf nodes) y (k + 1) = fed n y := by
  funext j
  unfold inputData fed
  rw [inputs_eq h hn, List.getElem?_map]
  cases n.inputs[j]? <;> rfl

theorem inputShapes_eq (h : Sound ds nodes known) {k : Nat} {n : NewNode D} (hn : nodes[k]? = some n)
    (sz : Nat → Nat → Nat) : inputShapes (graphOf nodes) sz (k + 1) =
      n.inputs.map fun c => (sz c.node c.buffer, carries c) := by
  unfold inputShapes
  rw [inputs_eq h hn, List.map_map]
  rfl

end graph

/-! ### The layers -/

theorem exactAt_out {L : LayerSem} {psz : Nat} {ins : List (Nat × Bool)} {nb : Nat} {out out' : Nat → Nat} {p : Vec}
    {x : Nat → Vec} (h : ExactAt L psz ins nb out p x) (he : ∀ b < nb, out' b = out b) :
    ExactAt L psz ins nb out' p x := by
  intro P P' X X' a b c d e
  obtain ⟨Y', l', h1, h2, h3⟩ := h P P' X X' a b c d e
  refine ⟨Y', l', fun b hb i hi => h1 b hb i (by rw [← he b hb]; exact hi), h2, ?_⟩
  intro d
  obtain ⟨r, h4, h5⟩ := h3 d
  refine ⟨r, h4, ?_⟩
  rw [← h5]
  congr 1
  exact Finset.sum_congr rfl fun b hb => by rw [he b (Finset.mem_range.1 hb)]

theorem conv_connected {p : Convolution.Params} {a : Shape} {r : Nat × Nat} {dropout : ℝ}
    (hg : 0 < p.group ∧ p.group ∣ p.outputMaps)
    (h : Convolution.initialise p a.width a.height a.maps = .done (some r)) :
    (convolution p dropout a ⟨a.samples, r.1, r.2, p.outputMaps⟩).Connected := by
  unfold Convolution.initialise at h
  obtain ⟨o, h1, h2⟩ := bind_eq_done h
  cases o with
  | none => cases h2
  | some q =>
    dsimp only at h2
    split at h2
    · obtain rfl := Option.some.inj (Outcome.done.inj h2)
      unfold Convolution.createOutputs at h1
      split at h1
      · cases h1
      · dsimp only at h1
        split at h1
        · cases h1
        · split at h1
          · cases h1
          · split at h1
            · cases h1
            · have e := Option.some.inj (Outcome.done.inj h1)
              cases e
              refine Props.connect_connected _ _ _ _ _ _ _ _ hg.1 (Nat.dvd_of_mod_eq_zero (by omega)) hg.2
                (by omega) ?_ ?_
              · exact Int.toNat_of_nonneg (by omega)
              · exact Int.toNat_of_nonneg (by omega)
    · cases h2

theorem fill_elements (s w h m : Nat) (v : ℝ) : (Tensor.fill s w h m v).elements = (⟨s, w, h, m⟩ : Shape).elements := by
  show s * m * w * h = s * m * h * w
  ring

/-- Every layer of a described network back-propagates exactly where it is regular. -/
theorem layer_exact (lowest : ℝ) {l : NetConfig.Layer ℝ} {ins outs : List Shape} (h : l.outputs ins = .done outs)
    (hconv : ∀ p d r ll, l = .conv p d r ll → 0 < p.group ∧ p.group ∣ p.outputMaps) {flags : List Bool}
    (hlen : flags.length = ins.length) {x : Nat → Vec} (hreg : Regular lowest l ins outs (flags.any id) x)
    (hdown : ¬ IsDown l) (herr : IsError l → Comparable ins ∧ ∃ b, flags = [b, false, false]) (p : Vec) :
    ExactAt (layerSem lowest l ins outs) (paramCount l ins outs)
      (List.zipWith (fun (s : Shape) f => (s.elements, f)) ins flags) (nodeOf ⟨l, [], false⟩).buffers
      (fun b => (outs.getD b ⟨0, 0, 0, 0⟩).elements) p x := by
  cases l with
  | concat =>
    rcases ins with _ | ⟨a, _ | ⟨b, _ | ⟨c, t⟩⟩⟩
    · cases h
    · cases h
    · obtain ⟨f, g, rfl⟩ : ∃ f g, flags = [f, g] := by
        rcases flags with _ | ⟨f, _ | ⟨g, _ | ⟨c, t⟩⟩⟩ <;> simp_all
      simp only [Layer.outputs] at h
      split at h
      · cases h
      · rename_i o ho
        split at h
        · obtain rfl := Outcome.done.inj h
          unfold Layers.concatCreate at ho
          split at ho
          · cases ho
          · rename_i hs
            obtain rfl := Option.some.inj ho
            obtain ⟨hw, hh⟩ := hreg
            have hb : b = ⟨a.samples, a.width, a.height, b.maps⟩ := by
              cases b; simp_all
            have e := C65_concat a.samples a.width a.height a.maps b.maps f g p x
            rw [hb] at *
            exact exactAt_out e (by intro b hb; obtain rfl : b = 0 := Nat.lt_one_iff.1 hb; rfl)
        · cases h
    · cases h
  | sum =>
    rcases ins with _ | ⟨a, _ | ⟨b, _ | ⟨c, t⟩⟩⟩
    · cases h
    · cases h
    · obtain ⟨f, g, rfl⟩ : ∃ f g, flags = [f, g] := by
        rcases flags with _ | ⟨f, _ | ⟨g, _ | ⟨c, t⟩⟩⟩ <;> simp_all
      obtain rfl : b = a := hreg
      simp only [Layer.outputs] at h
      split at h
      · cases h
      · rename_i o ho
        obtain ⟨r, -, h⟩ := bind_eq_done h
        split at h
        · obtain rfl := Outcome.done.inj h
          unfold Layers.sumCreate at ho
          rw [if_neg (fun hh => hh rfl), if_neg (fun hh => hh rfl)] at ho
          obtain rfl := Option.some.inj ho
          exact exactAt_out (C65_sum b f g p x) (by intro b hb; obtain rfl : b = 0 := Nat.lt_one_iff.1 hb; rfl)
        · cases h
    · cases h
  | error w =>
    obtain ⟨hc, f, rfl⟩ := herr trivial
    rcases ins with _ | ⟨a, _ | ⟨b, _ | ⟨c, _ | ⟨d, t⟩⟩⟩⟩
    · cases h
    · cases h
    · cases h
    · obtain ⟨rfl, hw⟩ := hc
      exact C65_error w b c hw f _ p x
    · cases h
  | conv q dr dropout llr =>
    rcases ins with _ | ⟨a, _ | ⟨b, t⟩⟩
    · cases h
    · obtain ⟨f, rfl⟩ : ∃ f, flags = [f] := by
        rcases flags with _ | ⟨f, _ | ⟨g, t⟩⟩ <;> simp_all
      obtain ⟨r, hi, h⟩ := bind_eq_done h
      cases r with
      | none => cases h
      | some r =>
        obtain rfl := Outcome.done.inj h
        have hcon := conv_connected (dropout := dropout) (hconv q dr dropout llr rfl) hi
        obtain ⟨hd, hp⟩ := hreg
        have e := C65_convolution _ hcon hd f (by
          rintro rfl
          obtain ⟨h1, h2, h3⟩ := hp rfl
          exact columnTestAgrees_of_unpadded _ hcon h1 h2 h3) p x
        have e1 : (convolution q dropout a ⟨a.samples, r.1, r.2, q.outputMaps⟩).input.elements = a.elements :=
          fill_elements ..
        rw [e1] at e
        exact exactAt_out e (by
          intro b hb
          obtain rfl : b = 0 := Nat.lt_one_iff.1 hb
          exact (fill_elements ..).symm)
    · cases h
  | maxPool kx ky =>
    rcases ins with _ | ⟨a, _ | ⟨b, t⟩⟩
    · cases h
    · obtain ⟨f, rfl⟩ : ∃ f, flags = [f] := by
        rcases flags with _ | ⟨f, _ | ⟨g, t⟩⟩ <;> simp_all
      obtain ⟨r, hi, h⟩ := bind_eq_done h
      cases r with
      | none => cases h
      | some r =>
        obtain rfl := Outcome.done.inj h
        obtain ⟨h1, h2, h3, h4⟩ := hreg
        unfold Pooling.createOutputs at hi
        split at hi
        · cases hi
        split at hi
        · cases hi
        split at hi
        · cases hi
        split at hi
        · cases hi
        have e := Option.some.inj (Outcome.done.inj hi)
        cases e
        refine exactAt_out (C65_max_pooling lowest kx ky (a.width / kx) (a.height / ky) a (by omega) (by omega)
          (Nat.div_mul_cancel (Nat.dvd_of_mod_eq_zero (by omega))).symm
          (Nat.div_mul_cancel (Nat.dvd_of_mod_eq_zero (by omega))).symm ⟨h1, h2⟩ f p x h3 h4) ?_
        intro b hb
        obtain rfl : b = 0 := Nat.lt_one_iff.1 hb
        rfl
    · cases h
  | downSample => exact absurd trivial hdown
  | hmax =>
    rcases ins with _ | ⟨a, _ | ⟨b, t⟩⟩
    · cases h
    · exact hreg.elim
    · cases h
  | advMaxPool kx ky sx sy =>
    rcases ins with _ | ⟨a, _ | ⟨b, t⟩⟩
    · cases h
    · obtain ⟨f, rfl⟩ : ∃ f, flags = [f] := by
        rcases flags with _ | ⟨f, _ | ⟨g, t⟩⟩ <;> simp_all
      obtain ⟨r, hi, h⟩ := bind_eq_done h
      cases r with
      | none => cases h
      | some r =>
        dsimp only at h
        split at h
        · cases h
        · obtain rfl := Outcome.done.inj h
          obtain ⟨h1, h2, h3, h4, h5, h6⟩ := hreg
          unfold Pooling.advCreateOutputs at hi
          split at hi
          · cases hi
          · refine exactAt_out (C65_strided_pooling lowest kx ky sx sy r.1.toNat r.2.toNat a h1 h2 (by omega) (by omega)
              h3 h4 f p x h5 h6) ?_
            intro b hb
            obtain rfl : b = 0 := Nat.lt_one_iff.1 hb
            rfl
    · cases h
  | resize bx by' =>
    rcases ins with _ | ⟨a, _ | ⟨b, t⟩⟩
    · cases h
    · obtain ⟨f, rfl⟩ : ∃ f, flags = [f] := by
        rcases flags with _ | ⟨f, _ | ⟨g, t⟩⟩ <;> simp_all
      obtain rfl := Outcome.done.inj h
      exact exactAt_out (C65_resize bx by' a f p x) (by intro b hb; obtain rfl : b = 0 := Nat.lt_one_iff.1 hb; rfl)
    · cases h
  | lrn size alpha beta across =>
    rcases ins with _ | ⟨a, _ | ⟨b, t⟩⟩
    · cases h
    · obtain ⟨f, rfl⟩ : ∃ f, flags = [f] := by
        rcases flags with _ | ⟨f, _ | ⟨g, t⟩⟩ <;> simp_all
      obtain rfl := Outcome.done.inj h
      obtain ⟨h1, h2, h3⟩ := hreg
      exact exactAt_out (C65_lrn ⟨size, alpha, beta, if across then .acrossChannels else .withinChannels⟩ a h1 h2 h3
        f p x) (by intro b hb; obtain rfl : b = 0 := Nat.lt_one_iff.1 hb; rfl)
    · cases h
  | sigmoid =>
    rcases ins with _ | ⟨a, _ | ⟨b, t⟩⟩
    · cases h
    · obtain ⟨f, rfl⟩ : ∃ f, flags = [f] := by
        rcases flags with _ | ⟨f, _ | ⟨g, t⟩⟩ <;> simp_all
      obtain rfl := Outcome.done.inj h
      exact exactAt_out (C65_sigmoid a f p x) (by intro b hb; obtain rfl : b = 0 := Nat.lt_one_iff.1 hb; rfl)
    · cases h
  | relu =>
    rcases ins with _ | ⟨a, _ | ⟨b, t⟩⟩
    · cases h
    · obtain ⟨f, rfl⟩ : ∃ f, flags = [f] := by
        rcases flags with _ | ⟨f, _ | ⟨g, t⟩⟩ <;> simp_all
      obtain rfl := Outcome.done.inj h
      exact exactAt_out (C65_relu a f p x hreg) (by intro b hb; obtain rfl : b = 0 := Nat.lt_one_iff.1 hb; rfl)
    · cases h
  | tanh =>
    rcases ins with _ | ⟨a, _ | ⟨b, t⟩⟩
    · cases h
    · obtain ⟨f, rfl⟩ : ∃ f, flags = [f] := by
        rcases flags with _ | ⟨f, _ | ⟨g, t⟩⟩ <;> simp_all
      obtain rfl := Outcome.done.inj h
      exact exactAt_out (C65_tanh a f p x) (by intro b hb; obtain rfl : b = 0 := Nat.lt_one_iff.1 hb; rfl)
    · cases h
  | upscale fx fy =>
    rcases ins with _ | ⟨a, _ | ⟨b, t⟩⟩
    · cases h
    · obtain ⟨f, rfl⟩ : ∃ f, flags = [f] := by
        rcases flags with _ | ⟨f, _ | ⟨g, t⟩⟩ <;> simp_all
      obtain rfl := Outcome.done.inj h
      exact exactAt_out (C65_upscale fx fy a f p x) (by intro b hb; obtain rfl : b = 0 := Nat.lt_one_iff.1 hb; rfl)
    · cases h

end CN24.NetTrain
