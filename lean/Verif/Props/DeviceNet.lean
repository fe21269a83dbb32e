import Verif.Proof.DeviceNet
import Verif.Props.NetGraph

/-
Property theorems about networks in builds with OpenCL: C81 (every sequence of passes gives the tensors
the contents they get in a build without OpenCL).
-/

namespace CN24.DeviceNet
variable {V : Type _}

/-- A list of tensors: the ones a layer is connected to. -/
def Among (l : List Buf) (st : Nat) : Prop := ∃ b ∈ l, st = b.data.store ∨ st = b.delta.store

/-- The convolution layer's tensors are its own, and its calls of `TensorMath` use them as in the layer:
every product writes a part of its target, and those of all groups write all of it. -/
structure Convolution.WellFormed (size : Nat → Nat) (priv : Nat → Prop) (l : Convolution V) : Prop where
  distinct : [l.input.data.store, l.input.delta.store, l.output.data.store, l.output.delta.store,
    l.weights.data.store, l.weights.delta.store, l.bias.data.store, l.bias.delta.store, l.ones.store,
    l.columns.store, l.mixed.store, l.columnsBack.store, l.mixedBack.store].Nodup
  shared : ∀ st ∈ [l.input.data.store, l.input.delta.store, l.output.data.store, l.output.delta.store,
    l.weights.data.store, l.weights.delta.store, l.bias.data.store, l.bias.delta.store, l.ones.store,
    l.columns.store, l.mixed.store, l.columnsBack.store, l.mixedBack.store], ¬ priv st
  owners : l.output.data.shadow = false ∧ l.output.delta.shadow = false ∧ l.mixed.shadow = false ∧
    l.mixedBack.shadow = false
  columns : Uses size l.kColumns (· = l.input.data.store) (· = l.columns.store) ∧
    Covers size l.kColumns l.columns.store
  groups : ∀ k ∈ l.kGroups, Uses size k (fun st => st = l.weights.data.store ∨ st = l.columns.store)
    (· = l.mixed.store)
  groupsCover : ∀ i, i < size l.mixed.store → ∃ k ∈ l.kGroups, k.writes (l.mixed.store, i)
  bias : Uses size l.kBias
    (fun st => st = l.bias.data.store ∨ st = l.ones.store ∨ st = l.mixed.store) (· = l.mixed.store)
  unmix : Uses size l.kUnmix (· = l.mixed.store) (· = l.output.data.store) ∧
    Covers size l.kUnmix l.output.data.store
  mix : Uses size l.kMix (· = l.output.delta.store) (· = l.mixedBack.store) ∧
    Covers size l.kMix l.mixedBack.store
  groupsBack : ∀ k ∈ l.kGroupsBack,
    Uses size k.1 (fun st => st = l.weights.data.store ∨ st = l.mixedBack.store) (· = l.columnsBack.store) ∧
    Uses size k.2 (fun st => st = l.mixedBack.store ∨ st = l.columns.store) (· = l.weights.delta.store)
  groupsBackCover :
    (∀ i, i < size l.columnsBack.store → ∃ k ∈ l.kGroupsBack, k.1.writes (l.columnsBack.store, i)) ∧
    (∀ i, i < size l.weights.delta.store → ∃ k ∈ l.kGroupsBack, k.2.writes (l.weights.delta.store, i))
  biasBack : Uses size l.kBiasBack (fun st => st = l.mixedBack.store ∨ st = l.ones.store)
    (· = l.bias.delta.store) ∧ Covers size l.kBiasBack l.bias.delta.store
  image : Uses size l.kImage (· = l.columnsBack.store) (· = l.input.delta.store) ∧
    Covers size l.kImage l.input.delta.store

/-- What the layers are like: which tensors their code uses, that tensors which are moved without their
data are written completely, and that outputs are not inputs.  `priv` are tensors that no layer moves to
the device: they belong to code of the host, or are the second output of the input layer. -/
def WellFormed (size : Nat → Nat) (priv : Nat → Prop) : Step V → Prop
  | .actForward i o k => Uses size k (· = i.data.store) (· = o.data.store) ∧
      ¬ priv i.data.store ∧ ¬ priv o.data.store
  | .actBackward i o k => Uses size k (fun st => st = o.data.store ∨ st = o.delta.store) (· = i.delta.store) ∧
      ¬ priv i.delta.store ∧ ¬ priv o.data.store ∧ ¬ priv o.delta.store
  | .poolForward i o mask k =>
      Uses size k (· = i.data.store) (fun st => st = o.data.store ∨ st = mask.store) ∧
      Covers size k o.data.store ∧ Covers size k mask.store ∧
      i.data.store ≠ o.data.store ∧ i.data.store ≠ mask.store ∧
      ¬ priv i.data.store ∧ ¬ priv o.data.store ∧ ¬ priv mask.store
  | .poolBackward i o mask k =>
      Uses size k (fun st => st = o.delta.store ∨ st = mask.store) (· = i.delta.store) ∧
      Covers size k i.delta.store ∧ i.delta.store ≠ o.delta.store ∧ i.delta.store ≠ mask.store ∧
      ¬ priv i.delta.store ∧ ¬ priv o.delta.store ∧ ¬ priv mask.store
  | .resizeForward i o k => Uses size k (· = i.data.store) (· = o.data.store) ∧
      Covers size k o.data.store ∧ i.data.store ≠ o.data.store
  | .resizeBackward _ i o k => Uses size k (· = o.delta.store) (· = i.delta.store) ∧
      Covers size k i.delta.store ∧ i.delta.store ≠ o.delta.store
  | .upForward i o k => Uses size k (· = i.data.store) (· = o.data.store) ∧
      Covers size k o.data.store ∧ i.data.store ≠ o.data.store ∧ o.data.shadow = false ∧
      ¬ priv i.data.store ∧ ¬ priv o.data.store
  | .upBackward i o k => Uses size k (· = o.delta.store) (· = i.delta.store) ∧
      Covers size k i.delta.store ∧ i.delta.store ≠ o.delta.store ∧ i.delta.shadow = false ∧
      o.delta.shadow = false ∧ ¬ priv i.delta.store ∧ ¬ priv o.delta.store
  | .downForward i o k => Uses size k (· = i.data.store) (· = o.data.store)
  | .convForward l => l.WellFormed size priv
  | .convBackward _ l => l.WellFormed size priv
  | .datasetForward data label helper weight k =>
      Uses size k priv (fun st => st = data.data.store ∨ st = label.data.store ∨ st = helper.data.store ∨
        st = weight.data.store ∨ priv st) ∧
      Covers size k data.data.store ∧ Covers size k label.data.store ∧ Covers size k weight.data.store ∧
      ¬ priv data.data.store ∧ ¬ priv label.data.store ∧ ¬ priv weight.data.store ∧ priv helper.data.store
  | .other ins outs k => Uses size k (fun st => Among (ins ++ outs) st ∨ priv st)
      (fun st => Among (ins ++ outs) st ∨ priv st)
  | .use os k => Uses size k (fun st => (∃ o ∈ os, st = o.store) ∨ priv st)
      (fun st => (∃ o ∈ os, st = o.store) ∨ priv st)
  | .replace o k => Uses size k priv (· = o.store) ∧ Covers size k o.store ∧ ¬ priv o.store
  | .loss k => Uses size k (fun _ => True) priv

/-- The tensors whose contents the step takes from the memory of the host without having moved them: a
shadow that is scaled up, and what a loss function reads. -/
def Needs (priv : Nat → Prop) : Step V → Nat → Prop
  | .upForward i _ _, st => i.data.shadow = true ∧ st = i.data.store
  | .loss k, st => (∃ c, k.reads c ∧ c.1 = st) ∧ ¬ priv st
  | _, _ => False

/-- The tensors a step may write on the device. -/
def WritesOnDevice : Step V → Nat → Prop
  | .actForward _ o _, st => st = o.data.store
  | .actBackward i _ _, st => st = i.delta.store
  | .poolForward _ o mask _, st => st = o.data.store ∨ st = mask.store
  | .poolBackward i _ _ _, st => st = i.delta.store
  | .upForward _ o _, st => st = o.data.store
  | .upBackward i _ _, st => st = i.delta.store
  | .convForward l, st => st = l.columns.store ∨ st = l.mixed.store ∨ st = l.output.data.store
  | .convBackward _ l, st => st = l.mixedBack.store ∨ st = l.columnsBack.store ∨
      st = l.weights.delta.store ∨ st = l.bias.delta.store ∨ st = l.input.delta.store
  | _, _ => False

/-- The tensors a step brings to the host. -/
def Brings : Step V → Nat → Prop
  | .resizeForward i o _, st => st = i.data.store ∨ st = o.data.store
  | .resizeBackward backprop i o _, st => backprop = true ∧ (st = i.delta.store ∨ st = o.delta.store)
  | .downForward i o _, st => Among [i, o] st
  | .datasetForward data label _ weight _, st =>
      st = data.data.store ∨ st = label.data.store ∨ st = weight.data.store
  | .other ins outs _, st => Among (ins ++ outs) st
  | .use os _, st => ∃ o ∈ os, st = o.store
  | .replace o _, st => st = o.store
  | _, _ => False

/-- Whatever is taken from the host without a move was brought there by an earlier step, and was not
written on the device since. -/
def Ordered (priv : Nat → Prop) (l : List (Step V)) : Prop :=
  ∀ pre x post, l = pre ++ x :: post → ∀ st, Needs priv x st →
    ∃ a y b, pre = a ++ y :: b ∧ Brings y st ∧ ∀ z ∈ b, ¬ WritesOnDevice z st

section
variable {size : Nat → Nat} {priv F : Nat → Prop} {s : State V} {m : Mem V}

theorem gpu_prepare_list : ∀ (l : List Buf) (s : State V) (st : Nat),
    (Among l st ∨ s.gpu st = false) →
    (l.foldl (fun s b => toHost b.delta false (toHost b.data false s)) s).gpu st = false := by
  intro l
  induction l with
  | nil => rintro s st (⟨b, hb, -⟩ | h) <;> simp_all
  | cons b l ih =>
    intro s st h
    refine ih _ st ?_
    rcases h with ⟨b', hb, he⟩ | h
    · rcases List.mem_cons.1 hb with rfl | hb
      · right
        rw [gpu_toHost, gpu_toHost]
        rcases he with rfl | rfl
        · simp
        · simp
      · exact .inl ⟨b', hb, he⟩
    · right
      rw [gpu_toHost, gpu_toHost, h]
      simp

theorem Inv.prepare_list {P : Cell → Prop} : ∀ (l : List Buf) (s : State V), Inv size priv F s m P →
    Inv size priv F (l.foldl (fun s b => DeviceNet.toHost b.delta false (DeviceNet.toHost b.data false s)) s)
      m P := by
  intro l
  induction l with
  | nil => exact fun _ h => h
  | cons b l ih => exact fun s h => ih _ ((h.toHost b.data).toHost b.delta)

theorem gpu_use_list : ∀ (l : List Obj) (s : State V) (st : Nat),
    ((∃ o ∈ l, st = o.store) ∨ s.gpu st = false) →
    (l.foldl (fun s o => toHost o false s) s).gpu st = false := by
  intro l
  induction l with
  | nil => rintro s st (⟨b, hb, -⟩ | h) <;> simp_all
  | cons b l ih =>
    intro s st h
    refine ih _ st ?_
    rcases h with ⟨b', hb, he⟩ | h
    · rcases List.mem_cons.1 hb with rfl | hb
      · right
        rw [gpu_toHost]
        simp [he]
      · exact .inl ⟨b', hb, he⟩
    · right
      rw [gpu_toHost, h]
      simp

theorem Inv.use_list {P : Cell → Prop} : ∀ (l : List Obj) (s : State V), Inv size priv F s m P →
    Inv size priv F (l.foldl (fun s o => DeviceNet.toHost o false s) s) m P := by
  intro l
  induction l with
  | nil => exact fun _ h => h
  | cons b l ih => exact fun s h => ih _ (h.toHost b)

theorem covers_of {k : Kernel V} {st : Nat} (h : Covers size k st) {c : Cell} (e : c.1 = st)
    (hc : c.2 < size c.1) : k.writes c := by
  have := h c.2 (by rw [← e]; exact hc)
  rw [← e] at this
  exact this

theorem Uses.weaken {k : Kernel V} {rd wr rd' wr' : Nat → Prop} (h : Uses size k rd wr)
    (hr : ∀ st, rd st → rd' st) (hw : ∀ st, wr st → wr' st) : Uses size k rd' wr' :=
  ⟨h.loc, fun c hc => ⟨hr _ (h.rd c hc).1, (h.rd c hc).2⟩, fun c hc => hw _ (h.wr c hc)⟩

/-- The products of the groups. -/
theorem inv_groups (clblas : Bool) (l : Convolution V) (hl : l.WellFormed size priv) :
    ∀ (ks : List (Kernel V)) (F : Nat → Prop) (s : State V) (m : Mem V) (P : Cell → Prop) (first : Bool),
      (∀ k ∈ ks, k ∈ l.kGroups) → Inv size priv F s m P → (∀ c, P c → c.1 = l.mixed.store) →
      (first = false → s.gpu l.mixed.store = clblas) →
      Inv size priv (fun st => F st ∧ st ≠ l.mixed.store)
        (ks.foldl (fun s k => gemm clblas k l.weights.data l.columns l.mixed true s) s)
        (ks.foldl (fun m k => k.exec m) m)
        (fun c => (P c ∨ (first = true ∧ ks ≠ [] ∧ c.1 = l.mixed.store)) ∧ ∀ k ∈ ks, ¬ k.writes c) := by
  have hd := hl.distinct
  have hs := hl.shared
  simp only [List.nodup_cons, List.mem_cons, List.not_mem_nil, or_false, not_or, forall_eq_or_imp] at hd hs
  intro ks
  induction ks with
  | nil =>
    intro F s m P first _ h _ _
    exact h.mono (fun _ h => h.1) fun c _ hp => ⟨.inl hp, by simp⟩
  | cons k ks ih =>
    intro F s m P first hk h hP hfirst
    obtain ⟨g1, g2, g3⟩ := h.gemm clblas (k := k) (a := l.weights.data) (b := l.columns) (c := l.mixed) true
      ((hl.groups k (hk k (by simp))).weaken
        (fun st h => h.elim .inl fun h => .inr (.inl h)) (fun _ h => h))
      (by intro x hx e; have := hP x hx; simp_all) (by intro x hx e; have := hP x hx; simp_all) (by simp)
      (by grind) (by grind) (by grind) (by grind) (by grind)
    have h2 := ih _ _ _ _ false (fun k' hk' => hk k' (List.mem_cons_of_mem _ hk')) g1
      (by
        rintro c ⟨hc | ⟨-, -, hc⟩, -⟩
        · exact hP c hc
        · exact hc) (fun _ => g2)
    refine h2.mono (fun st h => ⟨h, h.2⟩) ?_
    rintro c hc ⟨⟨hp, hw⟩ | ⟨hf, -⟩, hw'⟩
    · refine ⟨?_, ?_⟩
      · rcases hp with hp | ⟨-, hg, he⟩
        · exact .inl hp
        · right
          refine ⟨?_, by simp, he⟩
          cases first with
          | true => rfl
          | false => exact absurd (hfirst rfl) hg
      · intro k' hk'
        rcases List.mem_cons.1 hk' with rfl | hk'
        · exact hw
        · exact hw' k' hk'
    · simp at hf

theorem inv_convForward (clblas : Bool) (l : Convolution V) (hl : l.WellFormed size priv)
    (h : Inv size priv F s m (fun _ => False)) :
    Inv size priv (fun st => F st ∧ ¬ WritesOnDevice (.convForward l) st) (convForward clblas l s)
      (Plain.convForward l m) (fun _ => False) := by
  have hd := hl.distinct
  have hs := hl.shared
  simp only [List.nodup_cons, List.mem_cons, List.not_mem_nil, or_false, not_or, forall_eq_or_imp] at hd hs
  have h0 := ((h.setHint l.columns true).setHint l.output.data true).setHint l.mixed true
  have h1 := h0.im2col (src := l.input.data) (dst := l.columns) hl.columns.1 hl.columns.2 (by grind)
    (by simp) (by grind) (by grind)
  have h2 := inv_groups clblas l hl l.kGroups _ _ _ _ true (fun _ h => h) h1 (by simp) (by simp)
  have h3 := h2.mono (F' := _) (P' := fun _ => False) (fun _ h => h) (by
    rintro c hc ⟨hp | ⟨-, -, e⟩, hw⟩
    · exact hp
    · obtain ⟨k, hk, hkw⟩ := hl.groupsCover c.2 (by rw [← e]; exact hc)
      rw [← e] at hkw
      exact hw k hk hkw)
  have h4 := (h3.gemm clblas (k := l.kBias) (a := l.bias.data) (b := l.ones) (c := l.mixed) false
    (hl.bias.weaken (by rintro st (h | h | h) <;> simp [h]) (fun _ h => h))
    (by simp) (by simp) (by simp) (by grind) (by grind) (by grind) (by grind) (by grind)).1
  have h5 := h4.mono (F' := _) (P' := fun _ => False) (fun _ h => h) (by simp)
  have h6 := h5.resample (src := l.mixed) (dst := l.output.data) hl.unmix.1 hl.unmix.2 (by grind) (by simp)
    (by grind) (by grind) hl.owners.1 (by simp [hl.owners.2.2.1])
  exact h6.mono (by
    rintro st ⟨hf, hn⟩
    simp only [WritesOnDevice, not_or] at hn
    exact ⟨⟨⟨⟨hf, hn.1⟩, hn.2.1⟩, hn.2.1⟩, hn.2.2⟩) (fun _ _ h => h)

/-- The products of the groups, backward. -/
theorem inv_groupsBack (clblas backprop : Bool) (l : Convolution V) (hl : l.WellFormed size priv) :
    ∀ (ks : List (Kernel V × Kernel V)) (F : Nat → Prop) (s : State V) (m : Mem V) (P : Cell → Prop) (first : Bool),
      (∀ k ∈ ks, k ∈ l.kGroupsBack) → Inv size priv F s m P →
      (∀ c, P c → (backprop = true ∧ c.1 = l.columnsBack.store) ∨ c.1 = l.weights.delta.store) →
      (first = false → (backprop = true → s.gpu l.columnsBack.store = clblas) ∧
        s.gpu l.weights.delta.store = clblas) →
      Inv size priv (fun st => F st ∧ st ≠ l.columnsBack.store ∧ st ≠ l.weights.delta.store)
        (ks.foldl (convGroup clblas backprop l) s)
        (ks.foldl (fun m k => k.2.exec (if backprop then k.1.exec m else m)) m)
        (fun c => (P c ∨ (first = true ∧ ks ≠ [] ∧
            ((backprop = true ∧ c.1 = l.columnsBack.store) ∨ c.1 = l.weights.delta.store))) ∧
          (∀ k ∈ ks, backprop = true → ¬ k.1.writes c) ∧ ∀ k ∈ ks, ¬ k.2.writes c) := by
  have hd := hl.distinct
  have hs := hl.shared
  simp only [List.nodup_cons, List.mem_cons, List.not_mem_nil, or_false, not_or, forall_eq_or_imp] at hd hs
  intro ks
  induction ks with
  | nil =>
    intro F s m P first _ h _ _
    exact h.mono (fun _ h => h.1) fun c _ hp => ⟨.inl hp, by simp, by simp⟩
  | cons k ks ih =>
    intro F s m P first hk h hP hfirst
    have hk' := hl.groupsBack k (hk k (by simp))
    have hmid : ∃ P1 : Cell → Prop, Inv size priv (fun st => F st ∧ st ≠ l.columnsBack.store)
        (if backprop then gemm clblas k.1 l.weights.data l.mixedBack l.columnsBack true s else s)
        (if backprop then k.1.exec m else m) P1 ∧
        (backprop = true → (if backprop then gemm clblas k.1 l.weights.data l.mixedBack l.columnsBack true s
          else s).gpu l.columnsBack.store = clblas) ∧
        ((if backprop then gemm clblas k.1 l.weights.data l.mixedBack l.columnsBack true s
          else s).gpu l.weights.delta.store = s.gpu l.weights.delta.store) ∧
        (∀ c, P1 c → (P c ∨ (first = true ∧ backprop = true ∧ c.1 = l.columnsBack.store)) ∧
          (backprop = true → ¬ k.1.writes c)) := by
      cases backprop with
      | false =>
        exact ⟨P, h.mono (fun _ h => h.1) (fun _ _ h => h), by simp, by simp,
          fun c hc => ⟨.inl hc, by simp⟩⟩
      | true =>
        obtain ⟨g1, g2, g3⟩ := h.gemm clblas (k := k.1) (a := l.weights.data) (b := l.mixedBack)
          (c := l.columnsBack) true
          (hk'.1.weaken (fun st h => h.elim .inl fun h => .inr (.inl h)) (fun _ h => h))
          (by intro x hx e; have := hP x hx; grind) (by intro x hx e; have := hP x hx; grind) (by simp)
          (by grind) (by grind) (by grind) (by grind) (by grind)
        refine ⟨_, g1, fun _ => g2, ?_, ?_⟩
        · exact g3 _ (by grind) (by grind) (by grind)
        · rintro c ⟨hp, hw⟩
          refine ⟨?_, fun _ => hw⟩
          rcases hp with hp | ⟨-, hg, he⟩
          · exact .inl hp
          · right
            refine ⟨?_, rfl, he⟩
            cases first with
            | true => rfl
            | false => exact absurd ((hfirst rfl).1 rfl) hg
    obtain ⟨P1, m1, m2, m3, m4⟩ := hmid
    have hP1 : ∀ c, P1 c → (backprop = true ∧ c.1 = l.columnsBack.store) ∨ c.1 = l.weights.delta.store := by
      intro c hc
      rcases (m4 c hc).1 with hp | ⟨-, hb, he⟩
      · exact hP c hp
      · exact .inl ⟨hb, he⟩
    obtain ⟨g1, g2, g3⟩ := m1.gemm clblas (k := k.2) (a := l.mixedBack) (b := l.columns)
      (c := l.weights.delta) true
      (hk'.2.weaken (fun st h => h.elim .inl fun h => .inr (.inl h)) (fun _ h => h))
      (by intro x hx e; have := hP1 x hx; grind) (by intro x hx e; have := hP1 x hx; grind) (by simp)
      (by grind) (by grind) (by grind) (by grind) (by grind)
    have h2 := ih _ _ _ _ false (fun k' hk' => hk k' (List.mem_cons_of_mem _ hk')) g1
      (by
        rintro c ⟨hc | ⟨-, -, hc⟩, -⟩
        · exact hP1 c hc
        · exact .inr hc)
      (fun _ => ⟨fun hb => (g3 _ (by grind) (by grind) (by grind)).trans (m2 hb), g2⟩)
    refine h2.mono (fun st h => ⟨⟨⟨h.1, h.2.1⟩, h.2.2⟩, h.2⟩) ?_
    rintro c hc ⟨⟨hp, hw⟩ | ⟨hf, -⟩, hw1, hw2⟩
    · refine ⟨?_, ?_, ?_⟩
      · rcases hp with hp | ⟨-, hg, he⟩
        · rcases (m4 c hp).1 with hp | ⟨hf, hb, he⟩
          · exact .inl hp
          · exact .inr ⟨hf, by simp, .inl ⟨hb, he⟩⟩
        · right
          refine ⟨?_, by simp, .inr he⟩
          cases first with
          | true => rfl
          | false => exact absurd (m3.trans (hfirst rfl).2) hg
      · intro k' hk'
        rcases List.mem_cons.1 hk' with rfl | hk'
        · rcases hp with hp | ⟨-, -, he⟩
          · exact (m4 c hp).2
          · intro _ hwr
            have := (hl.groupsBack k' (hk k' (by simp))).1.wr c hwr
            grind
        · exact hw1 k' hk'
      · intro k' hk'
        rcases List.mem_cons.1 hk' with rfl | hk'
        · exact hw
        · exact hw2 k' hk'
    · simp at hf

theorem inv_convBackward (clblas backprop : Bool) (l : Convolution V) (hl : l.WellFormed size priv)
    (h : Inv size priv F s m (fun _ => False)) :
    Inv size priv (fun st => F st ∧ ¬ WritesOnDevice (.convBackward backprop l) st)
      (convBackward clblas backprop l s) (Plain.convBackward backprop l m) (fun _ => False) := by
  have hd := hl.distinct
  have hs := hl.shared
  simp only [List.nodup_cons, List.mem_cons, List.not_mem_nil, or_false, not_or, forall_eq_or_imp] at hd hs
  have h0 := ((((h.setHint l.columnsBack true).setHint l.mixedBack true).setHint l.weights.delta
    true).setHint l.bias.delta true).setHint l.input.delta true
  have h1 := h0.resample (src := l.output.delta) (dst := l.mixedBack) hl.mix.1 hl.mix.2 (by grind)
    (by simp) (by grind) (by grind) hl.owners.2.2.2 (by simp [hl.owners.2.1])
  have h2 := inv_groupsBack clblas backprop l hl l.kGroupsBack _ _ _ _ true (fun _ h => h) h1 (by simp) (by simp)
  have h3 := h2.mono (F' := _) (P' := fun _ => False) (fun _ h => h) (by
    rintro c hc ⟨hp | ⟨-, -, ⟨hb, e⟩ | e⟩, hw1, hw2⟩
    · exact hp
    · obtain ⟨k, hk, hkw⟩ := hl.groupsBackCover.1 c.2 (by rw [← e]; exact hc)
      rw [← e] at hkw
      exact hw1 k hk hb hkw
    · obtain ⟨k, hk, hkw⟩ := hl.groupsBackCover.2 c.2 (by rw [← e]; exact hc)
      rw [← e] at hkw
      exact hw2 k hk hkw)
  have h4 := (h3.gemm clblas (k := l.kBiasBack) (a := l.mixedBack) (b := l.ones) (c := l.bias.delta) true
    (hl.biasBack.1.weaken (by rintro st (h | h) <;> simp [h]) (fun _ h => h))
    (by simp) (by simp) (by simp) (by grind) (by grind) (by grind) (by grind) (by grind)).1
  have h5 := h4.mono (F' := _) (P' := fun _ => False) (fun _ h => h) (by
    rintro c hc ⟨hp | ⟨-, -, e⟩, hw⟩
    · exact hp
    · exact hw (covers_of hl.biasBack.2 e hc))
  unfold convBackward Plain.convBackward
  cases backprop with
  | false =>
    exact h5.mono (by
      rintro st ⟨hf, hn⟩
      simp only [WritesOnDevice, not_or] at hn
      exact ⟨⟨⟨hf, hn.1⟩, hn.2.1, hn.2.2.1⟩, hn.2.2.2.1⟩) (fun _ _ h => h)
  | true =>
    have h6 := h5.im2col (src := l.columnsBack) (dst := l.input.delta) hl.image.1 hl.image.2 (by grind)
      (by simp) (by grind) (by grind)
    exact h6.mono (by
      rintro st ⟨hf, hn⟩
      simp only [WritesOnDevice, not_or] at hn
      exact ⟨⟨⟨⟨hf, hn.1⟩, hn.2.1, hn.2.2.1⟩, hn.2.2.2.1⟩, hn.2.2.2.2⟩) (fun _ _ h => h)

/-- One step: what the host may still take from its memory, and what it may take from it now. -/
theorem inv_step (clblas : Bool) (x : Step V) (hx : WellFormed size priv x)
    (h : Inv size priv F s m (fun _ => False)) (hneed : ∀ st, Needs priv x st → F st) :
    Inv size priv (fun st => (F st ∧ ¬ WritesOnDevice x st) ∨ Brings x st) (exec clblas x s)
      (Plain.step x m) (fun _ => False) := by
  cases x with
  | actForward i o k =>
    obtain ⟨hu, hi, ho⟩ := hx
    exact (((h.toDevice i.data hi).toDevice o.data ho).runDevice hu
      (by rintro st rfl; simp [gpu_toDevice]) (by rintro st rfl; simp [gpu_toDevice]) (by simp)).mono
      (fun st h => h.elim (fun h => h) (fun h => h.elim)) (fun _ _ h => h.1)
  | actBackward i o k =>
    obtain ⟨hu, hi, ho, hd⟩ := hx
    exact ((((h.toDevice i.delta hi).toDevice o.data ho).toDevice o.delta hd).runDevice hu
      (by rintro st (rfl | rfl) <;> simp [gpu_toDevice]) (by rintro st rfl; simp [gpu_toDevice])
      (by simp)).mono (fun st h => h.elim (fun h => h) (fun h => h.elim)) (fun _ _ h => h.1)
  | poolForward i o mask k =>
    obtain ⟨hu, c1, c2, d1, d2, hi, ho, hm⟩ := hx
    exact ((((h.toDevice i.data hi).toDevice_skip o.data true ho).toDevice_skip mask true hm).runDevice hu
      (by rintro st rfl; simp [gpu_toDevice]) (by rintro st (rfl | rfl) <;> simp [gpu_toDevice])
      (by
        intro c hc hp
        have := (hu.rd c hc).1
        grind)).mono (fun st h => h.elim (fun h => h) (fun h => h.elim)) (by
        rintro c hc ⟨(hp | ⟨-, e⟩) | ⟨-, e⟩, hw⟩
        · exact hp
        · exact hw (covers_of c1 e hc)
        · exact hw (covers_of c2 e hc))
  | poolBackward i o mask k =>
    obtain ⟨hu, c1, d1, d2, hi, ho, hm⟩ := hx
    exact ((((h.toDevice_skip i.delta true hi).toDevice o.delta ho).toDevice mask hm).runDevice hu
      (by rintro st (rfl | rfl) <;> simp [gpu_toDevice]) (by rintro st rfl; simp [gpu_toDevice])
      (by
        intro c hc hp
        have := (hu.rd c hc).1
        grind)).mono (fun st h => h.elim (fun h => h) (fun h => h.elim)) (by
        rintro c hc ⟨hp | ⟨-, e⟩, hw⟩
        · exact hp
        · exact hw (covers_of c1 e hc))
  | resizeForward i o k =>
    obtain ⟨hu, c1, d1⟩ := hx
    have h1 := (((h.toHost_skip o.data true).toHost i.data).runHost hu
      (by rintro st rfl; simp [gpu_toHost]) (by rintro st rfl; simp [gpu_toHost])
      (by
        intro c hc hp
        have := (hu.rd c hc).1
        grind)).mono (F' := _) (P' := fun _ => False) (fun st h => h) (by
        rintro c hc ⟨hp | ⟨-, e⟩, hw⟩
        · exact hp
        · exact hw (covers_of c1 e hc))
    refine (h1.add (G := Brings (.resizeForward i o k)) ?_).mono ?_ (fun _ _ h => h)
    · rintro st (rfl | rfl) <;> simp [gpu_runHost, gpu_toHost]
    · exact fun st h => h.elim (fun h => .inl h.1) .inr
  | resizeBackward backprop i o k =>
    obtain ⟨hu, c1, d1⟩ := hx
    cases backprop with
    | false => exact h.mono (fun st h => h.elim (fun h => h.1) (fun h => by simp [Brings] at h)) (fun _ _ h => h)
    | true =>
      have h1 := (((h.toHost_skip i.delta true).toHost o.delta).runHost hu
        (by rintro st rfl; simp [gpu_toHost]) (by rintro st rfl; simp [gpu_toHost])
        (by
          intro c hc hp
          have := (hu.rd c hc).1
          grind)).mono (F' := _) (P' := fun _ => False) (fun st h => h) (by
          rintro c hc ⟨hp | ⟨-, e⟩, hw⟩
          · exact hp
          · exact hw (covers_of c1 e hc))
      refine (h1.add (G := Brings (.resizeBackward true i o k)) ?_).mono ?_ (fun _ _ h => h)
      · rintro st ⟨-, rfl | rfl⟩ <;> simp [gpu_runHost, gpu_toHost]
      · exact fun st h => h.elim (fun h => .inl h.1) .inr
  | upForward i o k =>
    obtain ⟨hu, c1, d1, hown, hi, ho⟩ := hx
    exact (h.resample hu c1 d1 (by simp) hi ho hown fun hsh => hneed _ ⟨hsh, rfl⟩).mono
      (fun st h => h.elim (fun h => h) (fun h => h.elim)) (fun _ _ h => h)
  | upBackward i o k =>
    obtain ⟨hu, c1, d1, hown, hown', hi, ho⟩ := hx
    exact (h.resample hu c1 d1.symm (by simp) ho hi hown (by simp [hown'])).mono
      (fun st h => h.elim (fun h => h) (fun h => h.elim)) (fun _ _ h => h)
  | downForward i o k =>
    have h1 := h.prepare_list ([i] ++ [o])
    have hg : ∀ st, Among [i, o] st → (prepare [i] [o] s).gpu st = false := fun st hst =>
      gpu_prepare_list ([i] ++ [o]) s st (.inl hst)
    have hi : (prepare [i] [o] s).gpu i.data.store = false := hg _ ⟨i, by simp, .inl rfl⟩
    have ho : (prepare [i] [o] s).gpu o.data.store = false := hg _ ⟨o, by simp, .inl rfl⟩
    have h2 := h1.runHost hx (by rintro st rfl; exact .inl hi) (by rintro st rfl; exact ho) (by simp)
    have he : exec clblas (.downForward i o k) s =
        setHint o.data false (runHost k (prepare [i] [o] s)) := by
      show resample k i.data o.data (prepare [i] [o] s) = _
      unfold resample
      rw [if_neg (by simp [flag, hi, ho])]
    rw [he]
    refine ((((h2.setHint o.data false).add (G := Brings (.downForward i o k)) ?_)).mono ?_ ?_)
    · exact hg
    · exact fun st h => h.elim (fun h => .inl h.1) .inr
    · exact fun _ _ h => h.1
  | convForward l =>
    exact (inv_convForward clblas l hx h).mono
      (fun st h => h.elim (fun h => h) (fun h => h.elim)) (fun _ _ h => h)
  | convBackward backprop l =>
    exact (inv_convBackward clblas backprop l hx h).mono
      (fun st h => h.elim (fun h => h) (fun h => h.elim)) (fun _ _ h => h)
  | datasetForward data label helper weight k =>
    obtain ⟨hu, c1, c2, c3, p1, p2, p3, hh⟩ := hx
    have hg : ∀ st, s.gpu st = false ∨ st = data.data.store ∨ st = label.data.store ∨ st = weight.data.store →
        (toHost weight.data true (toHost label.data true (toHost data.data true s))).gpu st = false := by
      intro st hst
      rw [gpu_toHost, gpu_toHost, gpu_toHost]
      rcases hst with h | rfl | rfl | rfl <;> simp_all
    have h1 := ((((h.toHost_skip data.data true).toHost_skip label.data true).toHost_skip weight.data
      true).runHost hu (fun st hst => .inl (hg st (.inl (h.priv st hst))))
      (by
        intro st hst
        apply hg
        rcases hst with h1 | h1 | h1 | h1 | h1
        · exact .inr (.inl h1)
        · exact .inr (.inr (.inl h1))
        · exact .inl (h.priv st (h1 ▸ hh))
        · exact .inr (.inr (.inr h1))
        · exact .inl (h.priv st h1))
      (by
        intro c hc hp
        have := (hu.rd c hc).1
        rcases hp with ((hp | ⟨-, e⟩) | ⟨-, e⟩) | ⟨-, e⟩
        · exact hp
        · exact p1 (e ▸ this)
        · exact p2 (e ▸ this)
        · exact p3 (e ▸ this))).mono (F' := _) (P' := fun _ => False) (fun st h => h) (by
        rintro c hc ⟨((hp | ⟨-, e⟩) | ⟨-, e⟩) | ⟨-, e⟩, hw⟩
        · exact hp
        · exact hw (covers_of c1 e hc)
        · exact hw (covers_of c2 e hc)
        · exact hw (covers_of c3 e hc))
    refine (h1.add (G := Brings (.datasetForward data label helper weight k)) ?_).mono ?_ (fun _ _ h => h)
    · exact fun st hst => hg st (.inr hst)
    · exact fun st h => h.elim (fun h => .inl h.1) .inr
  | other ins outs k =>
    have h1 := h.prepare_list (ins ++ outs)
    have hg : ∀ st, Among (ins ++ outs) st ∨ priv st → (prepare ins outs s).gpu st = false := fun st hst =>
      gpu_prepare_list (ins ++ outs) s st (hst.imp_right (h.priv st))
    have h2 := h1.runHost hx (fun st hst => .inl (hg st hst)) hg (by simp)
    refine (h2.add (G := Brings (.other ins outs k)) ?_).mono ?_ (fun _ _ h => h.1)
    · exact fun st hst => hg st (.inl hst)
    · exact fun st h => h.elim (fun h => .inl h.1) .inr
  | use os k =>
    have h1 := h.use_list os
    have hg : ∀ st, (∃ o ∈ os, st = o.store) ∨ priv st →
        (os.foldl (fun s o => toHost o false s) s).gpu st = false := fun st hst =>
      gpu_use_list os s st (hst.imp_right (h.priv st))
    have h2 := h1.runHost hx (fun st hst => .inl (hg st hst)) hg (by simp)
    refine (h2.add (G := Brings (.use os k)) ?_).mono ?_ (fun _ _ h => h.1)
    · exact fun st hst => hg st (.inl hst)
    · exact fun st h => h.elim (fun h => .inl h.1) .inr
  | replace o k =>
    obtain ⟨hu, c1, hp⟩ := hx
    have h1 := ((h.toHost_skip o true).runHost hu
      (fun st hst => .inl (by rw [gpu_toHost, h.priv st hst]; simp))
      (by rintro st rfl; simp [gpu_toHost])
      (by
        intro c hc hpc
        have := (hu.rd c hc).1
        rcases hpc with hpc | ⟨-, e⟩
        · exact hpc
        · exact hp (e ▸ this))).mono (F' := _) (P' := fun _ => False) (fun st h => h) (by
        rintro c hc ⟨hp | ⟨-, e⟩, hw⟩
        · exact hp
        · exact hw (covers_of c1 e hc))
    refine (h1.add (G := Brings (.replace o k)) ?_).mono ?_ (fun _ _ h => h)
    · rintro st rfl; simp [gpu_runHost, gpu_toHost]
    · exact fun st h => h.elim (fun h => .inl h.1) .inr
  | loss k =>
    have hread : Uses size k (fun st => ∃ c, k.reads c ∧ c.1 = st) priv :=
      ⟨hx.loc, fun c hc => ⟨⟨c, hc, rfl⟩, (hx.rd c hc).2⟩, hx.wr⟩
    exact (h.runHost hread
      (by
        intro st hst
        by_cases hp : priv st
        · exact .inl (h.priv st hp)
        · exact .inr (hneed st ⟨hst, hp⟩))
      (fun st hst => h.priv st hst) (by simp)).mono
      (fun st h => h.elim (fun h => h.1) (fun h => h.elim)) (fun _ _ h => h.1)

/-- The tensors the host has the contents of after a sequence of steps. -/
def freshAfter (F : Nat → Prop) (l : List (Step V)) : Nat → Prop :=
  l.foldl (fun F x st => (F st ∧ ¬ WritesOnDevice x st) ∨ Brings x st) F

theorem freshAfter_append (F : Nat → Prop) (a b : List (Step V)) :
    freshAfter F (a ++ b) = freshAfter (freshAfter F a) b := by
  simp [freshAfter, List.foldl_append]

theorem freshAfter_keeps {st : Nat} : ∀ (b : List (Step V)) (F : Nat → Prop), F st →
    (∀ z ∈ b, ¬ WritesOnDevice z st) → freshAfter F b st := by
  intro b
  induction b with
  | nil => exact fun _ h _ => h
  | cons z b ih =>
    intro F h hz
    exact ih _ (.inl ⟨h, hz z (by simp)⟩) fun z' hz' => hz z' (List.mem_cons_of_mem _ hz')

theorem freshAfter_of {F : Nat → Prop} {a b : List (Step V)} {y : Step V} {st : Nat} (hy : Brings y st)
    (hb : ∀ z ∈ b, ¬ WritesOnDevice z st) : freshAfter F (a ++ y :: b) st := by
  rw [freshAfter_append]
  exact freshAfter_keeps b _ (.inr hy) hb

theorem inv_run (clblas : Bool) : ∀ (l : List (Step V)) (F : Nat → Prop) (s : State V) (m : Mem V),
    (∀ x ∈ l, WellFormed size priv x) → Inv size priv F s m (fun _ => False) →
    (∀ pre x post, l = pre ++ x :: post → ∀ st, Needs priv x st → freshAfter F pre st) →
    Inv size priv (freshAfter F l) (run clblas l s) (Plain.run l m) (fun _ => False) := by
  intro l
  induction l with
  | nil => exact fun _ _ _ _ h _ => h
  | cons x l ih =>
    intro F s m hwf h hn
    refine ih _ _ _ (fun y hy => hwf y (List.mem_cons_of_mem _ hy))
      (inv_step clblas x (hwf x (by simp)) h (hn [] x l rfl)) ?_
    intro pre y post e st hst
    exact hn (x :: pre) y post (by rw [e]; rfl) st hst

/-- C81: with OpenCL, whatever sequence of forward and backward passes of layers, loss functions, updates
of the parameters, saving and loading is run, every tensor has the contents it has without OpenCL, on the
side it is on; with or without clBLAS, wherever the tensors are at the beginning, and whatever is in the
other memory.  Partial: the second output of the input layer must not be used on the device (`priv`). -/
theorem C81_same_as_host_partial (clblas : Bool) (size : Nat → Nat) (priv : Nat → Prop) (l : List (Step V))
    (hwf : ∀ x ∈ l, WellFormed size priv x) (hord : Ordered priv l) (s : State V) (m : Mem V)
    (hs : ∀ c, c.2 < size c.1 → current s c = m c) (hp : ∀ st, priv st → s.gpu st = false) :
    (∀ c, c.2 < size c.1 → current (run clblas l s) c = Plain.run l m c) ∧
    (∀ st, priv st → (run clblas l s).gpu st = false) := by
  have h := inv_run clblas l (fun _ => False) s m hwf
    ⟨fun c hc _ => hs c hc, fun _ _ _ h => h.elim, hp⟩
    (by
      intro pre x post e st hst
      obtain ⟨a, y, b, rfl, hy, hb⟩ := hord pre x post e st hst
      exact freshAfter_of hy hb)
  exact ⟨fun c hc => h.good c hc fun h => h, h.priv⟩

/-- C81: so a tensor that is moved to the host has the contents it has without OpenCL, in the memory of
the host. -/
theorem C81_read_partial (clblas : Bool) (size : Nat → Nat) (priv : Nat → Prop) (l : List (Step V))
    (hwf : ∀ x ∈ l, WellFormed size priv x) (hord : Ordered priv l) (s : State V) (m : Mem V)
    (hs : ∀ c, c.2 < size c.1 → current s c = m c) (hp : ∀ st, priv st → s.gpu st = false) (o : Obj) (i : Nat)
    (hi : i < size o.store) :
    (toHost o false (run clblas l s)).host (o.store, i) = Plain.run l m (o.store, i) := by
  rw [← (C81_same_as_host_partial clblas size priv l hwf hord s m hs hp).1 _ hi]
  unfold toHost transfer current
  cases (run clblas l s).gpu o.store <;> simp

/-! ### Passes through a graph -/

theorem ordered_append {a b : List (Step V)} (ha : Ordered priv a) (hb : Ordered priv b) :
    Ordered priv (a ++ b) := by
  intro pre x post e st hst
  rcases List.append_eq_append_iff.1 e with ⟨c, rfl, hc⟩ | ⟨c, rfl, hc⟩
  · obtain ⟨u, y, v, rfl, hy, hv⟩ := hb c x post hc st hst
    exact ⟨a ++ u, y, v, by simp, hy, hv⟩
  · cases c with
    | nil =>
      simp only [List.nil_append] at hc
      obtain ⟨u, y, v, e', -⟩ := hb [] x post hc.symm st hst
      simp at e'
    | cons x' c =>
      simp only [List.cons_append, List.cons.injEq] at hc
      obtain ⟨rfl, -⟩ := hc
      exact ha pre x c rfl st hst

theorem ordered_flatMap {α : Type _} (f : α → List (Step V)) : ∀ (l : List α), (∀ x ∈ l, Ordered priv (f x)) →
    Ordered priv (l.flatMap f) := by
  intro l
  induction l with
  | nil => intro _ pre x post e; simp at e
  | cons a l ih =>
    intro h
    rw [List.flatMap_cons]
    exact ordered_append (h a (by simp)) (ih fun x hx => h x (List.mem_cons_of_mem _ hx))

theorem ordered_of_no_needs {l : List (Step V)} (h : ∀ x ∈ l, ∀ st, ¬ Needs priv x st) : Ordered priv l := by
  intro pre x post e st hst
  exact absurd hst (h x (by rw [e]; simp) st)

/-- Everything that `st` holds on the device was written by a direct predecessor of the node `n`, and `n`
brings it to the host. -/
def BroughtBy (g : Net.Graph) (f : Nat → Step V) (n st : Nat) : Prop :=
  Brings (f n) st ∧ ∀ z ∈ g.nodes, WritesOnDevice (f z) st → ∃ c ∈ (g.heap n).inputs, c.node = z

/-- A forward pass with the evaluation of the loss functions after it. -/
theorem ordered_forward (g : Net.Graph) (f : Nat → Step V) (losses : List (Kernel V)) {log : List Nat}
    (hn : log.Nodup) (hm : ∀ n, n ∈ log ↔ n ∈ g.nodes)
    (ho : ∀ pre n post, log = pre ++ n :: post → ∀ c ∈ (g.heap n).inputs, c.node ∈ pre)
    (hf : ∀ n ∈ g.nodes, ∀ st, Needs priv (f n) st → ∃ c ∈ (g.heap n).inputs, BroughtBy g f c.node st)
    (hl : ∀ k ∈ losses, ∀ st, Needs priv (.loss k) st → ∃ n ∈ g.nodes, BroughtBy g f n st) :
    Ordered priv (log.map f ++ losses.map .loss) := by
  have key : ∀ (a b : List Nat) (n : Nat) (post : List Nat), log = a ++ n :: b ++ post → ∀ st,
      BroughtBy g f n st → ∀ z ∈ b.map f, ¬ WritesOnDevice z st := by
    rintro a b n post e st ⟨-, hb⟩ z hz hw
    obtain ⟨w, hwb, rfl⟩ := List.mem_map.1 hz
    obtain ⟨c, hc, rfl⟩ := hb w ((hm w).1 (by rw [e]; simp [hwb])) hw
    have : c.node ∈ a := ho a n (b ++ post) (by rw [e]; simp) c hc
    rw [e] at hn
    simp only [List.append_assoc, List.cons_append, List.nodup_append] at hn
    exact hn.2.2 _ this _ (by simp [hwb]) rfl
  intro pre x post e st hst
  rcases List.append_eq_append_iff.1 e with ⟨c, rfl, hc⟩ | ⟨c, hc1, hc⟩
  · obtain ⟨l1, l2, rfl, rfl, hl2⟩ := List.map_eq_append_iff.1 hc
    obtain ⟨k, l3, rfl, rfl, -⟩ := List.map_eq_cons_iff.1 hl2
    obtain ⟨n, hng, hb⟩ := hl k (by simp) st hst
    obtain ⟨a, b, hab⟩ := List.append_of_mem ((hm n).2 hng)
    refine ⟨a.map f, f n, b.map f ++ l1.map .loss, by rw [hab]; simp, hb.1, ?_⟩
    intro z hz
    rcases List.mem_append.1 hz with hz | hz
    · exact key a b n [] (by rw [hab]; simp) st hb z hz
    · obtain ⟨k', -, rfl⟩ := List.mem_map.1 hz
      exact fun h => h
  · cases c with
    | nil =>
      simp only [List.nil_append, List.append_nil] at hc hc1
      obtain ⟨k, l3, rfl, rfl, -⟩ := List.map_eq_cons_iff.1 hc.symm
      obtain ⟨n, hng, hb⟩ := hl k (by simp) st hst
      obtain ⟨a, b, hab⟩ := List.append_of_mem ((hm n).2 hng)
      refine ⟨a.map f, f n, b.map f, by rw [← hc1, hab]; simp, hb.1, ?_⟩
      exact key a b n [] (by rw [hab]; simp) st hb
    | cons x' c =>
      simp only [List.cons_append, List.cons.injEq] at hc
      obtain ⟨rfl, -⟩ := hc
      obtain ⟨l1, l2, rfl, rfl, hl2⟩ := List.map_eq_append_iff.1 hc1
      obtain ⟨n, l3, rfl, rfl, -⟩ := List.map_eq_cons_iff.1 hl2
      obtain ⟨c', hc', hb⟩ := hf n ((hm n).1 (by simp)) st hst
      obtain ⟨a, b, hab⟩ := List.append_of_mem (ho l1 n l3 rfl c' hc')
      refine ⟨a.map f, f c'.node, b.map f, by rw [hab]; simp, hb.1, ?_⟩
      exact key a b c'.node (n :: l3) (by rw [hab]) st hb

/-- C81: training.  In every graph without cycles, any number of iterations, each a forward pass, the
loss functions, a backward pass in the orders of the graph, and the updates, gives every tensor the
contents it has without OpenCL.  The layers that are taken from the host without a move are covered: a
shadow that is scaled up belongs to a gradient accumulation layer (or input layer) before it, and a loss
layer brings what its loss function reads. -/
theorem C81_training_partial (g : Net.Graph) (hr : Net.Registered g) (hc : Net.Closed g) (ha : Net.Acyclic g)
    (size : Nat → Nat) (priv : Nat → Prop) (fwd : Nat → Nat → Step V) (bwd : Nat → Nat → Bool → Step V)
    (losses : Nat → List (Kernel V)) (updates : Nat → List (Step V))
    (wf : ∀ t, ∀ n ∈ g.nodes, WellFormed size priv (fwd t n))
    (wb : ∀ t, ∀ n ∈ g.nodes, ∀ e, WellFormed size priv (bwd t n e))
    (wl : ∀ t, ∀ k ∈ losses t, WellFormed size priv (.loss k)) (wu : ∀ t, ∀ x ∈ updates t, WellFormed size priv x)
    (nf : ∀ t, ∀ n ∈ g.nodes, ∀ st, Needs priv (fwd t n) st →
      ∃ c ∈ (g.heap n).inputs, BroughtBy g (fwd t) c.node st)
    (nl : ∀ t, ∀ k ∈ losses t, ∀ st, Needs priv (.loss k) st → ∃ n ∈ g.nodes, BroughtBy g (fwd t) n st)
    (nb : ∀ t, ∀ n ∈ g.nodes, ∀ e st, ¬ Needs priv (bwd t n e) st) (nu : ∀ t, ∀ x ∈ updates t, ∀ st, ¬ Needs priv x st) :
    ∃ N flog blog,
      (∀ fuel, N ≤ fuel → ∀ flags, ∃ v, Net.feedForward g fuel flags = some ⟨v, flog⟩) ∧
      (∀ fuel, N ≤ fuel → ∀ flags, ∃ v, Net.backPropagate g fuel flags = some ⟨v, blog⟩) ∧
      ∀ (clblas : Bool) (T : Nat) (l : List (Step V)),
        l = (List.range T).flatMap (fun t => flog.map (fwd t) ++ (losses t).map .loss ++
          blog.map (fun p => bwd t p.1 p.2) ++ updates t) →
        ∀ (s : State V) (m : Mem V), (∀ c, c.2 < size c.1 → current s c = m c) →
          (∀ st, priv st → s.gpu st = false) →
          ∀ c, c.2 < size c.1 → current (run clblas l s) c = Plain.run l m c := by
  obtain ⟨N1, flog, f1, f2, f3, f4⟩ := Net.C19_feedForward_order g hc ha
  obtain ⟨N2, blog, -, b2, -, b4⟩ := Net.C20_backPropagate_order g hr hc ha
  refine ⟨max N1 N2, flog, blog, fun fuel hf => f4 fuel (by omega), fun fuel hf => b4 fuel (by omega), ?_⟩
  intro clblas T l hl s m hs hp
  refine (C81_same_as_host_partial clblas size priv l ?_ ?_ s m hs hp).1
  · intro x hx
    rw [hl] at hx
    obtain ⟨t, -, hx⟩ := List.mem_flatMap.1 hx
    simp only [List.mem_append, List.mem_map] at hx
    rcases hx with ((⟨n, hn, rfl⟩ | ⟨k, hk, rfl⟩) | ⟨p, hp', rfl⟩) | hx
    · exact wf t n ((f2 n).1 hn)
    · exact wl t k hk
    · exact wb t _ ((b2 _).1 (List.mem_map.2 ⟨p, hp', rfl⟩)) _
    · exact wu t x hx
  · rw [hl]
    refine ordered_flatMap _ _ fun t _ => ?_
    refine ordered_append (ordered_append (ordered_forward g (fwd t) (losses t) f1 f2 f3 (nf t) (nl t)) ?_) ?_
    · refine ordered_of_no_needs fun x hx st => ?_
      obtain ⟨p, hp', rfl⟩ := List.mem_map.1 hx
      exact nb t _ ((b2 _).1 (List.mem_map.2 ⟨p, hp', rfl⟩)) _ st
    · exact ordered_of_no_needs (nu t)

end

/-! ### The second output of the input layer -/

/-- Code that writes one value to the first elements of some tensors. -/
def fill (targets : List Nat) (v : V) : Kernel V where
  reads _ := False
  writes c := c.1 ∈ targets ∧ c.2 = 0
  value _ _ := v

/-- Code that computes the first element of a tensor from that of another one. -/
def single (src dst : Nat) (f : V → V) : Kernel V where
  reads c := c = (src, 0)
  writes c := c = (dst, 0)
  value m _ := f (m (src, 0))

/-- A buffer that owns its tensors. -/
def owned (data delta : Nat) : Buf := ⟨⟨data, data, false⟩, ⟨delta, delta, false⟩⟩

/-- The steps: two forward passes of an input layer and a sigmoid layer on its helper output. -/
def helperSteps : List (Step Nat) :=
  let load (v : Nat) := Step.datasetForward (owned 0 10) (owned 1 11) (owned 2 12) (owned 3 13)
    (fill [0, 1, 2, 3] v)
  let act := Step.actForward (owned 2 12) (owned 4 14) (single 2 4 id)
  [load 7, act, load 8, act]

theorem uses_fill (targets : List Nat) (v : V) (rd : Nat → Prop) :
    Uses (fun _ => 1) (fill targets v) rd (· ∈ targets) :=
  ⟨fun _ _ _ _ _ => rfl, fun _ h => h.elim, fun _ h => h.1⟩

theorem uses_single (src dst : Nat) (f : V → V) :
    Uses (fun _ => 1) (single src dst f) (· = src) (· = dst) :=
  ⟨fun m m' h _ _ => congrArg f (h _ rfl), fun c h => by rw [h]; exact ⟨rfl, by simp⟩,
   fun c h => by rw [h]⟩

theorem covers_single (src dst : Nat) (f : V → V) : Covers (fun _ => 1) (single src dst f) dst := by
  intro i hi
  show (dst, i) = (dst, 0)
  have : i = 0 := by simp only at hi; omega
  rw [this]

/-- C81: the helper output of the input layer is not moved to the host before it is written.  Every layer
here keeps to the rules, but the sigmoid layer uses the helper output on the device; from the second pass
on it sees the samples of the first, whatever the build and the state of the memories. -/
theorem C81_helper_stale (clblas : Bool) (s : State Nat) (m : Mem Nat) (hs : ∀ st, s.gpu st = false) :
    (∀ x ∈ helperSteps, WellFormed (fun _ => 1) (· = 2) x ∨ WellFormed (fun _ => 1) (fun _ => False) x) ∧
    current (run clblas helperSteps s) (4, 0) = 7 ∧ Plain.run helperSteps m (4, 0) = 8 := by
  refine ⟨?_, ?_, ?_⟩
  · intro x hx
    have hload : ∀ v : Nat, WellFormed (fun _ => 1) (· = 2) (Step.datasetForward (owned 0 10) (owned 1 11)
        (owned 2 12) (owned 3 13) (fill [0, 1, 2, 3] v)) := by
      intro v
      refine ⟨(uses_fill _ v _).weaken (fun _ h => h) ?_, ?_, ?_, ?_, ?_⟩
      · intro st h
        simp only [List.mem_cons, List.not_mem_nil, or_false] at h
        simp only [owned]
        omega
      all_goals simp [Covers, fill, owned]
    have hact : WellFormed (fun _ => 1) (fun _ => False)
        (Step.actForward (owned 2 12) (owned 4 14) (single 2 4 (id : Nat → Nat))) :=
      ⟨uses_single 2 4 id, by simp, by simp⟩
    simp only [helperSteps, List.mem_cons, List.not_mem_nil, or_false] at hx
    rcases hx with rfl | rfl | rfl | rfl
    · exact .inl (hload 7)
    · exact .inr hact
    · exact .inl (hload 8)
    · exact .inr hact
  · simp [run, helperSteps, exec, toHost, toDevice, runHost, runDevice, Kernel.exec, fill, single, owned,
      current, transfer, hs]
  · simp [Plain.run, helperSteps, Plain.step, Kernel.exec, fill, single]

/-! ### The hypotheses can be met -/

/-- A convolution layer with one group and tensors of one element. -/
def tinyConvolution : Convolution Nat where
  input := owned 0 1
  output := owned 2 3
  weights := owned 4 5
  bias := owned 6 7
  ones := ⟨8, 8, false⟩
  columns := ⟨9, 9, false⟩
  mixed := ⟨10, 10, false⟩
  columnsBack := ⟨11, 11, false⟩
  mixedBack := ⟨12, 12, false⟩
  kColumns := single 0 9 id
  kGroups := [single 9 10 (· * 3)]
  kBias := single 10 10 (· + 1)
  kUnmix := single 10 2 id
  kMix := single 3 12 id
  kGroupsBack := [(single 12 11 (· * 3), single 9 5 id)]
  kBiasBack := single 12 7 id
  kImage := single 11 1 id

theorem tinyConvolution_wellFormed : tinyConvolution.WellFormed (fun _ => 1) (· = 20) := by
  refine ⟨by decide, by decide, ⟨rfl, rfl, rfl, rfl⟩, ⟨uses_single _ _ _, covers_single _ _ _⟩, ?_, ?_,
    (uses_single _ _ _).weaken (fun _ h => .inr (.inr h)) (fun _ h => h),
    ⟨uses_single _ _ _, covers_single _ _ _⟩, ⟨uses_single _ _ _, covers_single _ _ _⟩, ?_, ⟨?_, ?_⟩,
    ⟨(uses_single _ _ _).weaken (fun _ h => .inl h) (fun _ h => h), covers_single _ _ _⟩,
    ⟨uses_single _ _ _, covers_single _ _ _⟩⟩
  · intro k hk
    simp only [tinyConvolution, List.mem_singleton] at hk
    subst hk
    exact (uses_single _ _ _).weaken (fun _ h => .inr h) (fun _ h => h)
  · intro i hi
    exact ⟨_, List.mem_singleton.2 rfl, covers_single 9 10 (· * 3) i hi⟩
  · intro k hk
    simp only [tinyConvolution, List.mem_singleton] at hk
    subst hk
    exact ⟨(uses_single 12 11 (· * 3)).weaken (fun _ h => Or.inr h) (fun _ h => h),
      (uses_single 9 5 id).weaken (fun _ h => Or.inr h) (fun _ h => h)⟩
  · intro i hi
    exact ⟨_, List.mem_singleton.2 rfl, covers_single 12 11 (· * 3) i hi⟩
  · intro i hi
    exact ⟨_, List.mem_singleton.2 rfl, covers_single 9 5 id i hi⟩

/-- A sequence with everything: a convolution, a sigmoid layer, a gradient accumulation layer whose
output is a shadow, an upscale layer on the shadow, a loss function, and a backward pass. -/
def tinySteps : List (Step Nat) :=
  [.convForward tinyConvolution, .actForward (owned 2 3) (owned 13 14) (single 2 13 (· + 5)),
   .other [owned 13 14] [⟨⟨15, 13, true⟩, ⟨16, 16, false⟩⟩] (fill [] 0),
   .upForward ⟨⟨15, 13, true⟩, ⟨16, 16, false⟩⟩ (owned 17 18) (single 13 17 (· * 2)),
   .loss (single 13 20 id), .convBackward true tinyConvolution]

theorem tinySteps_ok : (∀ x ∈ tinySteps, WellFormed (fun _ => 1) (· = 20) x) ∧ Ordered (· = 20) tinySteps := by
  refine ⟨?_, ?_⟩
  · intro x hx
    simp only [tinySteps, List.mem_cons, List.not_mem_nil, or_false] at hx
    rcases hx with rfl | rfl | rfl | rfl | rfl | rfl
    · exact tinyConvolution_wellFormed
    · exact ⟨uses_single _ _ _, by decide, by decide⟩
    · exact (uses_fill [] 0 _).weaken (fun _ h => h) (by simp)
    · exact ⟨uses_single _ _ _, covers_single _ _ _, by decide, rfl, by decide, by decide⟩
    · exact (uses_single _ _ _).weaken (fun _ _ => trivial) (fun _ h => h)
    · exact tinyConvolution_wellFormed
  · have h1 : Ordered (· = 20) (tinySteps.take 5) := by
      intro pre x post e st hst
      have hbring : Brings (Step.other [owned 13 14] [⟨⟨15, 13, true⟩, ⟨16, 16, false⟩⟩]
          (fill [] 0 : Kernel Nat)) 13 := ⟨owned 13 14, by simp, .inl rfl⟩
      rcases pre with _ | ⟨p1, _ | ⟨p2, _ | ⟨p3, _ | ⟨p4, _ | ⟨p5, pre⟩⟩⟩⟩⟩ <;>
        simp [tinySteps] at e
      · obtain ⟨rfl, -⟩ := e; exact hst.elim
      · obtain ⟨-, rfl, -⟩ := e; exact hst.elim
      · obtain ⟨-, -, rfl, -⟩ := e; exact hst.elim
      · obtain ⟨rfl, rfl, rfl, rfl, -⟩ := e
        obtain ⟨-, rfl⟩ := hst
        exact ⟨[_, _], _, [], rfl, hbring, by simp⟩
      · obtain ⟨rfl, rfl, rfl, rfl, rfl, -⟩ := e
        obtain ⟨⟨c, hc, rfl⟩, -⟩ := hst
        rw [show c = (13, 0) from hc]
        exact ⟨[_, _], _, [_], rfl, hbring, by simp [WritesOnDevice, owned]⟩
    have h2 : Ordered (· = 20) [Step.convBackward true tinyConvolution] :=
      ordered_of_no_needs (by intro x hx st; simp only [List.mem_singleton] at hx; subst hx; exact fun h => h)
    exact ordered_append h1 h2

/-- With OpenCL and clBLAS the loss of `tinySteps` is that of the host: `(4 * 3 + 1) + 5` from an input
of 4. -/
example (s : State Nat) (h0 : ∀ st, s.gpu st = false) (hi : s.host (0, 0) = 4) :
    current (run true tinySteps s) (20, 0) = 18 := by
  rw [(C81_same_as_host_partial true (fun _ => 1) (· = 20) tinySteps tinySteps_ok.1 tinySteps_ok.2 s
    (current s) (fun _ _ => rfl) (fun st _ => h0 st)).1 (20, 0) (by simp)]
  simp [Plain.run, tinySteps, Plain.step, Plain.convForward, Plain.convBackward, tinyConvolution,
    Kernel.exec, single, fill, current, h0, hi]

/-- A graph for `C81_training_partial`: an input layer, a sigmoid layer, a gradient accumulation layer,
and an upscale layer on its shadow. -/
def chain : Net.Graph :=
  { heap := Net.heapOf [{}, { inputs := [⟨0, 0, false⟩] }, { inputs := [⟨1, 0, false⟩] },
      { inputs := [⟨2, 0, false⟩] }],
    nodes := [0, 1, 2, 3], next := 4 }

def chainForward (n : Nat) : Step Nat :=
  match n with
  | 0 => .other [] [owned 0 1] (fill [0] 4)
  | 1 => .actForward (owned 0 1) (owned 2 3) (single 0 2 (· + 5))
  | 2 => .other [owned 2 3] [⟨⟨4, 2, true⟩, owned 5 5 |>.delta⟩] (fill [] 0)
  | _ => .upForward ⟨⟨4, 2, true⟩, owned 5 5 |>.delta⟩ (owned 6 7) (single 2 6 (· * 2))

example : Net.Registered chain ∧ Net.Closed chain ∧ Net.Acyclic chain ∧
    (∀ n ∈ chain.nodes, WellFormed (fun _ => 1) (· = 20) (chainForward n)) ∧
    (∀ n ∈ chain.nodes, ∀ st, Needs (· = 20) (chainForward n) st →
      ∃ c ∈ (chain.heap n).inputs, BroughtBy chain chainForward c.node st) ∧
    Needs (· = 20) (chainForward 3) 2 ∧
    WellFormed (fun _ => 1) (· = 20) (.loss (single 2 20 (id : Nat → Nat))) ∧
    (∀ st, Needs (· = 20) (.loss (single 2 20 (id : Nat → Nat))) st →
      ∃ n ∈ chain.nodes, BroughtBy chain chainForward n st) := by
  have hreads : ∀ a b, Net.Reads chain a b → a = b + 1 := by
    rintro a b ⟨ha, c, hc, rfl⟩
    simp only [chain, List.mem_cons, List.not_mem_nil, or_false] at ha
    rcases ha with rfl | rfl | rfl | rfl <;> simp_all [chain, Net.heapOf]
  have hb : BroughtBy chain chainForward 2 2 := by
    refine ⟨⟨owned 2 3, by simp, .inl rfl⟩, ?_⟩
    intro z hz hw
    simp only [chain, List.mem_cons, List.not_mem_nil, or_false] at hz
    rcases hz with rfl | rfl | rfl | rfl
    · exact hw.elim
    · exact ⟨⟨1, 0, false⟩, by simp [chain, Net.heapOf], rfl⟩
    · exact hw.elim
    · exact absurd hw (by simp [chainForward, WritesOnDevice, owned])
  refine ⟨?_, ?_, ?_, ?_, ?_, ⟨rfl, rfl⟩, ?_, ?_⟩
  · intro st r b
    have h1 : (chain.heap st).bps = [] := by
      match st with
      | 0 | 1 | 2 | 3 => rfl
      | n + 4 => rfl
    have h2 : ∀ r, (chain.heap r).inputs.count ⟨st, b, true⟩ = 0 := by
      intro r
      match r with
      | 0 | 1 | 2 | 3 => simp [chain, Net.heapOf]
      | n + 4 => simp [chain, Net.heapOf]
    rw [h1, h2]
    simp
  · intro a b h
    have := hreads a b h
    have ha := h.1
    simp only [chain, List.mem_cons, List.not_mem_nil, or_false] at ha ⊢
    omega
  · intro n h
    have key : ∀ a b, Relation.TransGen (Net.Reads chain) a b → b < a := by
      intro a b h
      induction h with
      | single h => have := hreads _ _ h; omega
      | tail _ h ih => have := hreads _ _ h; omega
    exact Nat.lt_irrefl n (key n n h)
  · intro n hn
    simp only [chain, List.mem_cons, List.not_mem_nil, or_false] at hn
    rcases hn with rfl | rfl | rfl | rfl
    · exact (uses_fill [0] 4 _).weaken (fun _ h => h)
        (by intro st h; exact .inl ⟨owned 0 1, by simp, .inl (List.mem_singleton.1 h)⟩)
    · exact ⟨uses_single _ _ _, by decide, by decide⟩
    · exact (uses_fill [] 0 _).weaken (fun _ h => h) (by simp)
    · exact ⟨uses_single _ _ _, covers_single _ _ _, by decide, rfl, by decide, by decide⟩
  · intro n hn st hst
    simp only [chain, List.mem_cons, List.not_mem_nil, or_false] at hn
    rcases hn with rfl | rfl | rfl | rfl
    · exact hst.elim
    · exact hst.elim
    · exact hst.elim
    · obtain ⟨-, rfl⟩ := hst
      exact ⟨⟨2, 0, false⟩, by simp [chain, Net.heapOf], hb⟩
  · exact (uses_single _ _ _).weaken (fun _ _ => trivial) (fun _ h => h)
  · rintro st ⟨⟨c, hc, rfl⟩, -⟩
    rw [show c = (2, 0) from hc]
    exact ⟨2, by simp [chain], hb⟩

end CN24.DeviceNet
