import Verif.Props.NetTrain
import Verif.Props.NetLayers

/-
C85, continued: descriptions of chains of layers.
-/

namespace CN24.NetTrain
open CN24 CN24.NetConfig CN24.Net CN24.Props

variable {D : Type _}

/-- Down-sampling lines come before all other layers. -/
def DownLinesFirst (items : List Item) : Prop :=
  ∀ a k b, items = a ++ .down k :: b →
    ∀ j ∈ a, (∃ k', j = .down k') ∨ (∃ t, j = .comment t) ∨ (∃ t, j = .other t) ∨ j = .patches

theorem DownLinesFirst.tail {i : Item} {items : List Item} (h : DownLinesFirst (i :: items)) : DownLinesFirst items :=
  fun a k b e j hj => h (i :: a) k b (by rw [e]; rfl) j (List.mem_cons_of_mem _ hj)

/-- Layers that do not carry gradients come first. -/
def QuietFirst (ls : List (NetConfig.Layer D)) : Prop :=
  ∀ (j k : Nat) (l m : NetConfig.Layer D), j < k → ls[j]? = some l → ls[k]? = some m → wantsGradient m = false →
    wantsGradient l = false

theorem described_loud (zero one : D) : ∀ (items : List Item) (d : Nat), (∀ k, .down k ∉ items) →
    ∀ l ∈ describedLayers zero one d items, wantsGradient l = true
  | [], _, _, l, hl => by cases hl
  | i :: is, d, h, l, hl => by
    have ih : ∀ d, ∀ l ∈ describedLayers zero one d is, wantsGradient l = true :=
      fun d => described_loud zero one is d fun k hk => h k (List.mem_cons_of_mem _ hk)
    cases i with
    | comment t => exact ih _ _ hl
    | other t => exact ih _ _ hl
    | patches => exact ih _ _ hl
    | down k => exact absurd (List.mem_cons_self ..) (h k)
    | act a =>
      cases a <;>
      · rcases List.mem_cons.1 hl with rfl | hl
        · rfl
        · exact ih _ _ hl
    | _ =>
      rcases List.mem_cons.1 hl with rfl | hl
      · rfl
      · exact ih _ _ hl

theorem quiet_cons {l : NetConfig.Layer D} {ls : List (NetConfig.Layer D)} (h : QuietFirst ls)
    (hl : wantsGradient l = false ∨ ∀ m ∈ ls, wantsGradient m = true) : QuietFirst (l :: ls) := by
  intro j k a b hjk ha hb hq
  cases k with
  | zero => omega
  | succ k =>
    rw [List.getElem?_cons_succ] at hb
    cases j with
    | zero =>
      rw [List.getElem?_cons_zero] at ha
      cases ha
      rcases hl with hl | hl
      · exact hl
      · rw [hl b (List.mem_of_getElem? hb)] at hq
        cases hq
    | succ j =>
      rw [List.getElem?_cons_succ] at ha
      exact h j k a b (by omega) ha hb hq

theorem quiet_snoc {ls ms : List (NetConfig.Layer D)} (h : QuietFirst ls) (hm : ∀ m ∈ ms, wantsGradient m = true) :
    QuietFirst (ls ++ ms) := by
  intro j k a b hjk ha hb hq
  rcases Nat.lt_or_ge k ls.length with hk | hk
  · rw [List.getElem?_append_left hk] at hb
    rw [List.getElem?_append_left (by omega)] at ha
    exact h j k a b hjk ha hb hq
  · rw [List.getElem?_append_right hk] at hb
    rw [hm b (List.mem_of_getElem? hb)] at hq
    cases hq

theorem described_quiet (zero one : D) : ∀ (items : List Item) (d : Nat), DownLinesFirst items →
    QuietFirst (describedLayers zero one d items)
  | [], _, _ => fun j k a b _ ha => by cases ha
  | i :: is, d, h => by
    have ih := fun d => described_quiet zero one is d h.tail
    have hloud : ((∃ k', i = .down k') ∨ (∃ t, i = .comment t) ∨ (∃ t, i = .other t) ∨ i = .patches → False) →
        ∀ d, ∀ l ∈ describedLayers zero one d is, wantsGradient l = true := by
      intro hno d
      refine described_loud zero one is d fun k hk => ?_
      obtain ⟨a, b, e⟩ := List.append_of_mem hk
      exact hno (h (i :: a) k b (by rw [e]; rfl) i (List.mem_cons_self ..))
    cases i with
    | comment t => exact ih _
    | other t => exact ih _
    | patches => exact ih _
    | down k => exact quiet_cons (ih _) (Or.inl rfl)
    | act a => cases a <;> exact quiet_cons (ih _) (Or.inr (hloud (by rintro (⟨_, e⟩ | ⟨_, e⟩ | ⟨_, e⟩ | e) <;> cases e) _))
    | _ => exact quiet_cons (ih _) (Or.inr (hloud (by rintro (⟨_, e⟩ | ⟨_, e⟩ | ⟨_, e⟩ | e) <;> cases e) _))

theorem net_quiet (zero one : D) (f : Fields) (classes : Nat) {items : List Item} (h : DownLinesFirst items) :
    QuietFirst (netLayers zero one f classes items) := by
  unfold netLayers
  refine quiet_snoc (quiet_snoc ?_ ?_) ?_
  · split
    · exact quiet_cons (described_quiet zero one items 0 h) (Or.inl rfl)
    · exact described_quiet zero one items 0 h
  · intro m hm
    rw [List.mem_singleton.1 hm]
    split <;> rfl
  · intro m hm
    split at hm
    · rw [List.mem_singleton.1 hm]; rfl
    · cases hm

/-- C85, chains: a description of a chain in which down-sampling comes before all other layers gives, with the loss, a
network that has the properties `C85_gradient_partial` asks of a description: no gradient arrives at a down-sampling
layer, every layer that depends on parameters is read, and labels and weights fit if they have the shape of the
output. -/
theorem C85_chain (conv : Config.Str → ℝ) (zero one : ℝ) (items : List Item) (f : Fields) (classes : Nat)
    (hok : ∀ i ∈ items, i.Ok) (hnl : ∀ i ∈ items, '\n' ∉ i.text) (hdown : DownLinesFirst items) :
    ∃ st, addLayers conv zero one f (linesOf (descriptionText items)) ⟨0, 0, true⟩ 1 classes true = .done st ∧
      DownFirst st.nodes ∧ AllRead st.nodes ∧
      ∀ (ds : List Shape) (known : List (List Shape)) (sh w : Shape), shapes 0 1 ds st.nodes [] = .done known →
        OutputShape st.nodes known sh → ds[1]? = some sh → ds[3]? = some w → w.samples = sh.samples →
        w.width = sh.width → w.height = sh.height → 0 < w.maps → LabelsFit st.nodes ds known := by
  obtain ⟨st, h1, h2, h3, h4⟩ := C56_layers conv zero one items f ⟨0, 0, true⟩ 1 classes true hok hnl
  have hq := net_quiet zero one f classes hdown
  have h4 := h4 rfl
  rw [if_pos rfl] at h2
  generalize hL : netLayers zero one f classes items = L at h2 h3 h4 hq
  have hne : 0 < L.length := by
    rw [← hL]
    unfold netLayers
    simp
  have hloss : ∀ l ∈ L, ¬ IsError l := by
    rw [← hL]
    intro l hl he
    unfold netLayers at hl
    have hd : ∀ (is : List Item) (d : Nat), ∀ l ∈ describedLayers zero one d is, ¬ IsError l := by
      intro is
      induction is with
      | nil => intro d l hl; cases hl
      | cons i is ih =>
        intro d l hl
        cases i with
        | comment t => exact ih _ _ hl
        | other t => exact ih _ _ hl
        | patches => exact ih _ _ hl
        | act a =>
          cases a <;>
          · rcases List.mem_cons.1 hl with rfl | hl
            · exact id
            · exact ih _ _ hl
        | _ =>
          rcases List.mem_cons.1 hl with rfl | hl
          · exact id
          · exact ih _ _ hl
    rcases List.mem_append.1 hl with hl | hl
    · rcases List.mem_append.1 hl with hl | hl
      · rcases List.mem_append.1 hl with hl | hl
        · split at hl
          · rw [List.mem_singleton.1 hl] at he; exact he
          · cases hl
        · exact hd _ _ _ hl he
      · rw [List.mem_singleton.1 hl] at he
        split at he <;> exact he
    · split at hl
      · rw [List.mem_singleton.1 hl] at he; exact he
      · cases hl
  -- every node is a layer of the chain or the loss
  have hcase : ∀ (k : Nat) (n : NewNode ℝ), st.nodes[k]? = some n →
      (∃ l, L[k]? = some l ∧ n = ⟨l, [before 1 ⟨0, 0, true⟩ L k], decide (k + 1 = L.length)⟩) ∨
      (k = L.length ∧ n = ⟨.error one, [⟨L.length, 0, true⟩, ⟨0, 1, true⟩, ⟨0, 3, true⟩], false⟩) := by
    intro k n hn
    rcases Nat.lt_or_ge k L.length with hk | hk
    · have hl : L[k]? = some L[k] := List.getElem?_eq_getElem hk
      refine Or.inl ⟨L[k], hl, ?_⟩
      have := h3 k L[k] hl
      rw [hn] at this
      exact Option.some.inj this
    · have hlt := (List.getElem?_eq_some_iff.1 hn).1
      have hk' : k = L.length := by omega
      subst hk'
      refine Or.inr ⟨rfl, ?_⟩
      rw [h4] at hn
      rw [← Option.some.inj hn]
      have : 1 + L.length - 1 = L.length := by omega
      rw [this]
  have hbefore : ∀ k : Nat, k + 1 ≤ L.length → ∃ l, L[k]? = some l ∧
      before 1 ⟨0, 0, true⟩ L (k + 1) = ⟨k + 1, 0, wantsGradient l⟩ := by
    intro k hk
    have hl : L[k]? = some L[k] := List.getElem?_eq_getElem (by omega)
    refine ⟨L[k], hl, ?_⟩
    unfold before
    dsimp only
    rw [hl]
    dsimp only
    rw [Nat.add_comm 1 k]
  -- layers that do not carry gradients do not depend on parameters
  have hquiet : ∀ (k : Nat), Dependent st.nodes k → ∀ l, L[k]? = some l → wantsGradient l = true := by
    intro k hk
    induction hk with
    | own k n hn hl =>
      intro l hlk
      rcases hcase k n hn with ⟨l', hl', rfl⟩ | ⟨e, -⟩
      · rw [hlk] at hl'
        cases hl'
        cases l <;> first | rfl | exact hl.elim
      · rw [e, List.getElem?_eq_none (Nat.le_refl _)] at hlk
        cases hlk
    | reads k j n c hn hc hj _ ih =>
      intro l hlk
      rcases hcase k n hn with ⟨l', hl', rfl⟩ | ⟨e, -⟩
      · rw [List.mem_singleton.1 hc] at hj
        cases k with
        | zero => cases hj
        | succ k =>
          have hkl := (List.getElem?_eq_some_iff.1 hlk).1
          obtain ⟨l2, g1, g2⟩ := hbefore k (by omega)
          rw [g2] at hj
          have hjk : j = k := by simpa using hj.symm
          subst hjk
          cases hw : wantsGradient l with
          | true => rfl
          | false =>
            have := hq j (j + 1) l2 l (by omega) g1 hlk hw
            rw [ih l2 g1] at this
            cases this
      · rw [e, List.getElem?_eq_none (Nat.le_refl _)] at hlk
        cases hlk
  refine ⟨st, h1, ?_, ?_, ?_⟩
  · intro n hn hl c hc
    obtain ⟨k, hk⟩ := List.mem_iff_getElem?.1 hn
    rcases hcase k n hk with ⟨l, hlk, rfl⟩ | ⟨-, rfl⟩
    · rw [List.mem_singleton.1 hc]
      cases k with
      | zero => rfl
      | succ k =>
        have hkl := (List.getElem?_eq_some_iff.1 hlk).1
        obtain ⟨l2, g1, g2⟩ := hbefore k (by omega)
        have hw : wantsGradient l = false := by cases l <;> first | rfl | exact hl.elim
        rw [g2, hq k (k + 1) l2 l (by omega) g1 hlk hw]
        rfl
    · exact hl.elim
  · intro k n hn hd he
    rcases hcase k n hn with ⟨l, hlk, rfl⟩ | ⟨-, rfl⟩
    · have hw := hquiet k hd l hlk
      have hkl := (List.getElem?_eq_some_iff.1 hlk).1
      rcases Nat.lt_or_ge (k + 1) L.length with h | h
      · have hl' : L[k + 1]? = some L[k + 1] := List.getElem?_eq_getElem h
        refine ⟨_, List.mem_of_getElem? (h3 (k + 1) _ hl'), ?_⟩
        obtain ⟨l2, g1, g2⟩ := hbefore k hkl
        rw [hlk] at g1
        cases g1
        rw [g2, hw]
        exact List.mem_singleton.2 rfl
      · refine ⟨_, List.mem_of_getElem? h4, ?_⟩
        have : 1 + L.length - 1 = k + 1 := by omega
        rw [this]
        exact List.mem_cons_self ..
    · exact absurd trivial he
  · intro ds known sh w hsh ho hd1 hd3 w1 w2 w3 w4 n hn hl
    obtain ⟨k, hk⟩ := List.mem_iff_getElem?.1 hn
    rcases hcase k n hk with ⟨l, hlk, rfl⟩ | ⟨-, rfl⟩
    · exact absurd hl (hloss l (List.mem_of_getElem? hlk))
    · obtain ⟨i, hi, hi1, hi2⟩ := ho
      have hlast : L.length - 1 = i := by
        have hl : L[L.length - 1]? = some L[L.length - 1] := List.getElem?_eq_getElem (by omega)
        exact (hi1 _ _ (h3 _ _ hl)).1 (by show decide _ = true; rw [decide_eq_true_eq]; omega)
      have e1 : shapeAt ds known ⟨L.length, 0, true⟩ = sh := by
        unfold shapeAt
        rw [if_neg (by show ¬ L.length = 0; omega)]
        show (known.getD (L.length - 1) []).getD 0 _ = sh
        have hk0 : known.getD i [] = [sh] := by rw [List.getD_eq_getElem?_getD, hi2]; rfl
        rw [hlast, hk0]
        rfl
      have e2 : shapeAt ds known ⟨0, 1, true⟩ = sh := by
        show ds.getD 1 _ = sh
        rw [List.getD_eq_getElem?_getD, hd1]
        rfl
      have e3 : shapeAt ds known ⟨0, 3, true⟩ = w := by
        show ds.getD 3 _ = w
        rw [List.getD_eq_getElem?_getD, hd3]
        rfl
      show Comparable [shapeAt ds known ⟨L.length, 0, true⟩, shapeAt ds known ⟨0, 1, true⟩,
        shapeAt ds known ⟨0, 3, true⟩]
      rw [e1, e2, e3]
      exact ⟨rfl, w1, w2, w3, w4⟩

/-! ### Non-vacuity -/

/-- Two convolutions with an activation between them, for patches. -/
def trainItems : List Item := [.patches, .conv 2 (3, 3) none none, .act .tanh, .full 1]

theorem trainItems_ok : ∀ i ∈ trainItems, i.Ok := by
  intro i hi
  simp only [trainItems, List.mem_cons, List.not_mem_nil, or_false] at hi
  rcases hi with rfl | rfl | rfl | rfl
  all_goals
    refine ⟨by exact nofun, ?_, ?_, ?_⟩
    · first | (rintro n k s p e; cases e; done) | (rintro n k s p e; cases e; decide)
    · first | (rintro n e; cases e; done) | (rintro n e; cases e; decide)
    · first | (intro g e; cases e; done) | (intro g e; cases e; simp [Geo.Ok])

/-- Its nodes. -/
noncomputable def trainNodes : List (NewNode ℝ) :=
  [⟨.conv ⟨2, 3, 3, 1, 1, 0, 0, 1⟩ 0 0 1, [⟨0, 0, true⟩], false⟩, ⟨.tanh, [⟨1, 0, true⟩], false⟩,
    ⟨.conv ⟨1, 1, 1, 1, 1, 0, 0, 1⟩ 1 0 1, [⟨2, 0, true⟩], false⟩, ⟨.tanh, [⟨3, 0, true⟩], true⟩,
    ⟨.error 1, [⟨4, 0, true⟩, ⟨0, 1, true⟩, ⟨0, 3, true⟩], false⟩]

theorem trainNodes_layers (conv : Config.Str → ℝ) (f : Fields) (hf : f.method = .patch) :
    ∃ st, addLayers conv 0 1 f (linesOf (descriptionText trainItems)) ⟨0, 0, true⟩ 1 1 true = .done st ∧
      st.nodes = trainNodes := by
  obtain ⟨st, h1, h2, h3, h4⟩ := C56_layers conv 0 1 trainItems f ⟨0, 0, true⟩ 1 1 true trainItems_ok (by decide +kernel)
  refine ⟨st, h1, ?_⟩
  have hL : netLayers (0 : ℝ) 1 f 1 trainItems = [.conv ⟨2, 3, 3, 1, 1, 0, 0, 1⟩ 0 0 1, .tanh,
      .conv ⟨1, 1, 1, 1, 1, 0, 0, 1⟩ 1 0 1, .tanh] := by
    unfold netLayers
    rw [hf]
    rfl
  rw [hL] at h2 h3 h4
  have h4 := h4 rfl
  apply List.ext_getElem?
  intro k
  match k with
  | 0 => exact h3 0 _ rfl
  | 1 => exact h3 1 _ rfl
  | 2 => exact h3 2 _ rfl
  | 3 => exact h3 3 _ rfl
  | 4 => exact h4
  | k + 5 =>
    rw [List.getElem?_eq_none (by rw [h2]; show 5 ≤ _; omega), List.getElem?_eq_none (by show 5 ≤ _; omega)]

/-- A batch of four patches with labels. -/
def trainShapes : List Shape := [⟨4, 3, 3, 3⟩, ⟨4, 1, 1, 1⟩, ⟨4, 1, 1, 2⟩, ⟨4, 1, 1, 1⟩]

theorem trainNodes_shapes : shapes 0 1 trainShapes trainNodes [] =
    .done [[⟨4, 1, 1, 2⟩], [⟨4, 1, 1, 2⟩], [⟨4, 1, 1, 1⟩], [⟨4, 1, 1, 1⟩], []] := by
  unfold trainNodes trainShapes
  rfl

/-- All conditions of `C85_gradient_partial` hold for this description, at all data and for all values of its
parameters; its convolutions have 56 and 3 parameters. -/
theorem trainItems_meet (conv : Config.Str → ℝ) (f : Fields) (hf : f.method = .patch) (lowest : ℝ) (y : Nat → Nat → Vec) :
    ∃ st, addLayers conv 0 1 f (linesOf (descriptionText trainItems)) ⟨0, 0, true⟩ 1 1 true = .done st ∧
      ∃ known, shapes 0 1 trainShapes st.nodes [] = .done known ∧ DownFirst st.nodes ∧ AllRead st.nodes ∧
        LabelsFit st.nodes trainShapes known ∧ AllRegular lowest st.nodes trainShapes known y ∧
        countsOf st.nodes trainShapes known 1 = 56 ∧ countsOf st.nodes trainShapes known 3 = 3 := by
  obtain ⟨st, h1, h2⟩ := trainNodes_layers conv f hf
  obtain ⟨st', g1, g2, g3, g4⟩ := C85_chain conv 0 1 trainItems f 1 trainItems_ok (by decide +kernel) (by
    intro a k b e
    have : Item.down k ∈ trainItems := by rw [e]; simp
    simp [trainItems] at this)
  rw [h1] at g1
  cases g1
  refine ⟨st, h1, _, by rw [h2]; exact trainNodes_shapes, g2, g3, ?_, ?_, ?_, ?_⟩
  · refine g4 _ _ ⟨4, 1, 1, 1⟩ ⟨4, 1, 1, 1⟩ (by rw [h2]; exact trainNodes_shapes) ?_ rfl rfl rfl rfl rfl (by decide)
    rw [h2]
    refine ⟨3, by decide, ?_, rfl⟩
    intro j n hn
    match j with
    | 0 => cases hn; decide
    | 1 => cases hn; decide
    | 2 => cases hn; decide
    | 3 => cases hn; decide
    | 4 => cases hn; decide
    | j + 5 => rw [List.getElem?_eq_none (by show 5 ≤ _; omega)] at hn; cases hn
  · rw [h2]
    intro k n hn _
    match k with
    | 0 => cases hn; exact ⟨rfl, fun h => by cases h⟩
    | 1 => cases hn; trivial
    | 2 => cases hn; exact ⟨rfl, fun _ => ⟨rfl, by decide, by decide⟩⟩
    | 3 => cases hn; trivial
    | 4 => cases hn; trivial
    | k + 5 => rw [List.getElem?_eq_none (by show 5 ≤ _; omega)] at hn; cases hn
  · rw [h2]; rfl
  · rw [h2]; rfl

/-- C85, refuted: this description, with down-sampling behind a convolution, is accepted, but the first backward pass
ends the program. -/
theorem C85_downsampling_witness (conv : Config.Str → ℝ) (f : Fields) (hf : f.method = .patch) :
    ∃ st, addLayers conv 0 1 f (linesOf (descriptionText [.patches, .conv 1 (1, 1) none none, .down (2, 2)]))
        ⟨0, 0, true⟩ 1 1 true = .done st ∧
      ∃ known, shapes 0 1 [⟨1, 2, 2, 1⟩, ⟨1, 1, 1, 1⟩, ⟨1, 1, 1, 2⟩, ⟨1, 1, 1, 1⟩] st.nodes [] = .done known ∧
        ∃ g' N blog, (∀ fuel, 2 ≤ fuel → insertAll fuel (graphOf st.nodes) = some g') ∧
          (∀ fuel, N ≤ fuel → ∀ flags, ∃ v, backPropagate g' fuel flags = some ⟨v, blog⟩) ∧
          ∃ e ∈ blog, fatalCall st.nodes e = true := by
  obtain ⟨st, h1, h2, h3, h4⟩ := C56_layers conv (0 : ℝ) 1 [.patches, .conv 1 (1, 1) none none, .down (2, 2)] f
    ⟨0, 0, true⟩ 1 1 true (by
      intro i hi
      simp only [List.mem_cons, List.not_mem_nil, or_false] at hi
      rcases hi with rfl | rfl | rfl
      all_goals
        refine ⟨by exact nofun, ?_, ?_, ?_⟩
        · first | (rintro n k s p e; cases e; done) | (rintro n k s p e; cases e; decide)
        · first | (rintro n e; cases e; done) | (rintro n e; cases e; decide)
        · first | (intro g e; cases e; done) | (intro g e; cases e; simp [Geo.Ok])) (by decide +kernel)
  have hL : netLayers (0 : ℝ) 1 f 1 [.patches, .conv 1 (1, 1) none none, .down (2, 2)] =
      [.conv ⟨1, 1, 1, 1, 1, 0, 0, 1⟩ 0 0 1, .downSample 2 2, .tanh] := by
    unfold netLayers
    rw [hf]
    rfl
  rw [hL] at h2 h3 h4
  have h4 := h4 rfl
  have hn : st.nodes = [⟨.conv ⟨1, 1, 1, 1, 1, 0, 0, 1⟩ 0 0 1, [⟨0, 0, true⟩], false⟩,
      ⟨.downSample 2 2, [⟨1, 0, true⟩], false⟩, ⟨.tanh, [⟨2, 0, false⟩], true⟩,
      ⟨.error 1, [⟨3, 0, true⟩, ⟨0, 1, true⟩, ⟨0, 3, true⟩], false⟩] := by
    apply List.ext_getElem?
    intro k
    match k with
    | 0 => exact h3 0 _ rfl
    | 1 => exact h3 1 _ rfl
    | 2 => exact h3 2 _ rfl
    | 3 => exact h4
    | k + 4 =>
      rw [List.getElem?_eq_none (by rw [h2]; show 4 ≤ _; omega), List.getElem?_eq_none (by show 4 ≤ _; omega)]
  have hsh : shapes 0 1 [⟨1, 2, 2, 1⟩, ⟨1, 1, 1, 1⟩, ⟨1, 1, 1, 2⟩, ⟨1, 1, 1, 1⟩] st.nodes [] =
      .done [[⟨1, 2, 2, 1⟩], [⟨1, 1, 1, 1⟩], [⟨1, 1, 1, 1⟩], []] := by
    rw [hn]
    rfl
  refine ⟨st, h1, _, hsh, ?_⟩
  exact C85_downsampling_fatal st.nodes _ rfl _ hsh ⟨.downSample 2 2, [⟨1, 0, true⟩], false⟩ (by rw [hn]; simp) trivial
    ⟨1, 0, true⟩ (by simp) rfl

end CN24.NetTrain
