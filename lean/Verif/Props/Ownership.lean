import Verif.Model.Ownership

/-
C11: buffers are released once and stay readable while they are owned.
-/

namespace CN24.Props.Own
open CN24.Own

/-! ## Specification -/

/-- Tensor `i` exists and owns the block `b`. -/
def Owns (w : World) (i b : Nat) : Prop :=
  ∃ t, w.tensors i = some t ∧ t.shadow = false ∧ t.ptr = some b

def Live (w : World) (b : Nat) : Prop := ∃ k, w.blocks[b]? = some (k, true)

/-- What the property promises about a state. -/
structure Sound (w : World) : Prop where
  /-- an owner can read and write its buffer -/
  readable : ∀ i b, Owns w i b → Live w b
  /-- nobody else owns it -/
  exclusive : ∀ i j b, Owns w i b → Owns w j b → i = j
  /-- every buffer not yet released has an owner (no leaks) -/
  noLeak : ∀ b, Live w b → ∃ i, Owns w i b

/-- The uses the code supports.  The source of a move owns a `new`-allocated buffer or nothing;
a file is not mapped into a tensor that already holds a mapping; data reached through a shadow
are used only while the buffer is still there. -/
def Admits (w : World) : Op → Prop
  | .move _ j => ∀ t, w.tensors j = some t → t.shadow = false ∧ t.mmapped = false
  | .mapFile i _ => ∀ t, w.tensors i = some t → t.mmapped = false
  | .access i => ∀ t, w.tensors i = some t → t.shadow = true → ∀ b, t.ptr = some b → Live w b
  | .copy _ j => ∀ t, w.tensors j = some t → t.shadow = true → ∀ b, t.ptr = some b → Live w b
  | _ => True

def Proper (w : World) : List Op → Prop
  | [] => True
  | op :: ops => Admits w op ∧ ∀ w', exec w op = some w' → Proper w' ops

/-! ## Invariant -/

/-- A tensor's own fields are consistent. -/
structure TOk (t : T) : Prop where
  null : t.ptr = none → t.elements = 0
  mm : t.mmapped = true → t.shadow = false ∧ t.ptr ≠ none ∧ t.orig = t.ptr

structure Inv (w : World) : Prop where
  ok : ∀ i t, w.tensors i = some t → TOk t
  live : ∀ i t b, w.tensors i = some t → t.shadow = false → t.ptr = some b →
    w.blocks[b]? = some (if t.mmapped then .mapped else .heap, true)
  excl : ∀ i j b, Owns w i b → Owns w j b → i = j
  noLeak : ∀ b, Live w b → ∃ i, Owns w i b

theorem Inv.sound {w : World} (h : Inv w) : Sound w where
  readable := fun i b ⟨t, h1, h2, h3⟩ => ⟨_, h.live i t b h1 h2 h3⟩
  exclusive := h.excl
  noLeak := h.noLeak

/-- Removing the buffer of one tensor. -/
theorem drop_inv {w : World} (h : Inv w) (i : Nat) (t : T) (hi : w.tensors i = some t) :
    ∃ bs t', deleteIfPossible w.blocks t = some (bs, t') ∧ bs.length = w.blocks.length ∧
      t'.ptr = none ∧ t'.elements = 0 ∧ t'.shadow = false ∧ t'.mmapped = false ∧
      Inv ({ w with blocks := bs }.set i (some t')) ∧ Inv ({ w with blocks := bs }.set i none) := by
  have hok := h.ok i t hi
  -- the two cases: nothing released, or the block of `t`
  have key : ∃ bs t', deleteIfPossible w.blocks t = some (bs, t') ∧ bs.length = w.blocks.length ∧
      t'.ptr = none ∧ t'.elements = 0 ∧ t'.shadow = false ∧ t'.mmapped = false ∧
      (((∀ b, ¬ Owns w i b) ∧ bs = w.blocks) ∨
        ∃ b k, Owns w i b ∧ w.blocks[b]? = some (k, true) ∧ bs = w.blocks.set b (k, false)) := by
    unfold deleteIfPossible
    cases hp : t.ptr with
    | none =>
      refine ⟨_, _, rfl, rfl, by simpa using hp, rfl, rfl, ?_, Or.inl ⟨?_, rfl⟩⟩
      · cases hm : t.mmapped with
        | false => simpa using hm
        | true => exact absurd hp (hok.mm hm).2.1
      · rintro b ⟨u, hu, _, hb⟩
        rw [hi] at hu; cases hu; rw [hp] at hb; cases hb
    | some b =>
      simp only
      cases hs : t.shadow with
      | true =>
        refine ⟨_, { t with ptr := none, elements := 0, shadow := false }, by rw [if_pos rfl], rfl,
          rfl, rfl, rfl, ?_, Or.inl ⟨?_, rfl⟩⟩
        · cases hm : t.mmapped with
          | false => simpa using hm
          | true => have := (hok.mm hm).1; simp [hs] at this
        · rintro b ⟨u, hu, hsu, _⟩
          rw [hi] at hu; cases hu; rw [hs] at hsu; cases hsu
      | false =>
        have hl := h.live i t b hi hs hp
        cases hm : t.mmapped with
        | true =>
          rw [hm] at hl
          have horig : t.orig = some b := by rw [(hok.mm hm).2.2, hp]
          simp only [Bool.false_eq_true, if_false, if_true, horig, release]
          rw [if_pos (by simpa using hl)]
          exact ⟨_, _, rfl, by simp, rfl, rfl, rfl, rfl,
            Or.inr ⟨b, .mapped, ⟨t, hi, hs, hp⟩, by simpa using hl, rfl⟩⟩
        | false =>
          rw [hm] at hl
          simp only [Bool.false_eq_true, if_false, release]
          rw [if_pos (by simpa using hl)]
          exact ⟨_, _, rfl, by simp, rfl, rfl, rfl, by simpa using hm,
            Or.inr ⟨b, .heap, ⟨t, hi, hs, hp⟩, by simpa using hl, rfl⟩⟩
  obtain ⟨bs, t', e1, e2, e3, e4, e5, e6, e7⟩ := key
  -- any replacement of `i` by an object without a buffer keeps the invariant
  have gen : ∀ r : Option T, (∀ u, r = some u → u.ptr = none ∧ TOk u) →
      Inv ({ w with blocks := bs }.set i r) := by
    intro r hr
    have hown : ∀ j c, Owns ({ w with blocks := bs }.set i r) j c → j ≠ i ∧ Owns w j c := by
      rintro j c ⟨u, hu, hsu, hpu⟩
      simp only [World.set] at hu
      by_cases hj : j = i
      · rw [if_pos hj] at hu
        have := (hr u hu).1
        rw [this] at hpu; cases hpu
      · rw [if_neg hj] at hu
        exact ⟨hj, u, hu, hsu, hpu⟩
    have hown' : ∀ j c, j ≠ i → Owns w j c → Owns ({ w with blocks := bs }.set i r) j c := by
      rintro j c hj ⟨u, hu, hsu, hpu⟩
      exact ⟨u, by simp only [World.set]; rw [if_neg hj]; exact hu, hsu, hpu⟩
    refine ⟨?_, ?_, ?_, ?_⟩
    · intro j u hu
      simp only [World.set] at hu
      by_cases hj : j = i
      · rw [if_pos hj] at hu; exact (hr u hu).2
      · rw [if_neg hj] at hu; exact h.ok j u hu
    · intro j u c hu hsu hpu
      have hne := hown j c ⟨u, hu, hsu, hpu⟩
      have hu' : w.tensors j = some u := by
        simp only [World.set] at hu; rwa [if_neg hne.1] at hu
      have hl := h.live j u c hu' hsu hpu
      rcases e7 with ⟨_, rfl⟩ | ⟨b, k, hb, hbk, rfl⟩
      · exact hl
      · have hcb : c ≠ b := by
          rintro rfl
          exact hne.1 (h.excl j i c hne.2 hb)
        show (w.blocks.set b (k, false))[c]? = _
        rw [List.getElem?_set_ne (fun e => hcb e.symm)]; exact hl
    · intro j k c hj hk
      exact h.excl j k c (hown j c hj).2 (hown k c hk).2
    · rintro c ⟨k, hk⟩
      rcases e7 with ⟨hno, rfl⟩ | ⟨b, k', hb, hbk, rfl⟩
      · obtain ⟨j, hj⟩ := h.noLeak c ⟨k, hk⟩
        have : j ≠ i := by rintro rfl; exact hno c hj
        exact ⟨j, hown' j c this hj⟩
      · have hcb : c ≠ b := by
          rintro rfl
          have hlt : c < w.blocks.length := (List.getElem?_eq_some_iff.1 hbk).1
          change (w.blocks.set c (k', false))[c]? = _ at hk
          rw [List.getElem?_set_self hlt] at hk
          cases hk
        change (w.blocks.set b (k', false))[c]? = _ at hk
        rw [List.getElem?_set_ne (fun e => hcb e.symm)] at hk
        obtain ⟨j, hj⟩ := h.noLeak c ⟨k, hk⟩
        have : j ≠ i := by
          rintro rfl
          obtain ⟨u, hu, _, hpu⟩ := hj
          obtain ⟨v, hv, _, hpv⟩ := hb
          rw [hu] at hv; cases hv; rw [hpu] at hpv; cases hpv; exact hcb rfl
        exact ⟨j, hown' j c this hj⟩
  refine ⟨bs, t', e1, e2, e3, e4, e5, e6, gen _ ?_, gen _ (by simp)⟩
  intro u hu
  cases hu
  exact ⟨e3, ⟨fun _ => e4, by simp [e6]⟩⟩

/-- Giving a fresh block to a tensor that has none. -/
theorem grow_inv {w : World} (h : Inv w) (i : Nat) (t : T) (k : Kind)
    (hfree : ∀ b, ¬ Owns w i b)
    (hs : t.shadow = false) (hp : t.ptr = some w.blocks.length)
    (hk : k = if t.mmapped then .mapped else .heap)
    (hm : t.mmapped = true → t.orig = t.ptr) :
    Inv ({ w with blocks := w.blocks ++ [(k, true)] }.set i (some t)) := by
  have hlt : ∀ j c, Owns w j c → c < w.blocks.length := by
    rintro j c ⟨u, hu, hsu, hpu⟩
    exact (List.getElem?_eq_some_iff.1 (h.live j u c hu hsu hpu)).1
  have hown : ∀ j c, Owns ({ w with blocks := w.blocks ++ [(k, true)] }.set i (some t)) j c ↔
      (j = i ∧ c = w.blocks.length) ∨ (j ≠ i ∧ Owns w j c) := by
    intro j c
    constructor
    · rintro ⟨u, hu, hsu, hpu⟩
      simp only [World.set] at hu
      by_cases hj : j = i
      · rw [if_pos hj] at hu; cases hu; rw [hp] at hpu; cases hpu; exact Or.inl ⟨hj, rfl⟩
      · rw [if_neg hj] at hu; exact Or.inr ⟨hj, u, hu, hsu, hpu⟩
    · rintro (⟨rfl, rfl⟩ | ⟨hj, u, hu, hsu, hpu⟩)
      · exact ⟨t, by simp [World.set], hs, hp⟩
      · exact ⟨u, by simp only [World.set]; rw [if_neg hj]; exact hu, hsu, hpu⟩
  refine ⟨?_, ?_, ?_, ?_⟩
  · intro j u hu
    simp only [World.set] at hu
    by_cases hj : j = i
    · rw [if_pos hj] at hu; cases hu
      exact ⟨by simp [hp], fun hmm => ⟨hs, by simp [hp], hm hmm⟩⟩
    · rw [if_neg hj] at hu; exact h.ok j u hu
  · intro j u c hu hsu hpu
    show (w.blocks ++ [(k, true)])[c]? = _
    simp only [World.set] at hu
    by_cases hj : j = i
    · rw [if_pos hj] at hu; cases hu; rw [hp] at hpu; cases hpu
      rw [List.getElem?_append_right (Nat.le_refl _)]; simp [hk]
    · rw [if_neg hj] at hu
      have hl := h.live j u c hu hsu hpu
      rw [List.getElem?_append_left (List.getElem?_eq_some_iff.1 hl).1]; exact hl
  · intro j l c hj hl
    rw [hown] at hj hl
    rcases hj with ⟨rfl, rfl⟩ | ⟨hj, hj'⟩ <;> rcases hl with ⟨rfl, hc⟩ | ⟨hl, hl'⟩
    · rfl
    · have := hlt l _ hl'; omega
    · have := hlt j _ hj'; omega
    · exact h.excl j l c hj' hl'
  · rintro c ⟨k', hc⟩
    change (w.blocks ++ [(k, true)])[c]? = _ at hc
    by_cases hcl : c < w.blocks.length
    · rw [List.getElem?_append_left hcl] at hc
      obtain ⟨j, hj⟩ := h.noLeak c ⟨k', hc⟩
      have : j ≠ i := by rintro rfl; exact hfree c hj
      exact ⟨j, (hown j c).2 (Or.inr ⟨this, hj⟩)⟩
    · have := (List.getElem?_eq_some_iff.1 hc).1
      simp at this
      exact ⟨i, (hown i c).2 (Or.inl ⟨rfl, by omega⟩)⟩

/-- Changing an object that owns nothing into another one that owns nothing. -/
theorem swap_inv {w : World} (h : Inv w) (i : Nat) (r : Option T) (hfree : ∀ b, ¬ Owns w i b)
    (hr : ∀ u, r = some u → TOk u ∧ (u.shadow = true ∨ u.ptr = none)) :
    Inv (w.set i r) := by
  have hown : ∀ j c, Owns (w.set i r) j c ↔ Owns w j c := by
    intro j c
    constructor
    · rintro ⟨u, hu, hsu, hpu⟩
      simp only [World.set] at hu
      by_cases hj : j = i
      · rw [if_pos hj] at hu
        rcases (hr u hu).2 with h1 | h1
        · rw [hsu] at h1; cases h1
        · rw [hpu] at h1; cases h1
      · rw [if_neg hj] at hu; exact ⟨u, hu, hsu, hpu⟩
    · rintro ⟨u, hu, hsu, hpu⟩
      have hj : j ≠ i := by rintro rfl; exact hfree c ⟨u, hu, hsu, hpu⟩
      exact ⟨u, by simp only [World.set]; rw [if_neg hj]; exact hu, hsu, hpu⟩
  refine ⟨?_, ?_, ?_, ?_⟩
  · intro j u hu
    simp only [World.set] at hu
    by_cases hj : j = i
    · rw [if_pos hj] at hu; exact (hr u hu).1
    · rw [if_neg hj] at hu; exact h.ok j u hu
  · intro j u c hu hsu hpu
    simp only [World.set] at hu
    by_cases hj : j = i
    · rw [if_pos hj] at hu
      rcases (hr u hu).2 with h1 | h1
      · rw [hsu] at h1; cases h1
      · rw [hpu] at h1; cases h1
    · rw [if_neg hj] at hu; exact h.live j u c hu hsu hpu
  · intro j l c hj hl; exact h.excl j l c ((hown j c).1 hj) ((hown l c).1 hl)
  · rintro c ⟨k, hk⟩
    obtain ⟨j, hj⟩ := h.noLeak c ⟨k, hk⟩
    exact ⟨j, (hown j c).2 hj⟩

theorem set_set (w : World) (i : Nat) (a b : Option T) : (w.set i a).set i b = w.set i b := by
  simp only [World.set]
  congr 1
  funext k
  by_cases h : k = i <;> simp [h]

theorem set_blocks (w : World) (i : Nat) (a : Option T) (bs) :
    { (w.set i a) with blocks := bs } = { w with blocks := bs }.set i a := rfl

/-- `Resize` for an existing object. -/
theorem resize_inv {w : World} (h : Inv w) (i : Nat) (t : T) (n : Nat) (hi : w.tensors i = some t) :
    ∃ bs t', Own.resize w.blocks t n = some (bs, t') ∧ t'.elements = n ∧
      Inv ({ w with blocks := bs }.set i (some t')) := by
  unfold Own.resize
  by_cases hc : t.ptr ≠ none ∧ t.elements = n
  · rw [if_pos hc]
    refine ⟨_, _, rfl, hc.2, ?_⟩
    have : ({ w with blocks := w.blocks }.set i (some t)) = w := by
      have ht : (fun k => if k = i then some t else w.tensors k) = w.tensors := by
        funext k; by_cases hk : k = i
        · rw [if_pos hk, hk, hi]
        · rw [if_neg hk]
      simp only [World.set, ht]
    rw [this]; exact h
  · rw [if_neg hc]
    obtain ⟨bs, t', e1, e2, e3, e4, e5, e6, e7, _⟩ := drop_inv h i t hi
    rw [e1, Option.map_some]
    by_cases hn : n = 0
    · simp only [hn, if_true]
      exact ⟨_, _, rfl, e4, e7⟩
    · simp only [hn, if_false]
      refine ⟨_, _, rfl, rfl, ?_⟩
      have hfree : ∀ b, ¬ Owns ({ w with blocks := bs }.set i (some t')) i b := by
        rintro b ⟨u, hu, _, hpu⟩
        simp only [World.set, if_true] at hu
        cases hu; rw [e3] at hpu; cases hpu
      have := grow_inv e7 i { t' with ptr := some bs.length, elements := n } .heap hfree e5 rfl
        (by simp [e6]) (by simp [e6])
      rw [← set_set]
      exact this

theorem access_ok {w : World} (h : Inv w) (i : Nat) (t : T) (hi : w.tensors i = some t)
    (hsh : t.shadow = true → ∀ b, t.ptr = some b → Live w b) :
    Own.access w.blocks t = some () := by
  unfold Own.access
  by_cases he : t.elements = 0
  · rw [if_pos he]
  · rw [if_neg he]
    cases hp : t.ptr with
    | none => exact absurd ((h.ok i t hi).null hp) he
    | some b =>
      simp only
      cases hs : t.shadow with
      | true =>
        obtain ⟨k, hk⟩ := hsh hs b hp
        rw [if_pos (by simp [hk])]
      | false => rw [if_pos (by simp [h.live i t b hi hs hp])]

theorem access_append {bs bs' : List (Kind × Bool)} {t : T} (h : Own.access bs t = some ()) :
    Own.access (bs ++ bs') t = some () := by
  unfold Own.access at h ⊢
  split
  · rfl
  · rename_i he
    rw [if_neg he] at h
    cases hp : t.ptr with
    | none => rw [hp] at h; cases h
    | some b =>
      rw [hp] at h
      simp only at h ⊢
      split at h
      · rename_i hb
        have : b < bs.length := by
          rw [Option.map_eq_some_iff] at hb
          obtain ⟨x, hx, _⟩ := hb
          exact (List.getElem?_eq_some_iff.1 hx).1
        rw [List.getElem?_append_left this, if_pos hb]
      · cases h

theorem exec_inv {w : World} (h : Inv w) (op : Op) (hop : Admits w op) :
    ∃ w', exec w op = some w' ∧ Inv w' := by
  have hnone : ∀ i, w.tensors i = none → ∀ b, ¬ Owns w i b := by
    rintro i hi b ⟨u, hu, _⟩; rw [hi] at hu; cases hu
  have tok0 : TOk ({} : T) := ⟨fun _ => rfl, by simp⟩
  have hnew : ∀ i, w.tensors i = none → Inv (w.set i (some {})) := fun i hi =>
    swap_inv h i _ (hnone i hi) (by intro u hu; cases hu; exact ⟨tok0, Or.inr rfl⟩)
  cases op with
  | construct i =>
    simp only [exec]
    cases hi : w.tensors i with
    | some t => exact ⟨w, rfl, h⟩
    | none => exact ⟨_, rfl, hnew i hi⟩
  | constructSized i n =>
    simp only [exec]
    cases hi : w.tensors i with
    | some t => exact ⟨w, rfl, h⟩
    | none =>
      obtain ⟨bs, t', e1, _, e2⟩ := resize_inv (hnew i hi) i {} n (by simp [World.set])
      refine ⟨_, by simp only; rw [show w.blocks = (w.set i (some {})).blocks from rfl, e1]; rfl, ?_⟩
      rw [set_blocks, set_set] at e2; exact e2
  | copy i j =>
    simp only [exec]
    cases hi : w.tensors i with
    | some t => exact ⟨w, rfl, h⟩
    | none =>
      cases hj : w.tensors j with
      | none => exact ⟨w, rfl, h⟩
      | some src =>
        obtain ⟨bs, t', e1, e1', e2⟩ := resize_inv (hnew i hi) i {} src.elements (by simp [World.set])
        have hacc := access_ok h j src hj (hop src hj)
        have hbs : ∃ ext, bs = w.blocks ++ ext := by
          have : Own.resize w.blocks {} src.elements = some (bs, t') := e1
          simp only [Own.resize, deleteIfPossible] at this
          simp only [ne_eq, not_true_eq_false, false_and, if_false, Option.map_some] at this
          split at this
          · cases this; exact ⟨[], by simp⟩
          · cases this; exact ⟨_, rfl⟩
        obtain ⟨ext, rfl⟩ := hbs
        have hacc2 : Own.access (w.blocks ++ ext) t' = some () := by
          refine access_ok (w := { w with blocks := w.blocks ++ ext }.set i (some t')) ?_ i t'
            (by simp [World.set]) ?_
          · rw [set_blocks, set_set] at e2; exact e2
          · intro hs
            have : Own.resize w.blocks {} src.elements = some (w.blocks ++ ext, t') := e1
            simp only [Own.resize, deleteIfPossible] at this
            simp only [ne_eq, not_true_eq_false, false_and, if_false, Option.map_some] at this
            split at this
            · rw [← (Prod.mk.inj (Option.some.inj this)).2] at hs; cases hs
            · rw [← (Prod.mk.inj (Option.some.inj this)).2] at hs; cases hs
        refine ⟨{ w with blocks := w.blocks ++ ext }.set i (some t'), ?_, ?_⟩
        · simp only
          rw [show w.blocks = (w.set i (some {})).blocks from rfl, e1]
          simp only [Option.bind_some]
          rw [show (w.set i (some {})).blocks = w.blocks from rfl, access_append hacc,
            Option.bind_some, hacc2]
          rfl
        · rw [set_blocks, set_set] at e2; exact e2
  | move i j =>
    simp only [exec]
    cases hi : w.tensors i with
    | some t => exact ⟨w, rfl, h⟩
    | none =>
      cases hj : w.tensors j with
      | none => exact ⟨w, rfl, h⟩
      | some src =>
        obtain ⟨hs, hm⟩ := hop src hj
        have hij : i ≠ j := by rintro rfl; rw [hi] at hj; cases hj
        simp only [deleteIfPossible, Option.map_some]
        refine ⟨_, rfl, ?_⟩
        -- ownership moves from j to i
        have hok := h.ok j src hj
        generalize hw' : World.set (World.set { w with blocks := w.blocks } j
          (some { src with ptr := none, elements := 0, shadow := false })) i
          (some { ptr := src.ptr, elements := src.elements }) = w'
        have htens : ∀ k, w'.tensors k = if k = i then some { ptr := src.ptr, elements := src.elements }
            else if k = j then some { src with ptr := none, elements := 0, shadow := false }
            else w.tensors k := by
          intro k; rw [← hw']; simp only [World.set]
        have hblk : w'.blocks = w.blocks := by rw [← hw']; rfl
        have hown : ∀ k c, Owns w' k c → (k = i ∧ Owns w j c) ∨ (k ≠ i ∧ k ≠ j ∧ Owns w k c) := by
          rintro k c ⟨u, hu, hsu, hpu⟩
          rw [htens] at hu
          by_cases hki : k = i
          · rw [if_pos hki] at hu; cases hu
            exact Or.inl ⟨hki, src, hj, hs, hpu⟩
          · rw [if_neg hki] at hu
            by_cases hkj : k = j
            · rw [if_pos hkj] at hu; cases hu; cases hpu
            · rw [if_neg hkj] at hu; exact Or.inr ⟨hki, hkj, u, hu, hsu, hpu⟩
        refine ⟨?_, ?_, ?_, ?_⟩
        · intro k u hu
          rw [htens] at hu
          by_cases hki : k = i
          · rw [if_pos hki] at hu; cases hu
            exact ⟨hok.null, by simp⟩
          · rw [if_neg hki] at hu
            by_cases hkj : k = j
            · rw [if_pos hkj] at hu; cases hu
              exact ⟨fun _ => rfl, by simp [hm]⟩
            · rw [if_neg hkj] at hu; exact h.ok k u hu
        · intro k u c hu hsu hpu
          rw [hblk]
          rw [htens] at hu
          by_cases hki : k = i
          · rw [if_pos hki] at hu; cases hu
            have := h.live j src c hj hs hpu
            rw [hm] at this; simpa using this
          · rw [if_neg hki] at hu
            by_cases hkj : k = j
            · rw [if_pos hkj] at hu; cases hu; cases hpu
            · rw [if_neg hkj] at hu; exact h.live k u c hu hsu hpu
        · intro k l c hk hl
          rcases hown k c hk with ⟨rfl, hk'⟩ | ⟨hk1, hk2, hk'⟩ <;>
            rcases hown l c hl with ⟨rfl, hl'⟩ | ⟨hl1, hl2, hl'⟩
          · rfl
          · exact absurd (h.excl l j c hl' hk') hl2
          · exact absurd (h.excl k j c hk' hl') hk2
          · exact h.excl k l c hk' hl'
        · rintro c ⟨k', hc⟩
          rw [hblk] at hc
          obtain ⟨k, hk⟩ := h.noLeak c ⟨k', hc⟩
          obtain ⟨u, hu, hsu, hpu⟩ := hk
          by_cases hkj : k = j
          · subst hkj; rw [hj] at hu; cases hu
            exact ⟨i, { ptr := src.ptr, elements := src.elements }, by rw [htens, if_pos rfl], rfl, hpu⟩
          · have hki : k ≠ i := by rintro rfl; rw [hi] at hu; cases hu
            exact ⟨k, u, by rw [htens, if_neg hki, if_neg hkj]; exact hu, hsu, hpu⟩
  | resize i n =>
    simp only [exec]
    cases hi : w.tensors i with
    | none => exact ⟨w, rfl, h⟩
    | some t =>
      obtain ⟨bs, t', e1, _, e2⟩ := resize_inv h i t n hi
      refine ⟨_, by simp only; rw [e1]; rfl, e2⟩
  | shadow i j =>
    simp only [exec]
    cases hi : w.tensors i with
    | none => exact ⟨w, rfl, h⟩
    | some t =>
      cases hj : w.tensors j with
      | none => exact ⟨w, rfl, h⟩
      | some u =>
        obtain ⟨bs, t', e1, e2, e3, e4, e5, e6, e7, _⟩ := drop_inv h i t hi
        have htgt : ∃ tgt, ({ w with blocks := bs }.set i (some t')).tensors j = some tgt := by
          simp only [World.set]
          by_cases hji : j = i
          · exact ⟨t', by rw [if_pos hji]⟩
          · exact ⟨u, by rw [if_neg hji]; exact hj⟩
        obtain ⟨tgt, htgt⟩ := htgt
        refine ⟨_, by simp only; rw [e1, Option.bind_some]; simp only; rw [htgt]; rfl, ?_⟩
        refine swap_inv e7 i _ ?_ ?_
        · rintro b ⟨v, hv, _, hpv⟩
          simp only [World.set, if_true] at hv
          cases hv; rw [e3] at hpv; cases hpv
        · intro v hv
          cases hv
          exact ⟨⟨(e7.ok j tgt htgt).null, by simp [e6]⟩, Or.inl rfl⟩
  | mapFile i n =>
    simp only [exec]
    cases hi : w.tensors i with
    | none => exact ⟨w, rfl, h⟩
    | some t =>
      have hm := hop t hi
      by_cases hn : n = 0
      · simp only [Own.mapFile, hn, if_true, Option.map_some]
        refine ⟨_, rfl, ?_⟩
        have : ({ w with blocks := w.blocks }.set i (some t)) = w := by
          have ht : (fun k => if k = i then some t else w.tensors k) = w.tensors := by
            funext k; by_cases hk : k = i
            · rw [if_pos hk, hk, hi]
            · rw [if_neg hk]
          simp only [World.set, ht]
        rw [this]; exact h
      · simp only [Own.mapFile, hn, if_false]
        -- the release step is the same with and without the new block and the new address
        obtain ⟨bs, t', e1, e2, e3, e4, e5, e6, e7, _⟩ := drop_inv h i t hi
        have hrel : deleteIfPossible (w.blocks ++ [(Kind.mapped, true)])
            { t with orig := some w.blocks.length } =
            some (bs ++ [(Kind.mapped, true)], { t' with orig := some w.blocks.length }) := by
          unfold deleteIfPossible at e1 ⊢
          cases hp : t.ptr with
          | none =>
            rw [hp] at e1; simp only at e1 ⊢
            cases e1; rfl
          | some b =>
            rw [hp] at e1; simp only at e1 ⊢
            cases hs : t.shadow with
            | true => simp only [hs, if_true] at e1 ⊢; cases e1; rfl
            | false =>
              simp only [hs, hm, Bool.false_eq_true, if_false, release] at e1 ⊢
              have hl := h.live i t b hi hs hp
              rw [hm] at hl
              have hlt := (List.getElem?_eq_some_iff.1 hl).1
              rw [if_pos (by simpa using hl)] at e1
              rw [if_pos (by rw [List.getElem?_append_left hlt]; simpa using hl)]
              simp only [Option.map_some] at e1 ⊢
              cases e1
              rw [List.set_append_left _ _ hlt]
        rw [hrel]
        simp only [Option.map_some]
        refine ⟨_, rfl, ?_⟩
        have hfree : ∀ b, ¬ Owns ({ w with blocks := bs }.set i (some t')) i b := by
          rintro b ⟨u, hu, _, hpu⟩
          simp only [World.set, if_true] at hu
          cases hu; rw [e3] at hpu; cases hpu
        have := grow_inv e7 i ⟨some w.blocks.length, n, t'.shadow, true, some w.blocks.length⟩
          .mapped hfree e5 (by show some _ = some bs.length; rw [e2])
          (by simp) (by simp)
        rw [← set_set]
        exact this
  | access i =>
    simp only [exec]
    cases hi : w.tensors i with
    | none => exact ⟨w, rfl, h⟩
    | some t =>
      simp only
      rw [access_ok h i t hi (hop t hi)]
      exact ⟨w, rfl, h⟩
  | destroy i =>
    simp only [exec]
    cases hi : w.tensors i with
    | none => exact ⟨w, rfl, h⟩
    | some t =>
      obtain ⟨bs, t', e1, _, _, _, _, _, _, e8⟩ := drop_inv h i t hi
      refine ⟨_, by simp only; rw [e1]; rfl, e8⟩

theorem run_inv_from (ops : List Op) : ∀ w, Inv w → Proper w ops →
    ∃ w', ops.foldlM exec w = some w' ∧ Inv w' := by
  induction ops with
  | nil => intro w h _; exact ⟨w, rfl, h⟩
  | cons op ops ih =>
    intro w h hp
    obtain ⟨w1, e1, h1⟩ := exec_inv h op hp.1
    obtain ⟨w2, e2, h2⟩ := ih w1 h1 (hp.2 w1 e1)
    refine ⟨w2, ?_, h2⟩
    simp only [List.foldlM_cons, e1]
    exact e2

theorem inv_empty : Inv {} :=
  ⟨by simp, by simp, by rintro i j b ⟨t, h, _⟩; simp at h, by rintro b ⟨k, h⟩; simp at h⟩

end CN24.Props.Own

namespace CN24.Props
open CN24.Own CN24.Props.Own

/-- C11, for the supported uses (`Admits`): for any sequence of constructions, copies, resizes,
shadow creations, moves, mappings, accesses and destructions, no buffer is released twice or
with the wrong function or used after its release (the run is defined), every owner can read
its buffer, no buffer has two owners, and no buffer is lost.
Missing for the full property: the excluded uses, for which it is false, see
`C11_moved_shadow_released_twice`, `C11_moved_mapping_undefined` and
`C11_remapped_tensor_unreadable`. -/
theorem C11_ownership_partial (ops : List Op) (hp : Proper {} ops) :
    ∃ w, run ops = some w ∧ Sound w := by
  obtain ⟨w, h1, h2⟩ := run_inv_from ops {} inv_empty hp
  exact ⟨w, h1, h2.sound⟩

/-- C11: when all tensors are gone, every buffer has been released. -/
theorem C11_no_leak_partial (ops : List Op) (hp : Proper {} ops) :
    ∃ w, run ops = some w ∧ ((∀ i, w.tensors i = none) → ∀ b, ¬ Live w b) := by
  obtain ⟨w, h1, h2⟩ := C11_ownership_partial ops hp
  refine ⟨w, h1, fun hn b hb => ?_⟩
  obtain ⟨i, t, ht, _⟩ := h2.noLeak b hb
  rw [hn i] at ht; cases ht

/-- The full property fails: a tensor moved from a shadow releases the buffer of the tensor it
shadowed, whose own destruction releases it again. -/
theorem C11_moved_shadow_released_twice :
    (run [.constructSized 0 4, .construct 1, .shadow 1 0, .move 2 1, .destroy 2]).isSome = true ∧
    (run [.constructSized 0 4, .construct 1, .shadow 1 0, .move 2 1, .destroy 2, .destroy 0]).isNone
      = true := by
  decide

/-- The full property fails: moving a memory mapped tensor and destroying the result hands a
mapping to `delete[]`. -/
theorem C11_moved_mapping_undefined :
    (run [.construct 0, .mapFile 0 4, .move 1 0, .destroy 1]).isNone = true := by decide

/-- The full property fails: mapping a second file into a tensor unmaps the new mapping, so
that the tensor cannot be read although it owns its buffer. -/
theorem C11_remapped_tensor_unreadable :
    (run [.construct 0, .mapFile 0 4, .mapFile 0 4]).isSome = true ∧
    (run [.construct 0, .mapFile 0 4, .mapFile 0 4, .access 0]).isNone = true := by decide

/-- Non-vacuity: a proper history with a shadow, a move, a mapping and reuse. -/
example : Proper {} [.constructSized 0 4, .construct 1, .shadow 1 0, .access 1, .move 2 0,
    .access 1, .resize 1 3, .mapFile 0 5, .resize 0 2, .copy 3 2, .destroy 2, .destroy 1] := by
  refine ⟨trivial, fun w h => ?_⟩; cases h
  refine ⟨trivial, fun w h => ?_⟩; cases h
  refine ⟨trivial, fun w h => ?_⟩; cases h
  refine ⟨?_, fun w h => ?_⟩
  · intro t ht _ b hb; cases ht; cases hb; exact ⟨.heap, rfl⟩
  cases h
  refine ⟨?_, fun w h => ?_⟩
  · intro t ht; cases ht; exact ⟨rfl, rfl⟩
  cases h
  refine ⟨?_, fun w h => ?_⟩
  · intro t ht _ b hb; cases ht; cases hb; exact ⟨.heap, rfl⟩
  cases h
  refine ⟨trivial, fun w h => ?_⟩; cases h
  refine ⟨?_, fun w h => ?_⟩
  · intro t ht; cases ht; rfl
  cases h
  refine ⟨trivial, fun w h => ?_⟩; cases h
  refine ⟨?_, fun w h => ?_⟩
  · intro t ht hs; cases ht; cases hs
  cases h
  refine ⟨trivial, fun w h => ?_⟩; cases h
  refine ⟨trivial, fun w h => trivial⟩

end CN24.Props
