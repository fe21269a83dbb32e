import Verif.Model.Device

/-
The device model refines the specification: helper lemmas.
-/

namespace CN24.Device
open Spec
variable {V : Type _}

theorem matches_set {a c : List (Option V)} (h : Matches a c) (k : Nat) (v : V) :
    Matches (a.set k (some v)) (c.set k (some v)) := by
  refine ⟨by simp [h.1], fun j u hj => ?_⟩
  rw [List.getElem?_set] at hj ⊢
  split
  · rename_i e
    subst e
    rw [if_pos rfl] at hj
    rw [h.1] at hj
    exact hj
  · rename_i e
    rw [if_neg e] at hj
    exact h.2 j u hj

theorem matches_none {a c : List (Option V)} (h : a.length = c.length) : Matches (a.map fun _ => none) c := by
  refine ⟨by simp [h], fun j u hj => ?_⟩
  rw [List.getElem?_map, Option.map_eq_some_iff] at hj
  obtain ⟨_, _, e⟩ := hj
  cases e

theorem matches_replicate (n : Nat) : Matches (V := V) (List.replicate n none) (List.replicate n none) :=
  ⟨rfl, fun _ _ h => h⟩

/-- The relation between a tensor with a buffer of its own and its store. -/
structure Owns (w : World V) (t : T) (x : Store V) : Prop where
  noShadow : t.shadow = none
  count : t.elements = x.vals.length
  side : t.gpu = x.onDevice
  nil : x.vals = [] → t.data = none ∧ t.cl = none ∧ t.gpu = false
  host : x.vals ≠ [] → ∃ b vs, t.data = some b ∧ w.host b = some ⟨vs, true⟩ ∧
    vs.length = x.vals.length ∧ (t.gpu = false → Matches x.vals vs)
  dev : ∀ d, t.cl = some d → ∃ ds, w.dev d = some ds ∧ ds.length = x.vals.length ∧
    (t.gpu = true → Matches x.vals ds)
  buffer : t.gpu = true → t.cl ≠ none

theorem Owns.nonempty {w : World V} {t : T} {x : Store V} (h : Owns w t x) {b : Nat} (hb : t.data = some b) :
    x.vals ≠ [] := fun e => by
  have := (h.nil e).1
  rw [hb] at this
  cases this

theorem Owns.nonempty' {w : World V} {t : T} {x : Store V} (h : Owns w t x) {b : Nat} (hb : t.cl = some b) :
    x.vals ≠ [] := fun e => by
  have := (h.nil e).2.1
  rw [hb] at this
  cases this

/-- Only its own blocks matter. -/
theorem Owns.frame {w w' : World V} {t : T} {x : Store V} (h : Owns w t x)
    (h1 : ∀ b, t.data = some b → w'.host b = w.host b) (h2 : ∀ d, t.cl = some d → w'.dev d = w.dev d) :
    Owns w' t x where
  noShadow := h.noShadow
  count := h.count
  side := h.side
  nil := h.nil
  host := fun hx => by
    obtain ⟨b, vs, a1, a2, a3⟩ := h.host hx
    exact ⟨b, vs, a1, by rw [h1 b a1]; exact a2, a3⟩
  dev := fun d hd => by
    obtain ⟨ds, a1, a2⟩ := h.dev d hd
    exact ⟨ds, by rw [h2 d hd]; exact a1, a2⟩
  buffer := h.buffer

/-- A shadow agrees with the tensor it shadows. -/
structure Follows (t tj : T) (j : Nat) : Prop where
  shadow : t.shadow = some j
  data : t.data = tj.data
  count : t.elements = tj.elements
  cl : t.cl = tj.cl
  buffer : t.cl ≠ none
  side : t.gpu = false

/-- The invariant of the live tensors. -/
structure Inv (rank : Nat → Nat) (S : State V) (w : World V) : Prop where
  owner : ∀ i r, S.slots i = .live r none → r < S.next ∧ ∃ t, w.tensors i = some t ∧ Owns w t (S.stores r)
  follower : ∀ i r j, S.slots i = .live r (some j) → rank j < rank i ∧
    ∃ o t tj, S.slots j = .live r o ∧ w.tensors i = some t ∧ w.tensors j = some tj ∧ Follows t tj j
  bound : ∀ i, rank i ≤ w.depth
  refs : ∀ i k r, S.slots i = .live r none → S.slots k = .live r none → i = k
  blocks : ∀ i k r r' t t', S.slots i = .live r none → S.slots k = .live r' none → i ≠ k →
    w.tensors i = some t → w.tensors k = some t' →
    (∀ b, t.data = some b → t'.data ≠ some b) ∧ (∀ d, t.cl = some d → t'.cl ≠ some d)
  hostFresh : ∀ b, w.hostNext ≤ b → w.host b = none
  devFresh : ∀ d, w.devNext ≤ d → w.dev d = none

/-- The invariant of the others. -/
def Dead (S : State V) (w : World V) : Prop :=
  ∀ i, (S.slots i = .absent → w.tensors i = none) ∧
    (S.slots i = .spent → ∃ t, w.tensors i = some t ∧ t.data = none ∧ t.shadow = none)

/-- The owner of the buffer of a tensor. -/
theorem Inv.root {rank : Nat → Nat} {S : State V} {w : World V} (h : Inv rank S w) :
    ∀ (n i r : Nat) (o : Option Nat), rank i ≤ n → S.slots i = .live r o →
    ∃ q tq ti, S.slots q = .live r none ∧ w.tensors q = some tq ∧ w.tensors i = some ti ∧
      Owns w tq (S.stores r) ∧ ti.data = tq.data ∧ ti.elements = tq.elements ∧ ti.cl = tq.cl ∧
      (o = none → q = i) ∧ (o ≠ none → ti.cl ≠ none) ∧
      ∀ (owner : World V → Nat → T → Bool → Outcome (World V)) (skip : Bool) (fuel : Nat), n ≤ fuel →
        delegate owner fuel w i skip = owner w q tq skip := by
  intro n
  induction n with
  | zero =>
    intro i r o hr hi
    cases o with
    | some j =>
      have := (h.follower i r j hi).1
      omega
    | none =>
      obtain ⟨_, t, ht, ho⟩ := h.owner i r hi
      refine ⟨i, t, t, hi, ht, ht, ho, rfl, rfl, rfl, fun _ => rfl, fun e => absurd rfl e, ?_⟩
      intro owner skip fuel _
      unfold delegate
      simp only [ht, ho.noShadow]
  | succ n ih =>
    intro i r o hr hi
    cases o with
    | none =>
      obtain ⟨_, t, ht, ho⟩ := h.owner i r hi
      refine ⟨i, t, t, hi, ht, ht, ho, rfl, rfl, rfl, fun _ => rfl, fun e => absurd rfl e, ?_⟩
      intro owner skip fuel _
      unfold delegate
      simp only [ht, ho.noShadow]
    | some j =>
      obtain ⟨hlt, o', t, tj, hj, ht, htj, hf⟩ := h.follower i r j hi
      obtain ⟨q, tq, ti, a1, a2, a3, a4, a5, a6, a7, a8, a9, a10⟩ := ih j r o' (by omega) hj
      rw [htj] at a3
      obtain rfl := Option.some.inj a3
      refine ⟨q, tq, t, a1, a2, ht, a4, hf.data.trans a5, hf.count.trans a6, hf.cl.trans a7,
        fun e => (by cases e), fun _ => hf.buffer, ?_⟩
      intro owner skip fuel hfu
      obtain ⟨fuel, rfl⟩ : ∃ m, fuel = m + 1 := ⟨fuel - 1, by omega⟩
      unfold delegate
      simp only [ht, hf.shadow]
      exact a10 owner skip fuel (by omega)

/-- The owner changes its buffers, sides and values. -/
theorem Inv.update {rank : Nat → Nat} {S : State V} {w w' : World V} (h : Inv rank S w) {q r : Nat} {tq tq' : T}
    {x : Store V} (hq : S.slots q = .live r none) (htq : w.tensors q = some tq)
    (ht : ∀ k, k ≠ q → w'.tensors k = w.tensors k) (htq' : w'.tensors q = some tq')
    (hh : ∀ b, tq.data ≠ some b → w'.host b = w.host b) (hhn : w'.hostNext = w.hostNext)
    (hd : ∀ d, tq.cl ≠ some d → d < w.devNext → w'.dev d = w.dev d) (hdn : w.devNext ≤ w'.devNext)
    (hdf : ∀ d, w'.devNext ≤ d → w'.dev d = none) (hdep : w'.depth = w.depth)
    (hdata : tq'.data = tq.data)
    (hcl : tq'.cl = tq.cl ∨ (tq.cl = none ∧ tq'.cl = some w.devNext))
    (ho : Owns w' tq' x) (hlen : x.vals.length = (S.stores r).vals.length) : Inv rank (S.store r x) w' := by
  obtain ⟨hr, t0, ht0, ho0⟩ := h.owner q r hq
  rw [htq] at ht0
  obtain rfl := Option.some.inj ht0
  have hnofollow : tq'.cl ≠ tq.cl → ∀ i r', S.slots i ≠ .live r' (some q) := by
    intro hne i r' hi
    obtain ⟨_, o, t, tj, hj, hti, htj, hf⟩ := h.follower i r' q hi
    rw [htq] at htj
    obtain rfl := Option.some.inj htj
    rcases hcl with e | e
    · exact hne e
    · exact hf.buffer (hf.cl.trans e.1)
  constructor
  · intro i r' hi
    refine ⟨(h.owner i r' hi).1, ?_⟩
    by_cases hiq : i = q
    · subst hiq
      have e : r' = r := by
        have := hi.symm.trans hq
        injection this
      subst e
      refine ⟨tq', htq', ?_⟩
      simp only [State.store, if_pos]
      exact ho
    · obtain ⟨_, t, hti, hoi⟩ := h.owner i r' hi
      have hne : r' ≠ r := by
        rintro rfl
        exact hiq (h.refs i q r' hi hq)
      refine ⟨t, by rw [ht i hiq]; exact hti, ?_⟩
      simp only [State.store, if_neg hne]
      have hb := h.blocks i q r' r t tq hi hq hiq hti htq
      refine hoi.frame (fun b e => hh b (hb.1 b e)) (fun d e => hd d (hb.2 d e) ?_)
      obtain ⟨ds, e1, _⟩ := hoi.dev d e
      rcases Nat.lt_or_ge d w.devNext with hl | hl
      · exact hl
      · rw [h.devFresh d hl] at e1
        cases e1
  · intro i r' j hi
    obtain ⟨hlt, o, t, tj, hj, hti, htj, hf⟩ := h.follower i r' j hi
    have hiq : i ≠ q := by
      rintro rfl
      have := hi.symm.trans hq
      injection this with _ e
      cases e
    refine ⟨hlt, ?_⟩
    by_cases hjq : j = q
    · subst hjq
      rw [htq] at htj
      obtain rfl := Option.some.inj htj
      have hce : tq'.cl = tq.cl := by
        by_cases e : tq'.cl = tq.cl
        · exact e
        · exact absurd hi (hnofollow e i r')
      have hrr : r' = r := by
        have := hj.symm.trans hq
        injection this
      refine ⟨o, t, tq', hj, by rw [ht i hiq]; exact hti, htq', hf.shadow, hf.data.trans hdata.symm, ?_,
        hf.cl.trans hce.symm, hf.buffer, hf.side⟩
      rw [hf.count, ho0.count, ho.count, hlen]
    · exact ⟨o, t, tj, hj, by rw [ht i hiq]; exact hti, by rw [ht j hjq]; exact htj, hf⟩
  · intro i; rw [hdep]; exact h.bound i
  · exact h.refs
  · intro i k r1 r2 t t' hi hk hik hti htk
    have key : ∀ i r1 t, S.slots i = .live r1 none → i ≠ q → w.tensors i = some t →
        (∀ b, t.data = some b → tq'.data ≠ some b) ∧ (∀ d, t.cl = some d → tq'.cl ≠ some d) := by
      intro i r1 t hi hiq hti
      have hb := h.blocks i q r1 r t tq hi hq hiq hti htq
      refine ⟨fun b e => by rw [hdata]; exact hb.1 b e, fun d e e' => ?_⟩
      rcases hcl with c | c
      · exact hb.2 d e (c ▸ e')
      · rw [c.2] at e'
        obtain rfl := Option.some.inj e'
        obtain ⟨_, t1, e1, hoi⟩ := h.owner i r1 hi
        rw [hti] at e1
        obtain rfl := Option.some.inj e1
        obtain ⟨ds, e2, _⟩ := hoi.dev _ e
        rw [h.devFresh _ (Nat.le_refl _)] at e2
        cases e2
    by_cases hiq : i = q
    · subst hiq
      rw [htq'] at hti
      obtain rfl := Option.some.inj hti
      have hki : k ≠ i := fun e => hik e.symm
      rw [ht k hki] at htk
      obtain ⟨k1, k2⟩ := key k r2 t' hk hki htk
      exact ⟨fun b e e' => k1 b e' e, fun d e e' => k2 d e' e⟩
    · rw [ht i hiq] at hti
      by_cases hkq : k = q
      · subst hkq
        rw [htq'] at htk
        obtain rfl := Option.some.inj htk
        exact key i r1 t hi hiq hti
      · rw [ht k hkq] at htk
        exact h.blocks i k r1 r2 t t' hi hk hik hti htk
  · intro b hb
    rw [hhn] at hb
    rw [hh b]
    · exact h.hostFresh b hb
    · intro e
      obtain ⟨b', vs, e1, e2, _⟩ := ho0.host (ho0.nonempty e)
      rw [e] at e1
      obtain rfl := Option.some.inj e1
      rw [h.hostFresh b hb] at e2
      cases e2
  · exact hdf

/-- What stays the same for all other tensors. -/
structure Frame (S : State V) (w w' : World V) : Prop where
  others : ∀ k, (∀ r o, S.slots k ≠ .live r o) → w'.tensors k = w.tensors k
  depth : w'.depth = w.depth

theorem setTensor_frame {S : State V} {w w' : World V} {q r : Nat} (hq : S.slots q = .live r none)
    (ht : ∀ k, k ≠ q → w'.tensors k = w.tensors k) (hd : w'.depth = w.depth) : Frame S w w' :=
  ⟨fun k hk => ht k (by rintro rfl; exact hk r none hq), hd⟩

theorem Inv.ownerToDevice {rank : Nat → Nat} {S : State V} {w : World V} (h : Inv rank S w) {q r : Nat} {tq : T}
    (hq : S.slots q = .live r none) (htq : w.tensors q = some tq) (hn : (S.stores r).vals ≠ []) (skip : Bool) :
    ∃ w' tq', Device.ownerToDevice w q tq skip = .done w' ∧
      Inv rank (S.store r ⟨true, if skip then (S.stores r).vals.map fun _ => none else (S.stores r).vals⟩) w' ∧
      Frame S w w' ∧ w'.tensors q = some tq' ∧ (tq'.cl ≠ none ∧ tq'.data = tq.data) ∧ (∀ k, k ≠ q → w'.tensors k = w.tensors k) := by
  obtain ⟨hr, t0, ht0, ho⟩ := h.owner q r hq
  rw [htq] at ht0
  obtain rfl := Option.some.inj ht0
  obtain ⟨b, vs, hb, hvs, hlen, hm⟩ := ho.host hn
  have hlen' : (if skip then (S.stores r).vals.map fun _ => none else (S.stores r).vals).length =
      (S.stores r).vals.length := by split <;> simp
  have hne' : ∀ {α : Prop}, (if skip then (S.stores r).vals.map fun _ => none else (S.stores r).vals) = [] → α := by
    intro α e
    have := congrArg List.length e
    rw [hlen'] at this
    exact absurd (List.length_eq_zero_iff.1 this) hn
  have hpos : tq.elements ≠ 0 := by
    rw [ho.count]
    exact fun e => hn (List.length_eq_zero_iff.1 e)
  unfold Device.ownerToDevice
  by_cases hg : tq.gpu = true
  · rw [if_pos hg]
    refine ⟨w, tq, rfl, ?_, ⟨fun _ _ => rfl, rfl⟩, htq, ⟨ho.buffer hg, rfl⟩, fun _ _ => rfl⟩
    refine h.update hq htq (fun _ _ => rfl) htq (fun _ _ => rfl) rfl (fun _ _ _ => rfl) (Nat.le_refl _)
      h.devFresh rfl rfl (Or.inl rfl) ?_ hlen'
    refine ⟨ho.noShadow, ho.count.trans hlen'.symm, hg, hne', fun _ => ?_, fun d hd => ?_, ho.buffer⟩
    · exact ⟨b, vs, hb, hvs, hlen.trans hlen'.symm, fun e => by rw [hg] at e; cases e⟩
    · obtain ⟨ds, d1, d2, d3⟩ := ho.dev d hd
      refine ⟨ds, d1, d2.trans hlen'.symm, fun _ => ?_⟩
      simp only []
      split
      · exact matches_none d2.symm
      · exact d3 hg
  · rw [if_neg hg]
    have hg' : tq.gpu = false := by simpa using hg
    -- the buffer
    have hens : ∃ w1 t1 d ds, ensureBuffer w tq = .done (w1, t1, d) ∧ t1 = { tq with cl := some d } ∧
        w1.dev d = some ds ∧ ds.length = (S.stores r).vals.length ∧ w1.host = w.host ∧
        w1.hostNext = w.hostNext ∧ w1.tensors = w.tensors ∧ w1.depth = w.depth ∧
        (∀ e, tq.cl ≠ some e → e < w.devNext → w1.dev e = w.dev e) ∧ w.devNext ≤ w1.devNext ∧
        (∀ e, w1.devNext ≤ e → w1.dev e = none) ∧
        ((some d : Option Nat) = tq.cl ∨ (tq.cl = none ∧ some d = some w.devNext)) ∧
        (∀ e, e ≠ d → w1.dev e = w.dev e) ∧ d < w1.devNext := by
      unfold ensureBuffer
      cases hcl : tq.cl with
      | some d =>
        obtain ⟨ds, d1, d2, d3⟩ := ho.dev d hcl
        refine ⟨w, tq, d, ds, rfl, ?_, d1, d2, rfl, rfl, rfl, rfl, fun _ _ _ => rfl, Nat.le_refl _, h.devFresh,
          Or.inl rfl, fun _ _ => rfl, ?_⟩
        · rw [← hcl]
        · rcases Nat.lt_or_ge d w.devNext with hl | hl
          · exact hl
          · rw [h.devFresh d hl] at d1
            cases d1
      | none =>
        simp only [if_neg hpos]
        refine ⟨_, _, _, List.replicate tq.elements none, rfl, rfl, ?_, ?_, rfl, rfl, rfl, rfl, ?_, ?_, ?_,
          by simp, ?_, ?_⟩
        · simp [World.setDev]
        · simp [ho.count]
        · intro e _ he
          simp only [World.setDev]
          rw [if_neg (by omega)]
        · exact Nat.le_succ _
        · intro e he
          simp only [World.setDev] at he ⊢
          rw [if_neg (by omega)]
          exact h.devFresh e (by omega)
        · intro e he
          simp only [World.setDev]
          rw [if_neg he]
        · exact Nat.lt_succ_self _
    obtain ⟨w1, t1, d, ds, e1, e2, e3, e4, e5, e6, e7, e8, e9, e10, e11, e12, e13, e14⟩ := hens
    rw [e1, Outcome.bind_done]
    simp only []
    have hupl : ∃ w2 ds2, sendUnless skip w1 t1 d = .done w2 ∧
        w2.dev d = some ds2 ∧ ds2.length = (S.stores r).vals.length ∧ (skip = false → Matches (S.stores r).vals ds2) ∧
        w2.host = w1.host ∧ w2.hostNext = w1.hostNext ∧ w2.tensors = w1.tensors ∧ w2.depth = w1.depth ∧
        w2.devNext = w1.devNext ∧ (∀ e, e ≠ d → w2.dev e = w1.dev e) := by
      cases skip with
      | true => exact ⟨w1, ds, rfl, e3, e4, fun e => (by cases e), rfl, rfl, rfl, rfl, rfl, fun _ _ => rfl⟩
      | false =>
        unfold sendUnless upload
        rw [if_neg Bool.false_ne_true]
        rw [e3]
        simp only []
        have ht1 : t1.elements = tq.elements ∧ t1.data = tq.data := by rw [e2]; exact ⟨rfl, rfl⟩
        rw [ht1.1, ht1.2, if_neg (by rw [e4, ho.count] at *; omega), hb]
        simp only []
        rw [e5, hvs]
        simp only []
        rw [if_neg (by rw [hlen, ho.count]; omega)]
        refine ⟨_, _, rfl, by simp [World.setDev]; rfl, ?_, ?_, e5, rfl, rfl, rfl, rfl, ?_⟩
        · simp [hlen, e4, ho.count]
        · intro _
          rw [ho.count, ← hlen, List.take_length, hlen, ← e4, List.drop_length, List.append_nil]
          exact hm hg'
        · intro e he
          simp only [World.setDev]
          rw [if_neg he]
    obtain ⟨w2, ds2, f1, f2, f3, f4, f5, f6, f7, f8, f9, f10⟩ := hupl
    rw [f1, Outcome.bind_done]
    refine ⟨_, { t1 with gpu := true }, rfl, ?_, ?_, ?_, ?_, ?_⟩
    · refine h.update hq htq (tq' := { t1 with gpu := true }) ?_ ?_ ?_ ?_ ?_ ?_ ?_ ?_ ?_ ?_ ?_ hlen'
      · intro k hk
        simp only [World.set, if_neg hk]
        rw [f7, e7]
      · simp [World.set]
      · intro c _
        show w2.host c = _
        rw [f5, e5]
      · show w2.hostNext = _
        rw [f6, e6]
      · intro e he hlt
        show w2.dev e = _
        by_cases hed : e = d
        · exfalso
          subst hed
          rcases e12 with c | c
          · exact he c.symm
          · have := Option.some.inj c.2
            omega
        · rw [f10 e hed]
          exact e13 e hed
      · show _ ≤ w2.devNext
        rw [f9]; exact e10
      · intro e he
        change w2.devNext ≤ e at he
        show w2.dev e = none
        rw [f9] at he
        rw [f10 e (by omega)]
        exact e11 e he
      · show w2.depth = _
        rw [f8, e8]
      · rw [e2]
      · rw [e2]; exact e12
      · rw [e2]
        refine ⟨ho.noShadow, ho.count.trans hlen'.symm, rfl, hne', fun _ => ?_, fun d' hd' => ?_, fun _ => by simp⟩
        · refine ⟨b, vs, hb, ?_, hlen.trans hlen'.symm, fun e => by cases e⟩
          show w2.host b = _
          rw [f5, e5]; exact hvs
        · obtain rfl := Option.some.inj hd'
          refine ⟨ds2, f2, f3.trans hlen'.symm, fun _ => ?_⟩
          simp only []
          cases skip with
          | true => exact matches_none f3.symm
          | false => exact f4 rfl
    · refine setTensor_frame hq (fun k hk => ?_) ?_
      · simp only [World.set, if_neg hk]
        rw [f7, e7]
      · show w2.depth = _
        rw [f8, e8]
    · simp [World.set]
    · rw [e2]; exact ⟨by simp, rfl⟩
    · intro k hk
      simp only [World.set, if_neg hk]
      rw [f7, e7]

theorem Inv.ownerToHost {rank : Nat → Nat} {S : State V} {w : World V} (h : Inv rank S w) {q r : Nat} {tq : T}
    (hq : S.slots q = .live r none) (htq : w.tensors q = some tq) (skip : Bool) :
    ∃ w' tq', Device.ownerToHost w q tq skip = .done w' ∧
      Inv rank (S.store r ⟨false, if skip then (S.stores r).vals.map fun _ => none else (S.stores r).vals⟩) w' ∧
      Frame S w w' ∧ w'.tensors q = some tq' ∧ (tq'.cl = tq.cl ∧ tq'.data = tq.data) ∧ (∀ k, k ≠ q → w'.tensors k = w.tensors k) := by
  obtain ⟨hr, t0, ht0, ho⟩ := h.owner q r hq
  rw [htq] at ht0
  obtain rfl := Option.some.inj ht0
  have hlen' : (if skip then (S.stores r).vals.map fun _ => none else (S.stores r).vals).length =
      (S.stores r).vals.length := by split <;> simp
  have hnil : (if skip then (S.stores r).vals.map fun _ => none else (S.stores r).vals) = [] ↔
      (S.stores r).vals = [] := by
    rw [← List.length_eq_zero_iff, hlen', List.length_eq_zero_iff]
  unfold Device.ownerToHost
  by_cases hg : tq.gpu = false
  · rw [if_pos hg]
    refine ⟨w, tq, rfl, ?_, ⟨fun _ _ => rfl, rfl⟩, htq, ⟨rfl, rfl⟩, fun _ _ => rfl⟩
    refine h.update hq htq (fun _ _ => rfl) htq (fun _ _ => rfl) rfl (fun _ _ _ => rfl) (Nat.le_refl _)
      h.devFresh rfl rfl (Or.inl rfl) ?_ hlen'
    refine ⟨ho.noShadow, ho.count.trans hlen'.symm, hg, fun e => ho.nil (hnil.1 e), fun hx => ?_, fun d hd => ?_,
      ho.buffer⟩
    · obtain ⟨b, vs, hb, hvs, hlen, hm⟩ := ho.host (fun e => hx (hnil.2 e))
      refine ⟨b, vs, hb, hvs, hlen.trans hlen'.symm, fun _ => ?_⟩
      simp only []
      split
      · exact matches_none hlen.symm
      · exact hm hg
    · obtain ⟨ds, d1, d2, d3⟩ := ho.dev d hd
      exact ⟨ds, d1, d2.trans hlen'.symm, fun e => by rw [hg] at e; cases e⟩
  · have hg' : tq.gpu = true := by simpa using hg
    rw [if_neg hg]
    obtain ⟨d, hd⟩ := Option.ne_none_iff_exists'.1 (ho.buffer hg')
    have hn := ho.nonempty' hd
    obtain ⟨b, vs, hb, hvs, hlen, hm⟩ := ho.host hn
    obtain ⟨ds, d1, d2, d3⟩ := ho.dev d hd
    have hpos : tq.elements ≠ 0 := by
      rw [ho.count]
      exact fun e => hn (List.length_eq_zero_iff.1 e)
    have hdown : ∃ w2 vs2, fetchUnless skip w tq = .done w2 ∧
        w2.host b = some ⟨vs2, true⟩ ∧ vs2.length = (S.stores r).vals.length ∧
        (skip = false → Matches (S.stores r).vals vs2) ∧ w2.dev = w.dev ∧ w2.hostNext = w.hostNext ∧
        w2.tensors = w.tensors ∧ w2.depth = w.depth ∧ w2.devNext = w.devNext ∧
        (∀ e, e ≠ b → w2.host e = w.host e) := by
      cases skip with
      | true => exact ⟨w, vs, rfl, hvs, hlen, fun e => (by cases e), rfl, rfl, rfl, rfl, rfl, fun _ _ => rfl⟩
      | false =>
        unfold fetchUnless
        rw [if_neg Bool.false_ne_true, hd]
        simp only []
        unfold download
        rw [d1]
        simp only []
        rw [if_neg (by rw [d2, ho.count] at *; omega), hb]
        simp only []
        rw [hvs]
        simp only []
        rw [if_neg (by rw [hlen, ho.count]; simp)]
        refine ⟨_, _, rfl, by simp [World.setHost]; rfl, ?_, ?_, rfl, rfl, rfl, rfl, rfl, ?_⟩
        · simp [hlen, d2, ho.count]
        · intro _
          rw [ho.count, ← d2, List.take_length, d2, ← hlen, List.drop_length, List.append_nil]
          exact d3 hg'
        · intro e he
          simp only [World.setHost]
          rw [if_neg he]
    obtain ⟨w2, vs2, f1, f2, f3, f4, f5, f6, f7, f8, f9, f10⟩ := hdown
    rw [f1, Outcome.bind_done]
    refine ⟨_, { tq with gpu := false }, rfl, ?_, ?_, ?_, ⟨rfl, rfl⟩, ?_⟩
    · refine h.update hq htq (tq' := { tq with gpu := false }) ?_ ?_ ?_ ?_ ?_ ?_ ?_ ?_ rfl (Or.inl rfl) ?_ hlen'
      · intro k hk
        simp only [World.set, if_neg hk]
        rw [f7]
      · simp [World.set]
      · intro c hc
        show w2.host c = _
        exact f10 c (by rintro rfl; exact hc hb)
      · exact f6
      · intro e _ _
        show w2.dev e = _
        rw [f5]
      · show _ ≤ w2.devNext
        rw [f9]; exact Nat.le_refl _
      · intro e he
        change w2.devNext ≤ e at he
        show w2.dev e = none
        rw [f9] at he
        rw [f5]; exact h.devFresh e he
      · exact f8
      · refine ⟨ho.noShadow, ho.count.trans hlen'.symm, rfl, fun e => absurd (hnil.1 e) hn, fun _ => ?_,
          fun d' hd' => ?_, fun e => by cases e⟩
        · refine ⟨b, vs2, hb, f2, f3.trans hlen'.symm, fun _ => ?_⟩
          simp only []
          cases skip with
          | true => exact matches_none f3.symm
          | false => exact f4 rfl
        · change tq.cl = some d' at hd'
          rw [hd] at hd'
          obtain rfl := Option.some.inj hd'
          refine ⟨ds, ?_, d2.trans hlen'.symm, fun e => by cases e⟩
          show w2.dev d = _
          rw [f5]; exact d1
    · refine setTensor_frame hq (fun k hk => ?_) f8
      simp only [World.set, if_neg hk]
      rw [f7]
    · simp [World.set]
    · intro k hk
      simp only [World.set, if_neg hk]
      rw [f7]


/-! ### Moves -/

theorem Inv.toDevice {rank : Nat → Nat} {S : State V} {w : World V} (h : Inv rank S w) {i r : Nat}
    {o : Option Nat} (hi : S.slots i = .live r o) (hn : (S.stores r).vals ≠ []) (skip : Bool) :
    ∃ w', moveToGPU w i skip = .done w' ∧
      Inv rank (S.store r ⟨true, if skip then (S.stores r).vals.map fun _ => none else (S.stores r).vals⟩) w' ∧
      Frame S w w' ∧ ∀ t, w.tensors i = some t → ∃ t', w'.tensors i = some t' ∧ t'.cl ≠ none ∧ t'.data = t.data := by
  obtain ⟨q, tq, ti, a1, a2, a3, a4, a5, a6, a7, a8, a9, a10⟩ := h.root w.depth i r o (h.bound i) hi
  obtain ⟨w', tq', b1, b2, b3, b4, b5, b6⟩ := h.ownerToDevice a1 a2 hn skip
  refine ⟨w', ?_, b2, b3, ?_⟩
  · unfold moveToGPU
    rw [a10 _ _ _ (Nat.le_refl _)]
    exact b1
  · intro t ht
    by_cases hiq : i = q
    · subst hiq
      rw [a2] at ht
      obtain rfl := Option.some.inj ht
      exact ⟨tq', b4, b5⟩
    · rw [a3] at ht
      obtain rfl := Option.some.inj ht
      exact ⟨ti, by rw [b6 i hiq]; exact a3, a9 (fun e => hiq (a8 e).symm), rfl⟩

theorem Inv.toHost {rank : Nat → Nat} {S : State V} {w : World V} (h : Inv rank S w) {i r : Nat}
    {o : Option Nat} (hi : S.slots i = .live r o) (skip : Bool) :
    ∃ w', moveToCPU w i skip = .done w' ∧
      Inv rank (S.store r ⟨false, if skip then (S.stores r).vals.map fun _ => none else (S.stores r).vals⟩) w' ∧
      Frame S w w' ∧ ∀ t, w.tensors i = some t → ∃ t', w'.tensors i = some t' ∧ t'.cl = t.cl ∧ t'.data = t.data := by
  obtain ⟨q, tq, ti, a1, a2, a3, a4, a5, a6, a7, a8, a9, a10⟩ := h.root w.depth i r o (h.bound i) hi
  obtain ⟨w', tq', b1, b2, b3, b4, b5, b6⟩ := h.ownerToHost a1 a2 skip
  refine ⟨w', ?_, b2, b3, ?_⟩
  · unfold moveToCPU
    rw [a10 _ _ _ (Nat.le_refl _)]
    exact b1
  · intro t ht
    by_cases hiq : i = q
    · subst hiq
      rw [a2] at ht
      obtain rfl := Option.some.inj ht
      exact ⟨tq', b4, b5⟩
    · exact ⟨t, by rw [b6 i hiq]; exact ht, rfl, rfl⟩

theorem Dead.frame {S : State V} {w w' : World V} (h : Dead S w) (hf : Frame S w w') (r : Nat) (x : Store V) :
    Dead (S.store r x) w' := by
  intro i
  have hi := h i
  have hsl : (S.store r x).slots i = S.slots i := rfl
  rw [hsl]
  refine ⟨fun e => ?_, fun e => ?_⟩
  · rw [hf.others i (fun r o e' => by rw [e] at e'; cases e')]
    exact hi.1 e
  · rw [hf.others i (fun r o e' => by rw [e] at e'; cases e')]
    exact hi.2 e

/-! ### Reads and writes -/

theorem Inv.writeHost {rank : Nat → Nat} {S : State V} {w : World V} (h : Inv rank S w) {i r k : Nat}
    {o : Option Nat} {t : T} (hi : S.slots i = .live r o) (ht : w.tensors i = some t)
    (hside : (S.stores r).onDevice = false) (hk : k < (S.stores r).vals.length) (v : V) :
    ∃ w', Device.writeHost w t k v = .done w' ∧
      Inv rank (S.store r ⟨false, (S.stores r).vals.set k (some v)⟩) w' ∧ w'.tensors = w.tensors ∧
      w'.depth = w.depth := by
  obtain ⟨q, tq, ti, a1, a2, a3, ho, a5, a6, a7, a8, a9, a10⟩ := h.root w.depth i r o (h.bound i) hi
  rw [ht] at a3
  obtain rfl := Option.some.inj a3
  obtain ⟨b, vs, hb, hvs, hlen, hm⟩ := ho.host (fun e => by rw [e] at hk; cases hk)
  have hg : tq.gpu = false := ho.side.trans hside
  unfold Device.writeHost
  rw [a5, hb]
  simp only []
  rw [hvs]
  simp only []
  rw [if_pos ⟨by omega, trivial⟩]
  refine ⟨_, rfl, ?_, rfl, rfl⟩
  refine h.update a1 a2 (tq' := tq) (fun _ _ => rfl) a2 ?_ rfl (fun _ _ _ => rfl) (Nat.le_refl _)
    h.devFresh rfl rfl (Or.inl rfl) ?_ (by simp)
  · intro c hc
    simp only [World.setHost]
    rw [if_neg (by rintro rfl; exact hc hb)]
  · refine ⟨ho.noShadow, ho.count.trans (by simp), hg, fun e => ?_, fun _ => ?_, fun d hd => ?_, ho.buffer⟩
    · exact ho.nil (by simpa using e)
    · exact ⟨b, vs.set k (some v), hb, by simp [World.setHost], by simp [hlen], fun _ => matches_set (hm hg) k v⟩
    · obtain ⟨ds, d1, d2, d3⟩ := ho.dev d hd
      exact ⟨ds, d1, by simpa using d2, fun e => by rw [hg] at e; cases e⟩

theorem Inv.readHost {rank : Nat → Nat} {S : State V} {w : World V} (h : Inv rank S w) {i r k : Nat}
    {o : Option Nat} {t : T} {a : Option V} (hi : S.slots i = .live r o) (ht : w.tensors i = some t)
    (hside : (S.stores r).onDevice = false) (hk : (S.stores r).vals[k]? = some a) :
    ∃ c, Device.readHost w t k = .done c ∧ ∀ v, a = some v → c = some v := by
  obtain ⟨q, tq, ti, a1, a2, a3, ho, a5, a6, a7, a8, a9, a10⟩ := h.root w.depth i r o (h.bound i) hi
  rw [ht] at a3
  obtain rfl := Option.some.inj a3
  have hlt : k < (S.stores r).vals.length := (List.getElem?_eq_some_iff.1 hk).1
  obtain ⟨b, vs, hb, hvs, hlen, hm⟩ := ho.host (fun e => by rw [e] at hlt; cases hlt)
  have hg : tq.gpu = false := ho.side.trans hside
  unfold Device.readHost
  rw [a5, hb]
  simp only []
  rw [hvs]
  simp only []
  obtain ⟨c, hc⟩ : ∃ c, vs[k]? = some c := ⟨vs[k]'(by omega), by simp [hlen, hlt]⟩
  rw [hc]
  refine ⟨c, rfl, fun v e => ?_⟩
  subst e
  have := (hm hg).2 k v hk
  rw [hc] at this
  exact Option.some.inj this

theorem Inv.writeDevice {rank : Nat → Nat} {S : State V} {w : World V} (h : Inv rank S w) {i r k : Nat}
    {o : Option Nat} {t : T} (hi : S.slots i = .live r o) (ht : w.tensors i = some t)
    (hside : (S.stores r).onDevice = true) (hk : k < (S.stores r).vals.length) (v : V) :
    ∃ w', Device.writeDevice w t k v = .done w' ∧
      Inv rank (S.store r ⟨true, (S.stores r).vals.set k (some v)⟩) w' ∧ w'.tensors = w.tensors ∧
      w'.depth = w.depth := by
  obtain ⟨q, tq, ti, a1, a2, a3, ho, a5, a6, a7, a8, a9, a10⟩ := h.root w.depth i r o (h.bound i) hi
  rw [ht] at a3
  obtain rfl := Option.some.inj a3
  have hne : (S.stores r).vals ≠ [] := fun e => by rw [e] at hk; cases hk
  obtain ⟨b, vs, hb, hvs, hlen, hm⟩ := ho.host hne
  have hg : tq.gpu = true := ho.side.trans hside
  obtain ⟨d, hd⟩ := Option.ne_none_iff_exists'.1 (ho.buffer hg)
  obtain ⟨ds, d1, d2, d3⟩ := ho.dev d hd
  unfold Device.writeDevice
  rw [a7, hd]
  simp only []
  rw [d1]
  simp only []
  rw [if_pos (by omega)]
  refine ⟨_, rfl, ?_, rfl, rfl⟩
  refine h.update a1 a2 (tq' := tq) (fun _ _ => rfl) a2 (fun _ _ => rfl) rfl ?_ (Nat.le_refl _)
    ?_ rfl rfl (Or.inl rfl) ?_ (by simp)
  · intro c hc _
    simp only [World.setDev]
    rw [if_neg (by rintro rfl; exact hc hd)]
  · intro e he
    simp only [World.setDev] at he ⊢
    rw [if_neg ?_]
    · exact h.devFresh e he
    · rintro rfl
      rw [h.devFresh _ he] at d1
      cases d1
  · refine ⟨ho.noShadow, ho.count.trans (by simp), hg, fun e => ?_, fun _ => ?_, fun d' hd' => ?_, ho.buffer⟩
    · exact absurd (by simpa using e) hne
    · exact ⟨b, vs, hb, hvs, by simp [hlen], fun e => by rw [hg] at e; cases e⟩
    · rw [hd] at hd'
      obtain rfl := Option.some.inj hd'
      exact ⟨ds.set k (some v), by simp [World.setDev], by simp [d2], fun _ => matches_set (d3 hg) k v⟩

theorem Inv.readDevice {rank : Nat → Nat} {S : State V} {w : World V} (h : Inv rank S w) {i r k : Nat}
    {o : Option Nat} {t : T} {a : Option V} (hi : S.slots i = .live r o) (ht : w.tensors i = some t)
    (hside : (S.stores r).onDevice = true) (hk : (S.stores r).vals[k]? = some a) :
    ∃ c, Device.readDevice w t k = .done c ∧ ∀ v, a = some v → c = some v := by
  obtain ⟨q, tq, ti, a1, a2, a3, ho, a5, a6, a7, a8, a9, a10⟩ := h.root w.depth i r o (h.bound i) hi
  rw [ht] at a3
  obtain rfl := Option.some.inj a3
  have hlt : k < (S.stores r).vals.length := (List.getElem?_eq_some_iff.1 hk).1
  have hg : tq.gpu = true := ho.side.trans hside
  obtain ⟨d, hd⟩ := Option.ne_none_iff_exists'.1 (ho.buffer hg)
  obtain ⟨ds, d1, d2, d3⟩ := ho.dev d hd
  unfold Device.readDevice
  rw [a7, hd]
  simp only []
  rw [d1]
  simp only []
  obtain ⟨c, hc⟩ : ∃ c, ds[k]? = some c := ⟨ds[k]'(by omega), by simp [d2, hlt]⟩
  rw [hc]
  refine ⟨c, rfl, fun v e => ?_⟩
  subst e
  have := (d3 hg).2 k v hk
  rw [hc] at this
  exact Option.some.inj this

theorem store_store (S : State V) (r : Nat) (x y : Store V) : (S.store r x).store r y = S.store r y := by
  unfold State.store
  simp only [State.mk.injEq, true_and, and_true]
  funext k
  split <;> rfl

theorem store_stores (S : State V) (r : Nat) (x : Store V) : (S.store r x).stores r = x := by
  simp [State.store]

theorem Inv.count {rank : Nat → Nat} {S : State V} {w : World V} (h : Inv rank S w) {i r : Nat}
    {o : Option Nat} {t : T} (hi : S.slots i = .live r o) (ht : w.tensors i = some t) :
    t.elements = (S.stores r).vals.length := by
  obtain ⟨q, tq, ti, a1, a2, a3, ho, a5, a6, a7, a8, a9, a10⟩ := h.root w.depth i r o (h.bound i) hi
  rw [ht] at a3
  obtain rfl := Option.some.inj a3
  exact a6.trans ho.count

/-- The loop of `Clear`. -/
theorem Inv.clearAll {rank : Nat → Nat} {S : State V} {w : World V} (h : Inv rank S w) {i r : Nat}
    {o : Option Nat} {t : T} (hi : S.slots i = .live r o) (ht : w.tensors i = some t)
    (hside : (S.stores r).onDevice = false) (v : V) :
    ∃ w', Device.clearAll w t v = .done w' ∧
      Inv rank (S.store r ⟨false, (S.stores r).vals.map fun _ => some v⟩) w' ∧ w'.tensors = w.tensors ∧
      w'.depth = w.depth := by
  have hc := h.count hi ht
  unfold Device.clearAll
  have h0 : Inv rank (S.store r ⟨false, (S.stores r).vals⟩) w := by
    have : S.store r ⟨false, (S.stores r).vals⟩ = S := by
      cases S
      rename_i sl st nx
      unfold State.store
      simp only [State.mk.injEq, true_and, and_true]
      funext k
      split
      · rename_i e
        subst e
        simp only [] at hside ⊢
        rw [← hside]
      · rfl
    rw [this]; exact h
  obtain ⟨w', e1, vals, e2, e3, e4, e5, e6⟩ := forO_inv
    (P := fun k w' => ∃ vals, Inv rank (S.store r ⟨false, vals⟩) w' ∧ vals.length = t.elements ∧
      (∀ j, j < k → vals[j]? = some (some v)) ∧ w'.tensors = w.tensors ∧ w'.depth = w.depth)
    (n := t.elements) (f := fun k w => Device.writeHost w t k v) (s := w)
    ⟨_, h0, hc.symm, fun j hj => absurd hj (Nat.not_lt_zero _), rfl, rfl⟩ (by
      rintro k w1 hk ⟨vals, b1, b2, b3, b4, b5⟩
      obtain ⟨w2, c1, c2, c3, c4⟩ := b1.writeHost (i := i) (r := r) (k := k) (o := o) (t := t) hi
        (by rw [b4]; exact ht) (by rw [store_stores]) (by rw [store_stores]; simp only []; omega) v
      refine ⟨w2, c1, vals.set k (some v), ?_, by simp [b2], ?_, c3.trans b4, c4.trans b5⟩
      · rw [store_stores, store_store] at c2
        exact c2
      · intro j hj
        rw [List.getElem?_set]
        split
        · rename_i e
          subst e
          rw [if_pos (by omega)]
        · exact b3 j (by omega))
  refine ⟨w', e1, ?_, e5, e6⟩
  have : vals = (S.stores r).vals.map fun _ => some v := by
    apply List.ext_getElem?
    intro j
    rcases Nat.lt_or_ge j t.elements with hj | hj
    · rw [e4 j hj, List.getElem?_map, List.getElem?_eq_getElem (by omega)]
      rfl
    · rw [List.getElem?_eq_none (by omega), List.getElem?_eq_none (by simp; omega)]
  rw [← this]
  exact e2

/-! ### Objects -/

/-- Tensors that are not live do not matter. -/
theorem Inv.setDead {rank : Nat → Nat} {S : State V} {w : World V} (h : Inv rank S w) {i : Nat}
    (hnl : ∀ r o, S.slots i ≠ .live r o) (t : Option T) : Inv rank S (w.set i t) := by
  have hk : ∀ k r o, S.slots k = .live r o → (w.set i t).tensors k = w.tensors k := by
    intro k r o hk
    simp only [World.set]
    rw [if_neg (by rintro rfl; exact hnl r o hk)]
  constructor
  · intro k r hkl
    obtain ⟨a1, t', a2, a3⟩ := h.owner k r hkl
    exact ⟨a1, t', by rw [hk k r _ hkl]; exact a2, a3.frame (fun _ _ => rfl) (fun _ _ => rfl)⟩
  · intro k r j hkl
    obtain ⟨a1, o, t', tj, a2, a3, a4, a5⟩ := h.follower k r j hkl
    exact ⟨a1, o, t', tj, a2, by rw [hk k r _ hkl]; exact a3, by rw [hk j r o a2]; exact a4, a5⟩
  · exact h.bound
  · exact h.refs
  · intro i' k r r' t1 t2 hi hkl hik h1 h2
    rw [hk i' r _ hi] at h1
    rw [hk k r' _ hkl] at h2
    exact h.blocks i' k r r' t1 t2 hi hkl hik h1 h2
  · exact h.hostFresh
  · exact h.devFresh

theorem Inv.free_of_dead {rank : Nat → Nat} {S : State V} {w : World V} (h : Inv rank S w) {i : Nat}
    (hnl : ∀ r o, S.slots i ≠ .live r o) : S.Free i := by
  intro k r hk
  obtain ⟨_, o, _, _, a2, _⟩ := h.follower k r i hk
  exact hnl r o a2

/-- A tensor with a new store. -/
theorem Inv.fresh {rank : Nat → Nat} {S : State V} {w w' : World V} (h : Inv rank S w) {i : Nat} {t' : T}
    {x : Store V} (hf : S.Free i) (ht : ∀ k, k ≠ i → w'.tensors k = w.tensors k) (ht' : w'.tensors i = some t')
    (hh : ∀ b, b < w.hostNext → w'.host b = w.host b)
    (hhf : ∀ b, w'.hostNext ≤ b → w'.host b = none) (hd : w'.dev = w.dev) (hdn : w'.devNext = w.devNext)
    (hdep : w'.depth = w.depth) (hdata : ∀ b, t'.data = some b → w.hostNext ≤ b) (hcl : t'.cl = none)
    (ho : Owns w' t' x) : Inv rank (S.fresh i x) w' := by
  have hsl : ∀ k, k ≠ i → (S.fresh i x).slots k = S.slots k := by
    intro k hk
    simp [State.fresh, State.slot, State.store, hk]
  have hsi : (S.fresh i x).slots i = .live S.next none := by simp [State.fresh, State.slot, State.store]
  have hst : ∀ r, r < S.next → (S.fresh i x).stores r = S.stores r := by
    intro r hr
    simp only [State.fresh, State.slot, State.store]
    rw [if_neg (by omega)]
  have hsn : (S.fresh i x).stores S.next = x := by simp [State.fresh, State.store]
  have hnx : (S.fresh i x).next = S.next + 1 := rfl
  have hlt : ∀ k r t b, S.slots k = .live r none → w.tensors k = some t → t.data = some b → b < w.hostNext := by
    intro k r t b hk htk hb
    obtain ⟨_, t1, e1, hok⟩ := h.owner k r hk
    rw [htk] at e1
    obtain rfl := Option.some.inj e1
    obtain ⟨b', vs, c1, c2, _⟩ := hok.host (hok.nonempty hb)
    rw [hb] at c1
    obtain rfl := Option.some.inj c1
    rcases Nat.lt_or_ge b w.hostNext with hl | hl
    · exact hl
    · rw [h.hostFresh b hl] at c2
      cases c2
  constructor
  · intro k r hk
    by_cases hki : k = i
    · subst hki
      rw [hsi] at hk
      injection hk with e
      subst e
      exact ⟨by rw [hnx]; omega, t', ht', by rw [hsn]; exact ho⟩
    · rw [hsl k hki] at hk
      obtain ⟨a1, t, a2, a3⟩ := h.owner k r hk
      refine ⟨by rw [hnx]; omega, t, by rw [ht k hki]; exact a2, ?_⟩
      rw [hst r a1]
      exact a3.frame (fun b hb => hh b (hlt k r t b hk a2 hb)) (fun d _ => by rw [hd])
  · intro k r j hk
    have hki : k ≠ i := by
      rintro rfl
      rw [hsi] at hk
      injection hk with _ e
      cases e
    rw [hsl k hki] at hk
    obtain ⟨a1, o, t, tj, a2, a3, a4, a5⟩ := h.follower k r j hk
    have hji : j ≠ i := by
      rintro rfl
      exact hf k r hk
    exact ⟨a1, o, t, tj, by rw [hsl j hji]; exact a2, by rw [ht k hki]; exact a3, by rw [ht j hji]; exact a4, a5⟩
  · intro k; rw [hdep]; exact h.bound k
  · intro a b r ha hb
    by_cases hai : a = i
    · by_cases hbi : b = i
      · exact hai.trans hbi.symm
      · exfalso
        subst hai
        rw [hsi] at ha
        injection ha with e
        subst e
        rw [hsl b hbi] at hb
        have := (h.owner b _ hb).1
        omega
    · by_cases hbi : b = i
      · exfalso
        subst hbi
        rw [hsi] at hb
        injection hb with e
        subst e
        rw [hsl a hai] at ha
        have := (h.owner a _ ha).1
        omega
      · rw [hsl a hai] at ha
        rw [hsl b hbi] at hb
        exact h.refs a b r ha hb
  · intro a b r r' t1 t2 ha hb hab h1 h2
    by_cases hai : a = i
    · subst hai
      have hba : b ≠ a := fun e => hab e.symm
      rw [ht'] at h1
      obtain rfl := Option.some.inj h1
      rw [ht b hba] at h2
      rw [hsl b hba] at hb
      refine ⟨fun c e e' => ?_, fun d e => by rw [hcl] at e; cases e⟩
      have := hdata c e
      have := hlt b r' t2 c hb h2 e'
      omega
    · rw [ht a hai] at h1
      rw [hsl a hai] at ha
      by_cases hbi : b = i
      · subst hbi
        rw [ht'] at h2
        obtain rfl := Option.some.inj h2
        refine ⟨fun c e e' => ?_, fun d _ e' => by rw [hcl] at e'; cases e'⟩
        have := hdata c e'
        have := hlt a r t1 c ha h1 e
        omega
      · rw [ht b hbi] at h2
        rw [hsl b hbi] at hb
        exact h.blocks a b r r' t1 t2 ha hb hab h1 h2
  · exact hhf
  · intro d hdd
    rw [hdn] at hdd
    rw [hd]
    exact h.devFresh d hdd

/-- `DeleteIfPossible` of a tensor without shadows. -/
theorem Inv.delete {rank : Nat → Nat} {S : State V} {w : World V} (h : Inv rank S w) {i r : Nat} {o : Option Nat}
    {t : T} (hi : S.slots i = .live r o) (hf : S.Free i) (ht : w.tensors i = some t) (x : Slot)
    (hx : ∀ r o, x ≠ .live r o) :
    ∃ w1 t1, deleteIfPossible w t = .done (w1, t1) ∧ Inv rank (S.slot i x) w1 ∧ w1.tensors = w.tensors ∧
      w1.depth = w.depth ∧ t1.data = none ∧ t1.elements = 0 ∧ t1.shadow = none ∧ t1.gpu = false ∧
      (o = none → t1 = {}) := by
  have hsl : ∀ k, k ≠ i → (S.slot i x).slots k = S.slots k := by
    intro k hk
    simp [State.slot, hk]
  have hsi : (S.slot i x).slots i = x := by simp [State.slot]
  have live : ∀ k r o, (S.slot i x).slots k = .live r o → k ≠ i ∧ S.slots k = .live r o := by
    intro k r o hk
    by_cases e : k = i
    · subst e
      rw [hsi] at hk
      exact absurd hk (hx r o)
    · exact ⟨e, by rw [← hsl k e]; exact hk⟩
  -- worlds that differ in the blocks of `i` only
  have build : ∀ w1 : World V, w1.tensors = w.tensors → w1.depth = w.depth → w1.hostNext = w.hostNext →
      w1.devNext = w.devNext →
      (∀ k r' t', k ≠ i → S.slots k = .live r' none → w.tensors k = some t' →
        (∀ b, t'.data = some b → w1.host b = w.host b) ∧ (∀ d, t'.cl = some d → w1.dev d = w.dev d)) →
      (∀ b, w.host b = none → w1.host b = none) → (∀ d, w.dev d = none → w1.dev d = none) →
      Inv rank (S.slot i x) w1 := by
    intro w1 e1 e2 e3 e4 e5 e6 e7
    constructor
    · intro k r' hk
      obtain ⟨hki, hk⟩ := live k r' _ hk
      obtain ⟨a1, t', a2, a3⟩ := h.owner k r' hk
      obtain ⟨c1, c2⟩ := e5 k r' t' hki hk a2
      exact ⟨a1, t', by rw [e1]; exact a2, a3.frame c1 c2⟩
    · intro k r' j hk
      obtain ⟨hki, hk'⟩ := live k r' _ hk
      obtain ⟨a1, o, t', tj, a2, a3, a4, a5⟩ := h.follower k r' j hk'
      have hji : j ≠ i := by
        rintro rfl
        exact hf k r' hk'
      exact ⟨a1, o, t', tj, by rw [hsl j hji]; exact a2, by rw [e1]; exact a3, by rw [e1]; exact a4, a5⟩
    · intro k; rw [e2]; exact h.bound k
    · intro a b r' ha hb
      exact h.refs a b r' (live a r' _ ha).2 (live b r' _ hb).2
    · intro a b r1 r2 t1 t2 ha hb hab h1 h2
      rw [e1] at h1 h2
      exact h.blocks a b r1 r2 t1 t2 (live a r1 _ ha).2 (live b r2 _ hb).2 hab h1 h2
    · intro b hb
      rw [e3] at hb
      exact e6 b (h.hostFresh b hb)
    · intro d hd
      rw [e4] at hd
      exact e7 d (h.devFresh d hd)
  cases o with
  | some j =>
    obtain ⟨_, o', t', tj, a2, a3, a4, hfo⟩ := h.follower i r j hi
    rw [ht] at a3
    obtain rfl := Option.some.inj a3
    unfold deleteIfPossible
    have hd := build w rfl rfl rfl rfl (fun _ _ _ _ _ _ => ⟨fun _ _ => rfl, fun _ _ => rfl⟩) (fun _ e => e) (fun _ e => e)
    cases hdt : t.data with
    | none => exact ⟨w, _, rfl, hd, rfl, rfl, rfl, rfl, rfl, hfo.side, fun e => by cases e⟩
    | some b =>
      simp only [hfo.shadow]
      exact ⟨w, _, rfl, hd, rfl, rfl, rfl, rfl, rfl, hfo.side, fun e => by cases e⟩
  | none =>
    obtain ⟨_, t', a2, ho⟩ := h.owner i r hi
    rw [ht] at a2
    obtain rfl := Option.some.inj a2
    unfold deleteIfPossible
    cases hdt : t.data with
    | none =>
      have hnil : (S.stores r).vals = [] := by
        by_cases e : (S.stores r).vals = []
        · exact e
        · obtain ⟨b, vs, c1, _⟩ := ho.host e
          rw [hdt] at c1
          cases c1
      obtain ⟨n1, n2, n3⟩ := ho.nil hnil
      have hd := build w rfl rfl rfl rfl (fun _ _ _ _ _ _ => ⟨fun _ _ => rfl, fun _ _ => rfl⟩) (fun _ e => e) (fun _ e => e)
      refine ⟨w, _, rfl, hd, rfl, rfl, rfl, rfl, rfl, n3, fun _ => ?_⟩
      cases t
      simp only [] at hdt n2 n3
      rw [hdt, n2, n3]
    | some b =>
      obtain ⟨b', vs, c1, c2, _⟩ := ho.host (ho.nonempty hdt)
      rw [hdt] at c1
      obtain rfl := Option.some.inj c1
      simp only [ho.noShadow]
      have hfree : freeHost w b = .done (w.setHost b none) := by unfold freeHost; rw [c2]
      rw [hfree, Outcome.bind_done]
      cases hcl : t.cl with
      | none =>
        refine ⟨_, _, rfl, build _ rfl rfl rfl rfl ?_ ?_ (fun _ e => e), rfl, rfl, rfl, rfl, rfl, rfl, fun _ => rfl⟩
        · intro k r' t' hki hk htk
          refine ⟨fun c hc => ?_, fun _ _ => rfl⟩
          have := (h.blocks k i r' r t' t hk hi hki htk ht).1 c hc
          simp only [World.setHost]
          rw [if_neg (by rintro rfl; exact this hdt)]
        · intro c hc
          simp only [World.setHost]
          split
          · rfl
          · exact hc
      | some d =>
        obtain ⟨ds, d1, d2, d3⟩ := ho.dev d hcl
        have hfd : freeDev (w.setHost b none) d = .done ((w.setHost b none).setDev d none) := by
          unfold freeDev
          rw [show (w.setHost b none).dev d = some ds from d1]
        simp only []
        rw [hfd, Outcome.bind_done]
        refine ⟨_, _, rfl, build _ rfl rfl rfl rfl ?_ ?_ ?_, rfl, rfl, rfl, rfl, rfl, rfl, fun _ => rfl⟩
        · intro k r' t' hki hk htk
          have hb := h.blocks k i r' r t' t hk hi hki htk ht
          refine ⟨fun c hc => ?_, fun c hc => ?_⟩
          · simp only [World.setHost, World.setDev]
            rw [if_neg (by rintro rfl; exact hb.1 _ hc hdt)]
          · simp only [World.setHost, World.setDev]
            rw [if_neg (by rintro rfl; exact hb.2 _ hc hcl)]
        · intro c hc
          simp only [World.setHost, World.setDev]
          split
          · rfl
          · exact hc
        · intro c hc
          simp only [World.setHost, World.setDev]
          split
          · rfl
          · exact hc

/-- Allocation for a tensor without data. -/
theorem Inv.allocate {rank : Nat → Nat} {S : State V} {w : World V} (h : Inv rank S w) {i : Nat}
    (hf : S.Free i) (n : Nat) :
    ∃ w1 t1, resize w {} n = .done (w1, t1) ∧ t1.elements = n ∧ t1.cl = none ∧ w1.tensors = w.tensors ∧
      w1.dev = w.dev ∧ w1.devNext = w.devNext ∧ w1.depth = w.depth ∧
      (∀ b, b < w.hostNext → w1.host b = w.host b) ∧ (∀ b, w1.hostNext ≤ b → w1.host b = none) ∧
      (∀ b, t1.data = some b → w.hostNext ≤ b ∧ b < w1.hostNext) ∧ Owns w1 t1 ⟨false, List.replicate n none⟩ ∧
      Inv rank (S.fresh i ⟨false, List.replicate n none⟩) (w1.set i (some t1)) := by
  have key : ∃ w1 t1, resize w {} n = .done (w1, t1) ∧ t1.elements = n ∧ t1.cl = none ∧ w1.tensors = w.tensors ∧
      w1.dev = w.dev ∧ w1.devNext = w.devNext ∧ w1.depth = w.depth ∧
      (∀ b, b < w.hostNext → w1.host b = w.host b) ∧ (∀ b, w1.hostNext ≤ b → w1.host b = none) ∧
      (∀ b, t1.data = some b → w.hostNext ≤ b ∧ b < w1.hostNext) ∧
      Owns w1 t1 ⟨false, List.replicate n none⟩ := by
    by_cases hn : n = 0
    · subst hn
      refine ⟨w, {}, rfl, rfl, rfl, rfl, rfl, rfl, rfl, fun _ _ => rfl, h.hostFresh, fun b e => (by cases e), ?_⟩
      exact ⟨rfl, rfl, rfl, fun _ => ⟨rfl, rfl, rfl⟩, fun e => absurd rfl e, fun d e => (by cases e), fun e => (by cases e)⟩
    · refine ⟨{ w.setHost w.hostNext (some ⟨List.replicate n none, true⟩) with hostNext := w.hostNext + 1 },
        { data := some w.hostNext, elements := n }, ?_, rfl, rfl, rfl, rfl, rfl, rfl, ?_, ?_, ?_, ?_⟩
      · unfold resize
        rw [if_neg (by simp)]
        show (Outcome.done (w, ({} : T))).bind _ = _
        rw [Outcome.bind_done]
        simp only []
        rw [if_neg hn]
      · intro b hb
        simp only [World.setHost]
        rw [if_neg (by omega)]
      · intro b hb
        simp only [World.setHost] at hb ⊢
        rw [if_neg (by omega)]
        exact h.hostFresh b (by omega)
      · intro b e
        have e' : b = w.hostNext := (Option.some.inj e).symm
        subst e'
        exact ⟨Nat.le_refl _, Nat.lt_succ_self _⟩
      · refine ⟨rfl, by simp, rfl, fun e => ?_, fun _ => ?_, fun d e => (by cases e), fun e => (by cases e)⟩
        · exact absurd (by simpa using e) hn
        · exact ⟨w.hostNext, List.replicate n none, rfl, by simp [World.setHost], rfl, fun _ => ⟨rfl, fun _ _ e => e⟩⟩
  obtain ⟨w1, t1, a1, a2, a3, a4, a5, a6, a7, a8, a9, a10, a11⟩ := key
  refine ⟨w1, t1, a1, a2, a3, a4, a5, a6, a7, a8, a9, a10, a11, ?_⟩
  refine h.fresh hf (fun k hk => ?_) (by simp [World.set]) a8 a9 a5 a6 a7 (fun b e => (a10 b e).1) a3
    (a11.frame (fun _ _ => rfl) (fun _ _ => rfl))
  simp only [World.set, if_neg hk]
  rw [a4]

theorem Dead.slot {S : State V} {w w' : World V} (h : Dead S w) {i : Nat} {x : Slot}
    (ht : ∀ k, k ≠ i → w'.tensors k = w.tensors k) (ha : x = .absent → w'.tensors i = none)
    (hs : x = .spent → ∃ t, w'.tensors i = some t ∧ t.data = none ∧ t.shadow = none) : Dead (S.slot i x) w' := by
  intro k
  by_cases hk : k = i
  · subst hk
    have : (S.slot k x).slots k = x := by simp [State.slot]
    rw [this]
    exact ⟨ha, hs⟩
  · have : (S.slot i x).slots k = S.slots k := by simp [State.slot, hk]
    rw [this, ht k hk]
    exact h k

theorem Dead.fresh {S : State V} {w w' : World V} (h : Dead S w) {i : Nat} (y : Store V)
    (ht : ∀ k, k ≠ i → w'.tensors k = w.tensors k) : Dead (S.fresh i y) w' :=
  h.slot (x := .live S.next none) ht (fun e => by cases e) (fun e => by cases e)

theorem Dead.same {S : State V} {w w' : World V} (h : Dead S w) (r : Nat) (y : Store V)
    (ht : w'.tensors = w.tensors) : Dead (S.store r y) w' := by
  intro k
  rw [ht]
  exact h k

theorem get_eq {w : World V} {i : Nat} {t : T} (h : w.tensors i = some t) : w.get i = .done t := by
  unfold World.get
  rw [h]
  rfl

theorem absent_eq {w : World V} {i : Nat} (h : w.tensors i = none) : w.absent i = .done () := by
  unfold World.absent
  rw [h]
  rfl

theorem Inv.tensor {rank : Nat → Nat} {S : State V} {w : World V} (h : Inv rank S w) {i r : Nat}
    {o : Option Nat} (hi : S.slots i = .live r o) : ∃ t, w.tensors i = some t := by
  obtain ⟨q, tq, ti, a1, a2, a3, _⟩ := h.root w.depth i r o (h.bound i) hi
  exact ⟨ti, a3⟩

theorem World.set_self {w : World V} {i : Nat} {t : Option T} (h : w.tensors i = t) : w.set i t = w := by
  cases w
  unfold World.set
  simp only [World.mk.injEq, true_and, and_true]
  funext k
  split
  · rename_i e
    subst e
    exact h.symm
  · rfl

/-- The copy constructor. -/
theorem Inv.copy {rank : Nat → Nat} {S : State V} {w : World V} (h : Inv rank S w) {i j r : Nat}
    {o : Option Nat} {a : T} (hi : ∀ r o, S.slots i ≠ .live r o) (hj : S.slots j = .live r o)
    (ha : w.tensors j = some a) (hside : (S.stores r).onDevice = false) :
    ∃ w1 t1 w2, resize w {} a.elements = .done (w1, t1) ∧ copyAll w1 a t1 = .done w2 ∧
      w2.tensors = w.tensors ∧ Inv rank (S.fresh i ⟨false, (S.stores r).vals⟩) (w2.set i (some t1)) := by
  have hf : S.Free i := h.free_of_dead hi
  obtain ⟨q, tq, ti, a1, a2, a3, ho, a5, a6, a7, _⟩ := h.root w.depth j r o (h.bound j) hj
  rw [ha] at a3
  obtain rfl := Option.some.inj a3
  obtain ⟨w1, t1, b1, b2, b3, b4, b5, b6, b7, b8, b9, b10, b11, b12⟩ := h.allocate hf a.elements
  have hc : a.elements = (S.stores r).vals.length := a6.trans ho.count
  have hg : tq.gpu = false := ho.side.trans hside
  refine ⟨w1, t1, ?_⟩
  by_cases hn : (S.stores r).vals = []
  · have h0 : a.elements = 0 := by rw [hc, hn]; rfl
    refine ⟨w1, b1, ?_, b4, ?_⟩
    · unfold copyAll
      rw [h0]
      rfl
    · rw [hn]
      rw [h0] at b12
      exact b12
  obtain ⟨b, vs, hb, hvs, hlen, hm⟩ := ho.host hn
  have hsrc : a.data = some b := a5.trans hb
  have hbl : b < w.hostNext := by
    rcases Nat.lt_or_ge b w.hostNext with e | e
    · exact e
    · rw [h.hostFresh b e] at hvs
      cases hvs
  obtain ⟨c, us, hcd, hus, hulen, _⟩ := b11.host (by
    intro e
    rw [List.replicate_eq_nil_iff] at e
    rw [e] at hc
    exact hn (List.length_eq_zero_iff.1 hc.symm))
  have hcb := b10 c hcd
  simp only [List.length_replicate] at hulen
  obtain ⟨w2, e1, ws, e2, e3, e4, e5, e6, e7, e8, e9, e10⟩ := forO_inv
    (P := fun k (w2 : World V) => ∃ ws, w2.host c = some ⟨ws, true⟩ ∧ ws.length = a.elements ∧
      (∀ j, j < k → ws[j]? = vs[j]?) ∧ (∀ d, d ≠ c → w2.host d = w1.host d) ∧ w2.hostNext = w1.hostNext ∧
      w2.dev = w1.dev ∧ w2.devNext = w1.devNext ∧ w2.tensors = w1.tensors ∧ w2.depth = w1.depth)
    (n := a.elements) (f := fun k (w : World V) => match t1.data with
      | none => Outcome.undefined
      | some b => (Device.readHost w a k).bind fun a => match w.host b with
        | none => Outcome.undefined
        | some x => if k < x.vals.length ∧ x.writable then
            Outcome.done (w.setHost b (some { x with vals := x.vals.set k a })) else Outcome.undefined) (s := w1)
    ⟨us, hus, hulen, fun j hj => absurd hj (Nat.not_lt_zero _), fun _ _ => rfl, rfl, rfl, rfl, rfl, rfl⟩ (by
      rintro k w2 hk ⟨ws, f1, f2, f3, f4, f5, f6, f7, f8, f9⟩
      have hr : Device.readHost w2 a k = .done (vs[k]'(by omega)) := by
        unfold Device.readHost
        rw [hsrc]
        simp only []
        rw [f4 b (by omega), b8 b hbl, hvs]
        simp only []
        rw [List.getElem?_eq_getElem (by omega)]
        rfl
      rw [hcd]
      simp only []
      rw [hr, Outcome.bind_done, f1]
      simp only []
      rw [if_pos ⟨by omega, trivial⟩]
      refine ⟨_, rfl, ws.set k (vs[k]'(by omega)), by simp [World.setHost], by simp [f2], ?_, ?_, f5, f6, f7, f8, f9⟩
      · intro j hj
        rw [List.getElem?_set]
        split
        · rename_i e
          subst e
          rw [if_pos (by omega), List.getElem?_eq_getElem (by omega)]
        · exact f3 j (by omega)
      · intro d hd
        simp only [World.setHost]
        rw [if_neg hd]
        exact f4 d hd)
  have hws : ws = vs := by
    apply List.ext_getElem?
    intro k
    rcases Nat.lt_or_ge k a.elements with hk | hk
    · exact e4 k hk
    · rw [List.getElem?_eq_none (by omega), List.getElem?_eq_none (by omega)]
  subst hws
  refine ⟨w2, b1, e1, e9.trans b4, ?_⟩
  refine h.fresh hf (t' := t1) (fun k hk => ?_) (by simp [World.set]) ?_ ?_ ?_ ?_ ?_
    (fun b e => (b10 b e).1) b3 ?_
  · simp only [World.set, if_neg hk]
    rw [e9, b4]
  · intro d hd
    show w2.host d = _
    rw [e5 d (by omega), b8 d hd]
  · intro d hd
    change w2.hostNext ≤ d at hd
    show w2.host d = _
    rw [e6] at hd
    rw [e5 d (by omega), b9 d hd]
  · show w2.dev = _
    rw [e7, b5]
  · show w2.devNext = _
    rw [e8, b6]
  · show w2.depth = _
    rw [e10, b7]
  · refine ⟨b11.noShadow, b2.trans hc, b11.side, fun e => absurd e hn, fun _ => ?_, fun d hd => ?_, b11.buffer⟩
    · exact ⟨c, ws, hcd, e2, by simp only []; omega, fun _ => hm hg⟩
    · rw [b3] at hd
      cases hd

theorem Inv.deeper {rank : Nat → Nat} {S : State V} {w : World V} (h : Inv rank S w) :
    Inv rank S { w with depth := w.depth + 1 } where
  owner := fun i r hi => by
    obtain ⟨a1, t, a2, a3⟩ := h.owner i r hi
    exact ⟨a1, t, a2, a3.frame (fun _ _ => rfl) (fun _ _ => rfl)⟩
  follower := h.follower
  bound := fun i => Nat.le_succ_of_le (h.bound i)
  refs := h.refs
  blocks := h.blocks
  hostFresh := h.hostFresh
  devFresh := h.devFresh

/-- A new shadow. -/
theorem Inv.follow {rank : Nat → Nat} {S : State V} {w : World V} (h : Inv rank S w) {i j r : Nat}
    {o : Option Nat} {a t : T} (hi : ∀ r o, S.slots i ≠ .live r o) (hj : S.slots j = .live r o)
    (ha : w.tensors j = some a) (ht : Follows t a j) (hb : rank j < w.depth) :
    Inv (fun k => if k = i then rank j + 1 else rank k) (S.slot i (.live r (some j))) (w.set i (some t)) := by
  have hf : S.Free i := h.free_of_dead hi
  have hji : j ≠ i := by rintro rfl; exact hi r o hj
  have hsl : ∀ k, k ≠ i → (S.slot i (.live r (some j))).slots k = S.slots k := by
    intro k hk
    simp [State.slot, hk]
  have hsi : (S.slot i (.live r (some j))).slots i = .live r (some j) := by simp [State.slot]
  have hown : ∀ k r', (S.slot i (.live r (some j))).slots k = .live r' none → k ≠ i ∧ S.slots k = .live r' none := by
    intro k r' hk
    by_cases e : k = i
    · subst e
      rw [hsi] at hk
      injection hk with _ e
      cases e
    · exact ⟨e, by rw [← hsl k e]; exact hk⟩
  have hte : ∀ k, k ≠ i → (w.set i (some t)).tensors k = w.tensors k := by
    intro k hk
    simp only [World.set, if_neg hk]
  have hti : (w.set i (some t)).tensors i = some t := by simp [World.set]
  constructor
  · intro k r' hk
    obtain ⟨e, hk⟩ := hown k r' hk
    obtain ⟨a1, t', a2, a3⟩ := h.owner k r' hk
    exact ⟨a1, t', by rw [hte k e]; exact a2, a3.frame (fun _ _ => rfl) (fun _ _ => rfl)⟩
  · intro k r' j' hk
    by_cases e : k = i
    · subst e
      rw [hsi] at hk
      injection hk with e1 e2
      obtain rfl := e1
      obtain rfl := Option.some.inj e2
      simp only [if_pos, if_neg hji]
      exact ⟨Nat.lt_succ_self _, o, t, a, by rw [hsl j hji]; exact hj, hti, by rw [hte j hji]; exact ha, ht⟩
    · rw [hsl k e] at hk
      obtain ⟨a1, o', t', tj, a2, a3, a4, a5⟩ := h.follower k r' j' hk
      have hj' : j' ≠ i := by
        rintro rfl
        exact hf k r' hk
      simp only [if_neg e, if_neg hj']
      exact ⟨a1, o', t', tj, by rw [hsl j' hj']; exact a2, by rw [hte k e]; exact a3, by rw [hte j' hj']; exact a4, a5⟩
  · intro k
    show (if k = i then rank j + 1 else rank k) ≤ w.depth
    split
    · exact hb
    · exact h.bound k
  · intro k k' r' hk hk'
    exact h.refs k k' r' (hown k r' hk).2 (hown k' r' hk').2
  · intro k k' r1 r2 t1 t2 hk hk' hkk h1 h2
    obtain ⟨e, hk⟩ := hown k r1 hk
    obtain ⟨e', hk'⟩ := hown k' r2 hk'
    rw [hte k e] at h1
    rw [hte k' e'] at h2
    exact h.blocks k k' r1 r2 t1 t2 hk hk' hkk h1 h2
  · exact h.hostFresh
  · exact h.devFresh

/-- `Shadow`. -/
theorem Inv.shadow {rank : Nat → Nat} {S : State V} {w : World V} (h : Inv rank S w) (hd : Dead S w)
    {i j ri r : Nat} {oi o : Option Nat} (hij : i ≠ j) (hi : S.slots i = .live ri oi) (hf : S.Free i)
    (hj : S.slots j = .live r o) (hn : (S.stores r).vals ≠ []) :
    ∃ rank' w', Device.shadow w i j = .done w' ∧
      Inv rank' ((S.slot i (.live r (some j))).store r ⟨false, (S.stores r).vals⟩) w' ∧
      Dead ((S.slot i (.live r (some j))).store r ⟨false, (S.stores r).vals⟩) w' := by
  have hji : j ≠ i := fun e => hij e.symm
  obtain ⟨t, ht⟩ := h.tensor hi
  obtain ⟨a, ha⟩ := h.tensor hj
  obtain ⟨w1, t1, c1, c2, c3, c4, c5, c6, c7, c8, c9⟩ := h.deeper.delete hi hf ht .absent (fun _ _ e => by cases e)
  have hdead : ∀ r o, (S.slot i .absent).slots i ≠ .live r o := by
    intro r o
    simp [State.slot]
  have hlj : (S.slot i .absent).slots j = .live r o := by
    simp only [State.slot, if_neg hji]
    exact hj
  have h2 := (c2.setDead hdead (some t1)).setDead hdead
    (some { t1 with data := a.data, elements := a.elements, shadow := some j })
  have haj : ((w1.set i (some t1)).set i
      (some { t1 with data := a.data, elements := a.elements, shadow := some j })).tensors j = some a := by
    simp only [World.set, if_neg hji]
    rw [c3]
    exact ha
  have hai : ((w1.set i (some t1)).set i
      (some { t1 with data := a.data, elements := a.elements, shadow := some j })).tensors i =
      some { t1 with data := a.data, elements := a.elements, shadow := some j } := by simp [World.set]
  obtain ⟨w3, d1, d2, d3, d4⟩ := h2.toDevice hlj hn false
  obtain ⟨a3, d5, d6, d7⟩ := d4 a haj
  obtain ⟨w4, e1, e2, e3, e4⟩ := d2.toHost (i := j) (r := r) (o := o) hlj false
  obtain ⟨a4, e5, e6, e7⟩ := e4 a3 d5
  rw [store_stores] at e2
  have e2' : Inv rank ((S.slot i .absent).store r ⟨false, (S.stores r).vals⟩) w4 := by
    rw [store_store] at e2
    exact e2
  have hti : w4.tensors i = some { t1 with data := a.data, elements := a.elements, shadow := some j } := by
    rw [e3.others i hdead, d3.others i hdead]
    exact hai
  refine ⟨fun k => if k = i then rank j + 1 else rank k, w4.set i (some { t1 with data := a.data, elements := a.elements, shadow := some j, cl := a4.cl }), ?_, ?_, ?_⟩
  · unfold Device.shadow
    simp only []
    rw [get_eq (w := { w with depth := w.depth + 1 }) ht, Outcome.bind_done, c1, Outcome.bind_done]
    simp only []
    rw [get_eq (t := a) (by simp only [World.set, if_neg hji]; rw [c3]; exact ha), Outcome.bind_done, d1,
      Outcome.bind_done, e1, Outcome.bind_done, get_eq hti, Outcome.bind_done, get_eq e5, Outcome.bind_done]
  · have hcnt : a.elements = a4.elements := by
      rw [h.count hj ha, e2'.count hlj e5, store_stores]
    have hdep : w4.depth = w.depth + 1 := by
      rw [e3.depth, d3.depth]
      exact c4
    have := e2'.follow (i := i) (j := j) (r := r) (o := o) (a := a4)
      (t := { t1 with data := a.data, elements := a.elements, shadow := some j, cl := a4.cl }) hdead hlj e5
      ⟨rfl, by rw [e7, d7], hcnt, rfl, by simp only []; rw [e6]; exact d6, c8⟩
      (by rw [hdep]; exact Nat.lt_succ_of_le (h.bound j))
    have hS : ((S.slot i .absent).store r ⟨false, (S.stores r).vals⟩).slot i (.live r (some j)) =
        (S.slot i (.live r (some j))).store r ⟨false, (S.stores r).vals⟩ := by
      unfold State.store State.slot
      simp only [State.mk.injEq, true_and, and_true]
      funext k
      split <;> rfl
    rw [hS] at this
    exact this
  · have hk : ∀ k, k ≠ i → (∀ r o, S.slots k ≠ .live r o) → w4.tensors k = w.tensors k := by
      intro k hki hk
      have hk' : ∀ r o, (S.slot i .absent).slots k ≠ .live r o := by
        intro r o
        simp only [State.slot, if_neg hki]
        exact hk r o
      rw [e3.others k hk', d3.others k hk']
      simp only [World.set, if_neg hki]
      rw [c3]
    intro k
    by_cases hki : k = i
    · subst hki
      simp [State.slot, State.store]
    · have hs : ((S.slot i (.live r (some j))).store r ⟨false, (S.stores r).vals⟩).slots k = S.slots k := by
        simp [State.slot, State.store, hki]
      rw [hs]
      simp only [World.set, if_neg hki]
      refine ⟨fun e => ?_, fun e => ?_⟩
      · rw [hk k hki (fun r o e' => by rw [e] at e'; cases e')]
        exact (hd k).1 e
      · rw [hk k hki (fun r o e' => by rw [e] at e'; cases e')]
        exact (hd k).2 e

/-- The data of a tensor on the host is handed over. -/
theorem Inv.handOver {rank : Nat → Nat} {S : State V} {w : World V} (h : Inv rank S w) {i j r : Nat} {a : T}
    (hi : ∀ r o, S.slots i ≠ .live r o) (hj : S.slots j = .live r none) (hfj : S.Free j)
    (ha : w.tensors j = some a) (hside : (S.stores r).onDevice = false) (t : T) :
    Inv rank ((S.slot j .spent).slot i (.live r none))
      ((w.set j (some t)).set i (some { data := a.data, elements := a.elements })) := by
  have hf : S.Free i := h.free_of_dead hi
  have hji : j ≠ i := by rintro rfl; exact hi r none hj
  obtain ⟨hr, a', ha', ho⟩ := h.owner j r hj
  rw [ha] at ha'
  obtain rfl := Option.some.inj ha'
  have hg : a.gpu = false := ho.side.trans hside
  have hsi : ((S.slot j .spent).slot i (.live r none)).slots i = .live r none := by simp [State.slot]
  have hlive : ∀ k r' o, k ≠ i → ((S.slot j .spent).slot i (.live r none)).slots k = .live r' o →
      k ≠ j ∧ S.slots k = .live r' o := by
    intro k r' o hk e
    simp only [State.slot, if_neg hk] at e
    by_cases hkj : k = j
    · rw [if_pos hkj] at e
      cases e
    · rw [if_neg hkj] at e
      exact ⟨hkj, e⟩
  have hback : ∀ k, k ≠ i → k ≠ j → ((S.slot j .spent).slot i (.live r none)).slots k = S.slots k := by
    intro k e1 e2
    simp only [State.slot, if_neg e1, if_neg e2]
  have hte : ∀ k, k ≠ i → k ≠ j →
      ((w.set j (some t)).set i (some { data := a.data, elements := a.elements })).tensors k = w.tensors k := by
    intro k e1 e2
    simp only [World.set, if_neg e1, if_neg e2]
  have hti : ((w.set j (some t)).set i (some { data := a.data, elements := a.elements })).tensors i =
      some { data := a.data, elements := a.elements } := by simp [World.set]
  constructor
  · intro k r' hk
    by_cases e : k = i
    · subst e
      rw [hsi] at hk
      injection hk with e
      subst e
      refine ⟨hr, _, hti, rfl, ho.count, hside.symm, fun e => ?_, fun e => ?_, fun d e => (by cases e), fun e => (by cases e)⟩
      · exact ⟨(ho.nil e).1, rfl, rfl⟩
      · obtain ⟨b, vs, b1, b2, b3, b4⟩ := ho.host e
        exact ⟨b, vs, b1, b2, b3, fun _ => b4 hg⟩
    · obtain ⟨e', hk⟩ := hlive k r' _ e hk
      obtain ⟨a1, t', a2, a3⟩ := h.owner k r' hk
      exact ⟨a1, t', by rw [hte k e e']; exact a2, a3.frame (fun _ _ => rfl) (fun _ _ => rfl)⟩
  · intro k r' j' hk
    have hki : k ≠ i := by
      rintro rfl
      rw [hsi] at hk
      injection hk with _ e
      cases e
    obtain ⟨hkj, hk'⟩ := hlive k r' _ hki hk
    obtain ⟨a1, o', t', tj, a2, a3, a4, a5⟩ := h.follower k r' j' hk'
    have hj'i : j' ≠ i := by
      rintro rfl
      exact hf k r' hk'
    have hj'j : j' ≠ j := by
      rintro rfl
      exact hfj k r' hk'
    exact ⟨a1, o', t', tj, by rw [hback j' hj'i hj'j]; exact a2, by rw [hte k hki hkj]; exact a3,
      by rw [hte j' hj'i hj'j]; exact a4, a5⟩
  · exact h.bound
  · intro k k' r' hk hk'
    by_cases e : k = i
    · by_cases e' : k' = i
      · exact e.trans e'.symm
      · exfalso
        subst e
        rw [hsi] at hk
        injection hk with e1
        subst e1
        obtain ⟨c1, c2⟩ := hlive k' _ _ e' hk'
        exact c1 (h.refs k' j _ c2 hj)
    · obtain ⟨c1, c2⟩ := hlive k _ _ e hk
      by_cases e' : k' = i
      · exfalso
        subst e'
        rw [hsi] at hk'
        injection hk' with e1
        subst e1
        exact c1 (h.refs k j _ c2 hj)
      · obtain ⟨c3, c4⟩ := hlive k' _ _ e' hk'
        exact h.refs k k' r' c2 c4
  · intro k k' r1 r2 t1 t2 hk hk' hkk h1 h2
    by_cases e : k = i
    · subst e
      have e' : k' ≠ k := fun e => hkk e.symm
      obtain ⟨c1, c2⟩ := hlive k' _ _ e' hk'
      rw [hti] at h1
      obtain rfl := Option.some.inj h1
      rw [hte k' e' c1] at h2
      exact ⟨(h.blocks j k' r r2 a t2 hj c2 (fun e => c1 e.symm) ha h2).1, fun d e => (by cases e)⟩
    · obtain ⟨c1, c2⟩ := hlive k _ _ e hk
      rw [hte k e c1] at h1
      by_cases e' : k' = i
      · subst e'
        rw [hti] at h2
        obtain rfl := Option.some.inj h2
        exact ⟨(h.blocks k j r1 r t1 a c2 hj c1 h1 ha).1, fun d _ e => (by cases e)⟩
      · obtain ⟨c3, c4⟩ := hlive k' _ _ e' hk'
        rw [hte k' e' c3] at h2
        exact h.blocks k k' r1 r2 t1 t2 c2 c4 hkk h1 h2
  · exact h.hostFresh
  · exact h.devFresh

/-! ### Steps and histories -/

theorem step_refines {rank : Nat → Nat} {S S' : State V} {w : World V} {op : Op V} {a : Option V}
    (h : Inv rank S w) (hd : Dead S w) (hs : Step S op S' a) :
    ∃ rank' w' c, exec w op = .done (w', c) ∧ Inv rank' S' w' ∧ Dead S' w' ∧ ∀ v, a = some v → c = some v := by
  cases hs with
  | @construct i n hi =>
    have hnl : ∀ r o, S.slots i ≠ .live r o := fun r o e => by rw [hi] at e; cases e
    obtain ⟨w1, t1, b1, b2, b3, b4, b5, b6, b7, b8, b9, b10, b11, b12⟩ := h.allocate (h.free_of_dead hnl) n
    refine ⟨rank, w1.set i (some t1), none, ?_, b12, hd.fresh _ (fun k hk => ?_), fun v e => (by cases e)⟩
    · show (w.absent i).bind _ = _
      rw [absent_eq ((hd i).1 hi), Outcome.bind_done, b1, Outcome.bind_done]
    · simp only [World.set, if_neg hk]
      rw [b4]
  | @copy i j r o hi hj hside =>
    have hnl : ∀ r o, S.slots i ≠ .live r o := fun r o e => by rw [hi] at e; cases e
    obtain ⟨t, ht⟩ := h.tensor hj
    obtain ⟨w1, t1, w2, b1, b2, b3, b4⟩ := h.copy hnl hj ht hside
    refine ⟨rank, w2.set i (some t1), none, ?_, b4, hd.fresh _ (fun k hk => ?_), fun v e => (by cases e)⟩
    · show (w.absent i).bind _ = _
      rw [absent_eq ((hd i).1 hi), Outcome.bind_done, get_eq ht, Outcome.bind_done, b1, Outcome.bind_done]
      simp only []
      rw [b2, Outcome.bind_done]
    · simp only [World.set, if_neg hk]
      rw [b3]
  | @move i j r hi hj hf =>
    have hnl : ∀ r o, S.slots i ≠ .live r o := fun r o e => by rw [hi] at e; cases e
    have hji : j ≠ i := by rintro rfl; exact hnl r none hj
    obtain ⟨t, ht⟩ := h.tensor hj
    obtain ⟨w1, b1, b2, b3, b4⟩ := h.toHost hj false
    obtain ⟨t', c1, c2, c3⟩ := b4 t ht
    have hdel : deleteIfPossible w1 { t' with data := none } =
        .done (w1, { t' with data := none, elements := 0, shadow := none }) := rfl
    refine ⟨rank, _, none, ?_, b2.handOver (i := i) hnl hj hf c1 (by rw [store_stores])
      { t' with data := none, elements := 0, shadow := none }, ?_, fun v e => (by cases e)⟩
    · show (w.absent i).bind _ = _
      rw [absent_eq ((hd i).1 hi), Outcome.bind_done]
      unfold moveFrom
      rw [b1, Outcome.bind_done, get_eq c1, Outcome.bind_done, hdel, Outcome.bind_done, Outcome.bind_done]
    · intro k
      by_cases e : k = i
      · subst e
        simp [State.slot, State.store]
      · by_cases e' : k = j
        · subst e'
          simp [State.slot, State.store, World.set, hji]
        · have hsk : (((S.slot j .spent).slot i (.live r none)).store r ⟨false, (S.stores r).vals⟩).slots k =
              S.slots k := by simp [State.slot, State.store, e, e']
          rw [hsk]
          simp only [World.set, if_neg e, if_neg e']
          have := hd.frame b3 r ⟨false, (S.stores r).vals⟩ k
          exact this
  | @reshape i r o n hi hn =>
    obtain ⟨t, ht⟩ := h.tensor hi
    have hc := h.count hi ht
    have hr : resize w t n = .done (w, t) := by
      unfold resize
      by_cases hdt : t.data.isSome = true ∧ t.elements = n
      · rw [if_pos hdt]
      · rw [if_neg hdt]
        have hnone : t.data = none := by
          cases hdd : t.data with
          | none => rfl
          | some b => exact absurd ⟨by rw [hdd]; rfl, hc.trans hn⟩ hdt
        obtain ⟨q, tq, ti, a1, a2, a3, ho, a5, a6, a7, a8, a9, _⟩ := h.root w.depth i r o (h.bound i) hi
        rw [ht] at a3
        obtain rfl := Option.some.inj a3
        have hnil : (S.stores r).vals = [] := by
          by_cases e : (S.stores r).vals = []
          · exact e
          · obtain ⟨b, vs, c1, _⟩ := ho.host e
            rw [← a5, hnone] at c1
            cases c1
        have ho' : o = none := by
          by_cases e : o = none
          · exact e
          · exact absurd (a7.trans (ho.nil hnil).2.1) (a9 e)
        have hqi := a8 ho'
        subst hqi
        rw [ht] at a2
        obtain rfl := Option.some.inj a2
        have h0 : t.elements = 0 := by rw [hc, hnil]; rfl
        have hn0 : n = 0 := by rw [← hn, hnil]; rfl
        have hdel : deleteIfPossible w t = .done (w, t) := by
          have hns := ho.noShadow
          unfold deleteIfPossible
          rw [hnone]
          cases t
          simp only [] at h0 hns ⊢
          rw [h0, hns]
          simp only [] at hnone
          rw [hnone]
        rw [hdel, Outcome.bind_done, if_pos hn0]
    refine ⟨rank, w, none, ?_, h, hd, fun v e => (by cases e)⟩
    show (w.get i).bind _ = _
    rw [get_eq ht, Outcome.bind_done, hr, Outcome.bind_done]
    simp only []
    rw [World.set_self ht]
  | @resize i r n hi hf hn =>
    obtain ⟨t, ht⟩ := h.tensor hi
    have hc := h.count hi ht
    obtain ⟨w1, t1, c1, c2, c3, c4, c5, c6, c7, c8, c9⟩ := h.delete hi hf ht .absent (fun _ _ e => by cases e)
    obtain rfl := c9 rfl
    have hf' : (S.slot i .absent).Free i := by
      refine c2.free_of_dead (fun r o => ?_)
      simp [State.slot]
    obtain ⟨w2, t2, b1, b2, b3, b4, b5, b6, b7, b8, b9, b10, b11, b12⟩ := c2.allocate hf' n
    refine ⟨rank, w2.set i (some t2), none, ?_, ?_, hd.fresh _ (fun k hk => ?_), fun v e => (by cases e)⟩
    · show (w.get i).bind _ = _
      rw [get_eq ht, Outcome.bind_done]
      have hr : resize w t n = .done (w2, t2) := by
        rw [← b1]
        unfold resize
        rw [if_neg (fun e => hn (hc.symm.trans e.2)), if_neg (by simp), c1]
        rfl
      rw [hr, Outcome.bind_done]
    · have hS : (S.slot i .absent).fresh i ⟨false, List.replicate n none⟩ =
          S.fresh i ⟨false, List.replicate n none⟩ := by
        unfold State.fresh State.store State.slot
        simp only [State.mk.injEq, true_and, and_true]
        funext k
        split <;> rfl
      rw [← hS]
      exact b12
    · simp only [World.set, if_neg hk]
      rw [b4, c3]
  | @shadow i j ri oi r o hij hi hf hj hn =>
    obtain ⟨rank', w', b1, b2, b3⟩ := h.shadow hd hij hi hf hj hn
    refine ⟨rank', w', none, ?_, b2, b3, fun v e => (by cases e)⟩
    show (Device.shadow w i j).bind _ = _
    rw [b1, Outcome.bind_done]
  | @toDevice i r o skip hi hn =>
    obtain ⟨w', b1, b2, b3, b4⟩ := h.toDevice hi hn skip
    refine ⟨rank, w', none, ?_, b2, hd.frame b3 _ _, fun v e => (by cases e)⟩
    show (moveToGPU w i skip).bind _ = _
    rw [b1, Outcome.bind_done]
  | @toHost i r o skip hi =>
    obtain ⟨w', b1, b2, b3, b4⟩ := h.toHost hi skip
    refine ⟨rank, w', none, ?_, b2, hd.frame b3 _ _, fun v e => (by cases e)⟩
    show (moveToCPU w i skip).bind _ = _
    rw [b1, Outcome.bind_done]
  | @writeHost i r o k v hi hside hk =>
    obtain ⟨t, ht⟩ := h.tensor hi
    obtain ⟨w', b1, b2, b3, b4⟩ := h.writeHost hi ht hside hk v
    refine ⟨rank, w', none, ?_, b2, hd.same _ _ b3, fun v e => (by cases e)⟩
    show (w.get i).bind _ = _
    rw [get_eq ht, Outcome.bind_done, b1, Outcome.bind_done]
  | @readHost i r o k _ hi hside hk =>
    obtain ⟨t, ht⟩ := h.tensor hi
    obtain ⟨c, b1, b2⟩ := h.readHost hi ht hside hk
    refine ⟨rank, w, c, ?_, h, hd, b2⟩
    show (w.get i).bind _ = _
    rw [get_eq ht, Outcome.bind_done, b1, Outcome.bind_done]
  | @writeDevice i r o k v hi hside hk =>
    obtain ⟨t, ht⟩ := h.tensor hi
    obtain ⟨w', b1, b2, b3, b4⟩ := h.writeDevice hi ht hside hk v
    refine ⟨rank, w', none, ?_, b2, hd.same _ _ b3, fun v e => (by cases e)⟩
    show (w.get i).bind _ = _
    rw [get_eq ht, Outcome.bind_done, b1, Outcome.bind_done]
  | @readDevice i r o k _ hi hside hk =>
    obtain ⟨t, ht⟩ := h.tensor hi
    obtain ⟨c, b1, b2⟩ := h.readDevice hi ht hside hk
    refine ⟨rank, w, c, ?_, h, hd, b2⟩
    show (w.get i).bind _ = _
    rw [get_eq ht, Outcome.bind_done, b1, Outcome.bind_done]
  | @clear i r o v hi =>
    obtain ⟨w1, b1, b2, b3, b4⟩ := h.toHost hi true
    obtain ⟨t, ht⟩ := b2.tensor (i := i) (r := r) (o := o) hi
    obtain ⟨w2, c1, c2, c3, c4⟩ := b2.clearAll (i := i) (r := r) (o := o) hi ht (by rw [store_stores]) v
    refine ⟨rank, w2, none, ?_, ?_, ?_, fun v e => (by cases e)⟩
    · show (moveToCPU w i true).bind _ = _
      rw [b1, Outcome.bind_done, get_eq ht, Outcome.bind_done, c1, Outcome.bind_done]
    · rw [store_stores, store_store] at c2
      simp only [if_true, List.map_map] at c2
      exact c2
    · have := (hd.frame b3 r ⟨false, (S.stores r).vals.map fun _ => none⟩).same r
        ⟨false, (S.stores r).vals.map fun _ => some v⟩ c3
      rw [store_store] at this
      exact this
  | @destroy i r o hi hf =>
    obtain ⟨t, ht⟩ := h.tensor hi
    obtain ⟨w1, t1, c1, c2, c3, c4, c5, c6, c7, c8, c9⟩ := h.delete hi hf ht .absent (fun _ _ e => by cases e)
    refine ⟨rank, w1.set i none, none, ?_, c2.setDead ?_ none, hd.slot ?_ ?_ (fun e => by cases e), fun v e => (by cases e)⟩
    · show (w.get i).bind _ = _
      rw [get_eq ht, Outcome.bind_done, c1, Outcome.bind_done]
    · intro r o
      simp [State.slot]
    · intro k hk
      simp only [World.set, if_neg hk]
      rw [c3]
    · intro _
      simp [World.set]
  | @discard i hi =>
    obtain ⟨t, ht, h1, h2⟩ := (hd i).2 hi
    have hnl : ∀ r o, S.slots i ≠ .live r o := fun r o e => by rw [hi] at e; cases e
    refine ⟨rank, w.set i none, none, ?_, ?_, hd.slot ?_ ?_ (fun e => by cases e), fun v e => (by cases e)⟩
    · show (w.get i).bind _ = _
      rw [get_eq ht, Outcome.bind_done]
      unfold deleteIfPossible
      rw [h1, Outcome.bind_done]
    · have hb := h.setDead hnl none
      have hlive : ∀ k r o, (S.slot i .absent).slots k = .live r o → S.slots k = .live r o := by
        intro k r o e
        by_cases hk : k = i
        · subst hk
          simp [State.slot] at e
        · simpa only [State.slot, if_neg hk] using e
      have hback : ∀ k, k ≠ i → (S.slot i .absent).slots k = S.slots k := by
        intro k hk
        simp only [State.slot, if_neg hk]
      constructor
      · intro k r e
        exact hb.owner k r (hlive k r _ e)
      · intro k r j e
        obtain ⟨a1, o, t, tj, a2, a3⟩ := hb.follower k r j (hlive k r _ e)
        exact ⟨a1, o, t, tj, by rw [hback j (by rintro rfl; exact hnl r o a2)]; exact a2, a3⟩
      · exact hb.bound
      · intro k k' r e e'
        exact hb.refs k k' r (hlive k r _ e) (hlive k' r _ e')
      · intro k k' r r' t t' e e'
        exact hb.blocks k k' r r' t t' (hlive k r _ e) (hlive k' r' _ e')
      · exact hb.hostFresh
      · exact hb.devFresh
    · intro k hk
      simp only [World.set, if_neg hk]
    · intro _
      simp [World.set]

theorem inv_empty : Inv (fun _ => 0) ({} : State V) ({} : World V) where
  owner := fun i r e => by cases e
  follower := fun i r j e => by cases e
  bound := fun _ => Nat.zero_le _
  refs := fun i k r e => by cases e
  blocks := fun i k r r' t t' e => by cases e
  hostFresh := fun _ _ => rfl
  devFresh := fun _ _ => rfl

theorem dead_empty : Dead ({} : State V) ({} : World V) := fun _ => ⟨fun _ => rfl, fun e => (by cases e)⟩

theorem run_refines {S S' : State V} {ops : List (Op V)} {as : List (Option V)} (hs : Run S ops S' as) :
    ∀ {rank : Nat → Nat} {w : World V}, Inv rank S w → Dead S w →
    ∃ w' cs, run w ops = .done (w', cs) ∧ Matches as cs := by
  induction hs with
  | nil =>
    intro rank w _ _
    exact ⟨w, [], rfl, rfl, fun k v e => by simp at e⟩
  | @cons s op s' a ops s'' as h1 _ ih =>
    intro rank w h hd
    obtain ⟨rank', w1, c, b1, b2, b3, b4⟩ := step_refines h hd h1
    obtain ⟨w2, cs, c1, c2, c3⟩ := ih b2 b3
    refine ⟨w2, c :: cs, ?_, by simp [c2], fun k v e => ?_⟩
    · show (exec w op).bind _ = _
      rw [b1, Outcome.bind_done]
      simp only []
      rw [c1, Outcome.bind_done]
    · cases k with
      | zero =>
        simp only [List.getElem?_cons_zero, Option.some.injEq] at e ⊢
        exact b4 v e
      | succ k =>
        simp only [List.getElem?_cons_succ] at e ⊢
        exact c3 k v e

end CN24.Device
