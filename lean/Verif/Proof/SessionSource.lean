import Verif.Proof.Session
import Verif.Proof.Sampling

/-! The dataset input layer as the source of a session. -/

namespace CN24.Session
open CN24 CN24.Tensor CN24.Sampling

variable {R G : Type _}

/-- The two tensors hold the same in the first `k` samples. -/
def AgreeT (k : Nat) (t u : Tensor R) : Prop :=
  ∀ x y m s, t.InRange x y m s → s < k → t.get x y m s = u.get x y m s

structure Agree (k : Nat) (o₁ o₂ : Outputs R) : Prop where
  data : AgreeT k o₁.data o₂.data
  label : AgreeT k o₁.label o₂.label
  helper : AgreeT k o₁.helper o₂.helper
  error : AgreeT k o₁.error o₂.error

/-- A training sample replaces all that was in its position. -/
structure Overwrites (ds : Data R) (batch : Nat) (Fit : Outputs R → Prop) : Prop where
  good : Good ds batch Fit
  data : ∀ o, Fit o → o.data.WF ∧ o.data.samples = batch
  label : ∀ o, Fit o → o.label.WF ∧ o.label.samples = batch
  helper : ∀ o, Fit o → o.helper.WF ∧ o.helper.samples = batch
  shape : ∀ o₁ o₂, Fit o₁ → Fit o₂ → Sh o₁.data o₂.data ∧ Sh o₁.label o₂.label ∧ Sh o₁.helper o₂.helper ∧
    Sh o₁.error o₂.error
  fills : ∀ o₁ o₂ s i r₁ r₂, Fit o₁ → Fit o₂ → s < batch → i < ds.training →
    ds.getTraining o₁ s i = some (true, r₁) → ds.getTraining o₂ s i = some (true, r₂) →
    (AgreeT s o₁.data o₂.data → AgreeT (s + 1) r₁.data r₂.data) ∧
    (AgreeT s o₁.label o₂.label → AgreeT (s + 1) r₁.label r₂.label) ∧
    (AgreeT s o₁.helper o₂.helper → AgreeT (s + 1) r₁.helper r₂.helper) ∧
    ∀ x y m, r₁.error.InRange x y m s → r₁.error.get x y m s = r₂.error.get x y m s

theorem Overwrites.training {ds : Data R} {batch : Nat} {Fit : Outputs R → Prop} (ho : Overwrites ds batch Fit)
    (o₁ o₂ : Outputs R) (s i : Nat) (r₁ r₂ : Outputs R) (h1 : Fit o₁) (h2 : Fit o₂) (hs : s < batch)
    (hi : i < ds.training) (e1 : ds.getTraining o₁ s i = some (true, r₁)) (e2 : ds.getTraining o₂ s i = some (true, r₂))
    (ha : Agree s o₁ o₂) : Agree (s + 1) r₁ r₂ := by
  obtain ⟨f1, f2, f3, f4⟩ := ho.fills o₁ o₂ s i r₁ r₂ h1 h2 hs hi e1 e2
  refine ⟨f1 ha.data, f2 ha.label, f3 ha.helper, ?_⟩
  obtain ⟨a, a1, a2, a3, a4⟩ := ho.good.training o₁ s i h1 hs hi
  obtain ⟨b, b1, b2, b3, b4⟩ := ho.good.training o₂ s i h2 hs hi
  rw [e1] at a1
  rw [e2] at b1
  cases a1
  cases b1
  intro x y m s' hin hs'
  by_cases e : s' = s
  · subst e
    exact f4 x y m hin
  · have k := a3.inRange.1 hin
    rw [a4 x y m s' k e, b4 x y m s' ((ho.shape _ _ h1 h2).2.2.2.inRange.2 k) e]
    exact ha.error x y m s' k (by omega)

theorem agreeT_eq {k : Nat} {t u : Tensor R} (h1 : t.WF ∧ t.samples = k) (h2 : u.WF ∧ u.samples = k) (hs : Sh t u)
    (h : AgreeT k t u) : t = u :=
  ext_get h1.1 h2.1 hs fun x y m s hin => h x y m s hin (by have := hin.2.2.2; omega)

theorem agree_eq {ds : Data R} {batch : Nat} {Fit : Outputs R → Prop} (ho : Overwrites ds batch Fit) {o₁ o₂ : Outputs R}
    (h1 : Fit o₁) (h2 : Fit o₂) (h : Agree batch o₁ o₂) : o₁ = o₂ := by
  obtain ⟨s1, s2, s3, s4⟩ := ho.shape o₁ o₂ h1 h2
  obtain ⟨a1, a2, _⟩ := ho.good.error o₁ h1
  obtain ⟨b1, b2, _⟩ := ho.good.error o₂ h2
  have e1 := agreeT_eq (ho.data o₁ h1) (ho.data o₂ h2) s1 h.data
  have e2 := agreeT_eq (ho.label o₁ h1) (ho.label o₂ h2) s2 h.label
  have e3 := agreeT_eq (ho.helper o₁ h1) (ho.helper o₂ h2) s3 h.helper
  have e4 := agreeT_eq ⟨a1, a2⟩ ⟨b1, b2⟩ s4 h.error
  cases o₁; cases o₂
  simp only at e1 e2 e3 e4
  rw [e1, e2, e3, e4]

/-- What matters of the layer for training. -/
structure Same (ds : Data R) (Fit : Outputs R → Prop) (t u : Sampling.State R G) : Prop where
  perm : t.perm = u.perm
  current : t.current = u.current
  gen : t.gen = u.gen
  fitL : Fit t.outs
  fitR : Fit u.outs
  range : ∀ e ∈ t.perm, e < ds.training
  next : t.current < t.perm.length

section
variable [Zero R] [LT R] [DecidableLT R]

/-- The layer as a source; the batch is what is in its output tensors. -/
def layerSource (rnd : Random R G) (p : R) (ds : Data R) (batch : Nat) : Source (Sampling.State R G) (Outputs R) where
  setTesting := setTestingMode
  forward := fun t => (feedForward rnd p ds batch t).bind fun t => .done (t.outs, t)

variable {rnd : Random R G} {p : R} {ds : Data R} {batch : Nat} {Fit : Outputs R → Prop}

theorem select_training (hrnd : ∀ g l, (rnd.shuffle g l).1.Perm l) {t u : Sampling.State R G} (h : Same ds Fit t u)
    (ht : t.testing = false) (hu : u.testing = false) :
    ∃ e t1 u1, select rnd ds t = some (e, false, t1) ∧ select rnd ds u = some (e, false, u1) ∧ e < ds.training ∧
      Same ds Fit t1 u1 ∧ t1.testing = false ∧ u1.testing = false ∧ t1.outs = t.outs ∧ u1.outs = u.outs := by
  unfold select rd
  rw [if_neg (by rw [ht]; simp), if_neg (by rw [hu]; simp), ← h.perm, ← h.current, ← h.gen, List.getElem?_eq_getElem h.next]
  simp only [Option.map_some]
  by_cases hc : t.perm.length ≤ t.current + 1
  · rw [if_pos hc, if_pos hc]
    refine ⟨_, _, _, rfl, rfl, h.range _ (List.getElem_mem h.next), ?_, ht, hu, rfl, rfl⟩
    refine ⟨rfl, rfl, rfl, h.fitL, h.fitR, ?_, ?_⟩
    · intro e he
      exact h.range e ((hrnd t.gen t.perm).mem_iff.1 he)
    · show 0 < (rnd.shuffle t.gen t.perm).1.length
      rw [(hrnd t.gen t.perm).length_eq]
      exact Nat.lt_of_le_of_lt (Nat.zero_le _) h.next
  · rw [if_neg hc, if_neg hc]
    exact ⟨_, _, _, rfl, rfl, h.range _ (List.getElem_mem h.next),
      ⟨rfl, rfl, rfl, h.fitL, h.fitR, h.range, by dsimp only; omega⟩, ht, hu, rfl, rfl⟩

theorem fillPosition_pair (hrnd : ∀ g l, (rnd.shuffle g l).1.Perm l) (ho : Overwrites ds batch Fit) {s : Nat}
    (hs : s < batch) {t u : Sampling.State R G} (h : Same ds Fit t u) (ht : t.testing = false) (hu : u.testing = false)
    (hag : Agree s t.outs u.outs) :
    ∃ t' u', fillPosition rnd p ds s t = .done t' ∧ fillPosition rnd p ds s u = .done u' ∧ Same ds Fit t' u' ∧
      t'.testing = false ∧ u'.testing = false ∧ Agree (s + 1) t'.outs u'.outs := by
  obtain ⟨e, t1, u1, h1, h2, h3, h4, h5, h6, h7, h8⟩ := select_training hrnd h ht hu
  obtain ⟨o₁, g1, g2, g3, _⟩ := ho.good.training t.outs s e h.fitL hs h3
  obtain ⟨o₂, k1, k2, k3, _⟩ := ho.good.training u.outs s e h.fitR hs h3
  have ag := ho.training _ _ s e o₁ o₂ h.fitL h.fitR hs h3 g1 k1 hag
  obtain ⟨w1, w2, w3⟩ := ho.good.error o₁ g2
  obtain ⟨v1, v2, v3⟩ := ho.good.error o₂ k2
  have hsh := (ho.shape o₁ o₂ g2 k2).2.2.2
  unfold fillPosition
  rw [h1, h2]
  by_cases hfcn : ds.fcn = true
  · obtain ⟨x, l1, l2⟩ := lossSampling_spec rnd p (sample := s) t1.gen w1 (by omega) w3
    obtain ⟨y, m1, m2⟩ := lossSampling_spec rnd p (sample := s) t1.gen v1 (by omega) v3
    refine ⟨{ t1 with requests := t1.requests ++ [⟨t1.testing, s, e⟩],
                      gen := after rnd t1.gen ((o₁.error.height + 11) / 12 * ((o₁.error.width + 11) / 12)),
                      outs := { o₁ with error := x } },
      { u1 with requests := u1.requests ++ [⟨u1.testing, s, e⟩],
                gen := after rnd t1.gen ((o₂.error.height + 11) / 12 * ((o₂.error.width + 11) / 12)),
                outs := { o₂ with error := y } }, ?_, ?_, ?_, h5, h6, ag.data, ag.label, ag.helper, ?_⟩
    · simp [h5, h7, g1, hfcn, l1]
    · simp [h6, h8, k1, hfcn, ← h4.gen, m1]
    · refine ⟨h4.perm, h4.current, ?_, ho.good.setError o₁ x g2 l2.wf l2.sh, ho.good.setError o₂ y k2 m2.wf m2.sh,
        h4.range, h4.next⟩
      dsimp only
      rw [hsh.2.1, hsh.2.2.1]
    · intro a b c d hin hd
      have hin1 := l2.sh.inRange.1 hin
      have hin2 := hsh.inRange.2 hin1
      dsimp only
      rw [l2.get a b c d hin1, m2.get a b c d hin2, hsh.2.1, ag.error a b c d hin1 hd]
  · refine ⟨{ t1 with requests := t1.requests ++ [⟨t1.testing, s, e⟩], outs := o₁ },
      { u1 with requests := u1.requests ++ [⟨u1.testing, s, e⟩], outs := o₂ }, ?_, ?_, ?_, h5, h6, ag⟩
    · simp [h5, h7, g1, hfcn]
    · simp [h6, h8, k1, hfcn]
    · exact ⟨h4.perm, h4.current, h4.gen, g2, k2, h4.range, h4.next⟩

theorem feedForward_pair (hrnd : ∀ g l, (rnd.shuffle g l).1.Perm l) (ho : Overwrites ds batch Fit)
    {t u : Sampling.State R G} (h : Same ds Fit t u) (ht : t.testing = false) (hu : u.testing = false) :
    ∃ t' u', feedForward rnd p ds batch t = .done t' ∧ feedForward rnd p ds batch u = .done u' ∧ Same ds Fit t' u' ∧
      t'.testing = false ∧ u'.testing = false ∧ t'.outs = u'.outs := by
  have key : ∀ n, n ≤ batch → ∃ t' u', forO n (fillPosition rnd p ds) t = .done t' ∧
      forO n (fillPosition rnd p ds) u = .done u' ∧ Same ds Fit t' u' ∧
      t'.testing = false ∧ u'.testing = false ∧ Agree n t'.outs u'.outs := by
    intro n
    induction n with
    | zero =>
      intro _
      exact ⟨t, u, rfl, rfl, h, ht, hu, fun _ _ _ _ _ hh => absurd hh (by omega),
        fun _ _ _ _ _ hh => absurd hh (by omega), fun _ _ _ _ _ hh => absurd hh (by omega),
        fun _ _ _ _ _ hh => absurd hh (by omega)⟩
    | succ n ih =>
      intro hn
      obtain ⟨t1, u1, a1, a2, a3, a4, a5, a6⟩ := ih (by omega)
      obtain ⟨t2, u2, b1, b2, b3⟩ := fillPosition_pair (p := p) hrnd ho (by omega) a3 a4 a5 a6
      exact ⟨t2, u2, by rw [forO, a1]; exact b1, by rw [forO, a2]; exact b2, b3⟩
  obtain ⟨t', u', a1, a2, a3, a4, a5, a6⟩ := key batch (Nat.le_refl _)
  exact ⟨t', u', a1, a2, a3, a4, a5, agree_eq ho a3.fitL a3.fitR a6⟩

theorem alike_layer (hrnd : ∀ g l, (rnd.shuffle g l).1.Perm l) (p : R) (ho : Overwrites ds batch Fit) :
    Alike (layerSource rnd p ds batch) Sampling.State.testing (Same ds Fit) where
  setMode := fun _ _ => rfl
  set := fun t u h => ⟨h.perm, h.current, h.gen, h.fitL, h.fitR, h.range, h.next⟩
  step := by
    intro t u b t' h1 h2 h3 h4
    obtain ⟨t1, u1, a1, a2, a3, a4, a5, a6⟩ := feedForward_pair (p := p) hrnd ho h3 h1 h2
    unfold layerSource at h4 ⊢
    dsimp only at h4 ⊢
    rw [a1, Outcome.bind_done] at h4
    cases h4
    rw [a2, Outcome.bind_done]
    exact ⟨u1, by rw [a6], a3, a4, a5⟩

theorem fillPosition_test_gen {s : Nat} {t t' : Sampling.State R G} (ht : t.testing = true)
    (h : fillPosition rnd p ds s t = .done t') :
    t'.perm = t.perm ∧ t'.current = t.current ∧ t'.gen = t.gen := by
  unfold fillPosition select at h
  rw [if_pos ht] at h
  by_cases hc : ds.testing ≤ t.currentTesting
  · rw [if_pos hc, Outcome.ofOption_some, Outcome.bind_done] at h
    simp only [ht, if_true] at h
    obtain ⟨r, _, h⟩ := bind_eq_done h
    cases hr : r.1 with
    | false => rw [hr] at h; cases h
    | true =>
      rw [hr] at h
      simp only [Bool.not_true, Bool.false_eq_true, if_false, Bool.false_and, Outcome.bind_done] at h
      cases hcl : r.2.error.clear 0 (some s) with
      | none => rw [hcl] at h; cases h
      | some e => rw [hcl] at h; cases h; exact ⟨rfl, rfl, rfl⟩
  · rw [if_neg hc, Outcome.ofOption_some, Outcome.bind_done] at h
    simp only [ht, if_true] at h
    obtain ⟨r, _, h⟩ := bind_eq_done h
    cases hr : r.1 with
    | false => rw [hr] at h; cases h
    | true =>
      rw [hr] at h
      simp only [Bool.not_true, Bool.false_eq_true, if_false, Bool.false_and, Outcome.bind_done] at h
      cases h
      exact ⟨rfl, rfl, rfl⟩

theorem untouched_layer (p : R) (hg : Good ds batch Fit) (hn : 0 < ds.testing) :
    Untouched (layerSource rnd p ds batch) Sampling.State.testing (Same (G := G) ds Fit) where
  set := fun c t u h => ⟨h.perm, h.current, h.gen, h.fitL, h.fitR, h.range, h.next⟩
  step := by
    intro t u b t' h1 h2 h3
    obtain ⟨t1, a1, a2⟩ := bind_eq_done h3
    cases a2
    have key := fun hp h0 => forO_keep (P := fun _ (s : Sampling.State R G) => Same ds Fit s u ∧ s.testing = true)
      (f := fillPosition rnd p ds) (n := batch) hp h0 a1
    refine key ?_ ⟨h2, h1⟩
    rintro i hi s s' ⟨k1, k2⟩ hd
    obtain ⟨s1, e1, e2, e3, _⟩ := fillPosition_testing (rnd := rnd) (p := p) hg hi k2 k1.fitL hn
    obtain ⟨f1, f2, f3⟩ := fillPosition_test_gen k2 hd
    rw [e1] at hd
    cases hd
    exact ⟨⟨f1.trans k1.perm, f2.trans k1.current, f3.trans k1.gen, e2, k1.fitR, by rw [f1]; exact k1.range,
      by rw [f1, f2]; exact k1.next⟩, e3⟩

end
end CN24.Session
