import Verif.Proof.SessionSource

/-
Two input layers with the same dataset and the same random numbers, but different sizes of batches.  Helper for C92.
-/

namespace CN24.SplitData
open CN24 CN24.Tensor CN24.Sampling

variable {R G : Type _}

/-- Position `s` of a tensor holds what position `s'` of another holds. -/
def AtT (s s' : Nat) (t u : Tensor R) : Prop := ∀ x y m, t.InRange x y m s → t.get x y m s = u.get x y m s'

structure AtO (s s' : Nat) (o₁ o₂ : Outputs R) : Prop where
  data : AtT s s' o₁.data o₂.data
  label : AtT s s' o₁.label o₂.label
  helper : AtT s s' o₁.helper o₂.helper
  error : AtT s s' o₁.error o₂.error

theorem atT_trans {a b c : Nat} {t u v : Tensor R} (h1 : AtT a b t u) (h2 : AtT b c u v)
    (hr : ∀ x y m, t.InRange x y m a → u.InRange x y m b) : AtT a c t v :=
  fun x y m hin => (h1 x y m hin).trans (h2 x y m (hr x y m hin))

/-- All tensors of one size. -/
structure ShO (o₁ o₂ : Outputs R) : Prop where
  data : Sh o₁.data o₂.data
  label : Sh o₁.label o₂.label
  helper : Sh o₁.helper o₂.helper
  error : Sh o₁.error o₂.error

theorem ShO.trans {o₁ o₂ o₃ : Outputs R} (h1 : ShO o₁ o₂) (h2 : ShO o₂ o₃) : ShO o₁ o₃ :=
  ⟨h1.data.trans h2.data, h1.label.trans h2.label, h1.helper.trans h2.helper, h1.error.trans h2.error⟩

/-- A position that was kept. -/
theorem AtO.before {s s' : Nat} {o₁ o₂ o : Outputs R} (h1 : AtO s s o₁ o₂) (h2 : AtO s s' o₂ o) (hs : ShO o₂ o₁) :
    AtO s s' o₁ o :=
  ⟨atT_trans h1.data h2.data fun _ _ _ h => hs.data.inRange.1 h,
    atT_trans h1.label h2.label fun _ _ _ h => hs.label.inRange.1 h,
    atT_trans h1.helper h2.helper fun _ _ _ h => hs.helper.inRange.1 h,
    atT_trans h1.error h2.error fun _ _ _ h => hs.error.inRange.1 h⟩

/-- Two tensors for images of the same size, the second one for `n` of them. -/
def LikeT (n : Nat) (t u : Tensor R) : Prop := t.width = u.width ∧ t.height = u.height ∧ t.maps = u.maps ∧ u.samples = n

structure LikeO (n : Nat) (o₁ o₂ : Outputs R) : Prop where
  data : LikeT n o₁.data o₂.data
  label : LikeT n o₁.label o₂.label
  helper : LikeT n o₁.helper o₂.helper
  error : LikeT n o₁.error o₂.error

theorem atT_after {n s s' : Nat} {t u v : Tensor R} (h1 : AtT s s' t u) (h2 : AtT s' s' v u) (hv : LikeT n t v)
    (hs : s' < n) : AtT s s' t v := by
  intro x y m hin
  rw [h1 x y m hin, h2 x y m]
  obtain ⟨i1, i2, i3, -⟩ := hin
  obtain ⟨e1, e2, e3, e4⟩ := hv
  exact ⟨by omega, by omega, by omega, by omega⟩

theorem AtO.after {n s s' : Nat} {t u v : Outputs R} (h1 : AtO s s' t u) (h2 : AtO s' s' v u) (hv : LikeO n t v)
    (hs : s' < n) : AtO s s' t v :=
  ⟨atT_after h1.data h2.data hv.data hs, atT_after h1.label h2.label hv.label hs,
    atT_after h1.helper h2.helper hv.helper hs, atT_after h1.error h2.error hv.error hs⟩

/-- What a position holds after a call depends on the sample only, not on the position or the size of the batch. -/
structure Splits (ds : Data R) (big small : Nat) (FitL FitR : Outputs R → Prop) : Prop where
  goodL : Good ds big FitL
  goodR : Good ds small FitR
  shapeL : ∀ o₁ o₂, FitL o₁ → FitL o₂ → ShO o₁ o₂
  size : ∀ o₁ o₂, FitL o₁ → FitR o₂ → LikeO small o₁ o₂
  keepL : ∀ o s i r, FitL o → s < big → i < ds.training → ds.getTraining o s i = some (true, r) →
    ∀ k, k ≠ s → AtO k k r o
  keepR : ∀ o s i r, FitR o → s < small → i < ds.training → ds.getTraining o s i = some (true, r) →
    ∀ k, k ≠ s → AtO k k r o
  same : ∀ o₁ o₂ s s' i r₁ r₂, FitL o₁ → FitR o₂ → s < big → s' < small → i < ds.training →
    ds.getTraining o₁ s i = some (true, r₁) → ds.getTraining o₂ s' i = some (true, r₂) → AtO s s' r₁ r₂

/-- What matters of the two layers. -/
structure Pair (ds : Data R) (FitL FitR : Outputs R → Prop) (t u : Sampling.State R G) : Prop where
  perm : t.perm = u.perm
  current : t.current = u.current
  gen : t.gen = u.gen
  fitL : FitL t.outs
  fitR : FitR u.outs
  range : ∀ e ∈ t.perm, e < ds.training
  next : t.current < t.perm.length
  trainL : t.testing = false
  trainR : u.testing = false

section
variable [Zero R] [LT R] [DecidableLT R]
variable {rnd : Random R G} {p : R} {ds : Data R} {big small : Nat} {FitL FitR : Outputs R → Prop}

theorem select_pair (hrnd : ∀ g l, (rnd.shuffle g l).1.Perm l) {t u : Sampling.State R G} (h : Pair ds FitL FitR t u) :
    ∃ e t1 u1, select rnd ds t = some (e, false, t1) ∧ select rnd ds u = some (e, false, u1) ∧ e < ds.training ∧
      Pair ds FitL FitR t1 u1 ∧ t1.outs = t.outs ∧ u1.outs = u.outs := by
  unfold select rd
  rw [if_neg (by rw [h.trainL]; simp), if_neg (by rw [h.trainR]; simp), ← h.perm, ← h.current, ← h.gen,
    List.getElem?_eq_getElem h.next]
  simp only [Option.map_some]
  by_cases hc : t.perm.length ≤ t.current + 1
  · rw [if_pos hc, if_pos hc]
    refine ⟨_, _, _, rfl, rfl, h.range _ (List.getElem_mem h.next), ?_, rfl, rfl⟩
    refine ⟨rfl, rfl, rfl, h.fitL, h.fitR, ?_, ?_, h.trainL, h.trainR⟩
    · intro e he
      exact h.range e ((hrnd t.gen t.perm).mem_iff.1 he)
    · show 0 < (rnd.shuffle t.gen t.perm).1.length
      rw [(hrnd t.gen t.perm).length_eq]
      exact Nat.lt_of_le_of_lt (Nat.zero_le _) h.next
  · rw [if_neg hc, if_neg hc]
    exact ⟨_, _, _, rfl, rfl, h.range _ (List.getElem_mem h.next),
      ⟨rfl, rfl, rfl, h.fitL, h.fitR, h.range, by dsimp only; omega, h.trainL, h.trainR⟩, rfl, rfl⟩

theorem fillPosition_split (hrnd : ∀ g l, (rnd.shuffle g l).1.Perm l) (ho : Splits ds big small FitL FitR) {s s' : Nat}
    (hs : s < big) (hs' : s' < small) {t u : Sampling.State R G} (h : Pair ds FitL FitR t u) :
    ∃ t' u', fillPosition rnd p ds s t = .done t' ∧ fillPosition rnd p ds s' u = .done u' ∧ Pair ds FitL FitR t' u' ∧
      AtO s s' t'.outs u'.outs ∧ (∀ k, k ≠ s → AtO k k t'.outs t.outs) ∧ ∀ k, k ≠ s' → AtO k k u'.outs u.outs := by
  obtain ⟨e, t1, u1, h1, h2, h3, h4, h7, h8⟩ := select_pair hrnd h
  obtain ⟨o₁, g1, g2, g3, _⟩ := ho.goodL.training t.outs s e h.fitL hs h3
  obtain ⟨o₂, k1, k2, k3, _⟩ := ho.goodR.training u.outs s' e h.fitR hs' h3
  have ag := ho.same _ _ s s' e o₁ o₂ h.fitL h.fitR hs hs' h3 g1 k1
  have keep1 := ho.keepL _ s e o₁ h.fitL hs h3 g1
  have keep2 := ho.keepR _ s' e o₂ h.fitR hs' h3 k1
  obtain ⟨w1, w2, w3⟩ := ho.goodL.error o₁ g2
  obtain ⟨v1, v2, v3⟩ := ho.goodR.error o₂ k2
  obtain ⟨z1, z2, z3, -⟩ := (ho.size o₁ o₂ g2 k2).error
  unfold fillPosition
  rw [h1, h2]
  by_cases hfcn : ds.fcn = true
  · obtain ⟨x, l1, l2⟩ := lossSampling_spec rnd p (sample := s) t1.gen w1 (by omega) w3
    obtain ⟨y, m1, m2⟩ := lossSampling_spec rnd p (sample := s') t1.gen v1 (by omega) v3
    refine ⟨{ t1 with requests := t1.requests ++ [⟨t1.testing, s, e⟩],
                      gen := after rnd t1.gen ((o₁.error.height + 11) / 12 * ((o₁.error.width + 11) / 12)),
                      outs := { o₁ with error := x } },
      { u1 with requests := u1.requests ++ [⟨u1.testing, s', e⟩],
                gen := after rnd t1.gen ((o₂.error.height + 11) / 12 * ((o₂.error.width + 11) / 12)),
                outs := { o₂ with error := y } }, ?_, ?_, ?_, ⟨ag.data, ag.label, ag.helper, ?_⟩, ?_, ?_⟩
    · simp [h4.trainL, h7, g1, hfcn, l1]
    · simp [h4.trainR, h8, k1, hfcn, ← h4.gen, m1]
    · refine ⟨h4.perm, h4.current, ?_, ho.goodL.setError o₁ x g2 l2.wf l2.sh, ho.goodR.setError o₂ y k2 m2.wf m2.sh,
        h4.range, h4.next, h4.trainL, h4.trainR⟩
      dsimp only
      rw [z1, z2]
    · intro a b c hin
      have hin1 := l2.sh.inRange.1 hin
      have hin2 : o₂.error.InRange a b c s' := by
        obtain ⟨i1, i2, i3, i4⟩ := hin1
        exact ⟨by omega, by omega, by omega, by omega⟩
      dsimp only
      rw [l2.get a b c s hin1, m2.get a b c s' hin2, z1, ag.error a b c hin1]
      simp
    · intro k hk
      refine ⟨(keep1 k hk).data, (keep1 k hk).label, (keep1 k hk).helper, ?_⟩
      intro a b c hin
      have hin1 := l2.sh.inRange.1 hin
      dsimp only
      rw [l2.get a b c k hin1, if_neg fun q => hk q.2.1, Option.none_or]
      exact (keep1 k hk).error a b c hin1
    · intro k hk
      refine ⟨(keep2 k hk).data, (keep2 k hk).label, (keep2 k hk).helper, ?_⟩
      intro a b c hin
      have hin1 := m2.sh.inRange.1 hin
      dsimp only
      rw [m2.get a b c k hin1, if_neg fun q => hk q.2.1, Option.none_or]
      exact (keep2 k hk).error a b c hin1
  · refine ⟨{ t1 with requests := t1.requests ++ [⟨t1.testing, s, e⟩], outs := o₁ },
      { u1 with requests := u1.requests ++ [⟨u1.testing, s', e⟩], outs := o₂ }, ?_, ?_, ?_, ag, keep1, keep2⟩
    · simp [h4.trainL, h7, g1, hfcn]
    · simp [h4.trainR, h8, k1, hfcn]
    · exact ⟨h4.perm, h4.current, h4.gen, g2, k2, h4.range, h4.next, h4.trainL, h4.trainR⟩

/-- `n` positions from position `start` of the larger batch, and the first `n` of the smaller one. -/
theorem positions_split (hrnd : ∀ g l, (rnd.shuffle g l).1.Perm l) (ho : Splits ds big small FitL FitR) {start : Nat}
    (hb : start + small ≤ big) {t u : Sampling.State R G} (h : Pair ds FitL FitR t u) : ∀ n, n ≤ small →
    ∃ t' u', forO n (fun i => fillPosition rnd p ds (start + i)) t = .done t' ∧
      forO n (fillPosition rnd p ds) u = .done u' ∧ Pair ds FitL FitR t' u' ∧
      (∀ i, i < n → AtO (start + i) i t'.outs u'.outs) ∧ ∀ k, k < start → AtO k k t'.outs t.outs
  | 0, _ => ⟨t, u, rfl, rfl, h, fun i hi => absurd hi (by omega), fun k _ =>
      ⟨fun _ _ _ _ => rfl, fun _ _ _ _ => rfl, fun _ _ _ _ => rfl, fun _ _ _ _ => rfl⟩⟩
  | n + 1, hn => by
    obtain ⟨t1, u1, a1, a2, a3, a4, a5⟩ := positions_split hrnd ho hb h n (by omega)
    obtain ⟨t2, u2, b1, b2, b3, b4, b5, b6⟩ := fillPosition_split (p := p) hrnd ho (s := start + n) (s' := n) (by omega)
      (by omega) a3
    refine ⟨t2, u2, by rw [forO, a1]; exact b1, by rw [forO, a2]; exact b2, b3, ?_, ?_⟩
    · intro i hi
      by_cases e : i = n
      · rw [e]; exact b4
      · exact ((b5 (start + i) (by omega)).before (a4 i (by omega)) (ho.shapeL _ _ a3.fitL b3.fitL)).after (b6 i e)
          (ho.size _ _ b3.fitL b3.fitR) (by omega)
    · intro k hk
      exact (b5 k (by omega)).before (a5 k hk) (ho.shapeL _ _ a3.fitL b3.fitL)

theorem forO_split {α : Type _} (f : Nat → α → Outcome α) (a : Nat) (s : α) :
    ∀ b, forO (a + b) f s = (forO a f s).bind (forO b fun i => f (a + i))
  | 0 => by cases h : forO a f s <;> simp [forO, h]
  | b + 1 => by
    rw [← Nat.add_assoc, forO, forO_split f a s b]
    cases h : forO a f s <;> simp [forO]

/-- The state after a batch. -/
def next (rnd : Random R G) (p : R) (ds : Data R) (batch : Nat) (st : Sampling.State R G) : Sampling.State R G :=
  match feedForward rnd p ds batch st with
  | .done st' => st'
  | _ => st

/-- The state after `k` batches. -/
def nexts (rnd : Random R G) (p : R) (ds : Data R) (batch : Nat) (st : Sampling.State R G) : Nat → Sampling.State R G
  | 0 => st
  | k + 1 => next rnd p ds batch (nexts rnd p ds batch st k)

theorem next_eq {batch : Nat} {st st' : Sampling.State R G} (h : feedForward rnd p ds batch st = .done st') :
    next rnd p ds batch st = st' := by
  unfold next
  rw [h]

/-- The first `j` parts of a batch. -/
theorem parts_split {q r : Nat} (hrnd : ∀ g l, (rnd.shuffle g l).1.Perm l) (ho : Splits ds (q * r) r FitL FitR)
    {t u : Sampling.State R G} (h : Pair ds FitL FitR t u) : ∀ j, j ≤ q →
    ∃ t', forO (j * r) (fillPosition rnd p ds) t = .done t' ∧ Pair ds FitL FitR t' (nexts rnd p ds r u j) ∧
      ∀ j', j' < j → feedForward rnd p ds r (nexts rnd p ds r u j') = .done (nexts rnd p ds r u (j' + 1)) ∧
        ∀ i, i < r → AtO (j' * r + i) i t'.outs (nexts rnd p ds r u (j' + 1)).outs
  | 0, _ => ⟨t, by rw [Nat.zero_mul]; rfl, h, fun j' hj => absurd hj (by omega)⟩
  | j + 1, hj => by
    obtain ⟨t1, a1, a2, a3⟩ := parts_split hrnd ho h j (by omega)
    have hb : j * r + r ≤ q * r := by
      rw [← Nat.succ_mul]
      exact Nat.mul_le_mul_right _ hj
    obtain ⟨t2, u2, b1, b2, b3, b4, b5⟩ := positions_split (p := p) hrnd ho hb a2 r (Nat.le_refl _)
    have hu : nexts rnd p ds r u (j + 1) = u2 := next_eq b2
    refine ⟨t2, ?_, by rw [hu]; exact b3, ?_⟩
    · rw [Nat.succ_mul, forO_split, a1]
      exact b1
    · intro j' hj'
      by_cases e : j' = j
      · subst e
        rw [hu]
        exact ⟨b2, b4⟩
      · obtain ⟨c1, c2⟩ := a3 j' (by omega)
        refine ⟨c1, fun i hi => ?_⟩
        have hlt : j' * r + i < j * r := by
          calc j' * r + i < (j' + 1) * r := by rw [Nat.succ_mul]; omega
            _ ≤ j * r := Nat.mul_le_mul_right _ (by omega)
        exact (b5 _ hlt).before (c2 i hi) (ho.shapeL _ _ a2.fitL b3.fitL)

theorem nexts_add (batch : Nat) (st : Sampling.State R G) (a : Nat) : ∀ b,
    nexts rnd p ds batch st (a + b) = nexts rnd p ds batch (nexts rnd p ds batch st a) b
  | 0 => rfl
  | b + 1 => by
    show next rnd p ds batch (nexts rnd p ds batch st (a + b)) = next rnd p ds batch _
    rw [nexts_add batch st a b]

/-- All batches. -/
theorem batches_split {q r : Nat} (hrnd : ∀ g l, (rnd.shuffle g l).1.Perm l) (ho : Splits ds (q * r) r FitL FitR)
    {t u : Sampling.State R G} (h : Pair ds FitL FitR t u) : ∀ n,
    Pair ds FitL FitR (nexts rnd p ds (q * r) t n) (nexts rnd p ds r u (n * q)) ∧
    feedForward rnd p ds (q * r) (nexts rnd p ds (q * r) t n) = .done (nexts rnd p ds (q * r) t (n + 1)) ∧
    ∀ j, j < q → feedForward rnd p ds r (nexts rnd p ds r u (n * q + j)) = .done (nexts rnd p ds r u (n * q + j + 1)) ∧
      ∀ i, i < r → AtO (j * r + i) i (nexts rnd p ds (q * r) t (n + 1)).outs (nexts rnd p ds r u (n * q + j + 1)).outs := by
  have step : ∀ n, Pair ds FitL FitR (nexts rnd p ds (q * r) t n) (nexts rnd p ds r u (n * q)) →
      Pair ds FitL FitR (nexts rnd p ds (q * r) t (n + 1)) (nexts rnd p ds r u ((n + 1) * q)) ∧
      feedForward rnd p ds (q * r) (nexts rnd p ds (q * r) t n) = .done (nexts rnd p ds (q * r) t (n + 1)) ∧
      ∀ j, j < q → feedForward rnd p ds r (nexts rnd p ds r u (n * q + j)) = .done (nexts rnd p ds r u (n * q + j + 1)) ∧
        ∀ i, i < r → AtO (j * r + i) i (nexts rnd p ds (q * r) t (n + 1)).outs
          (nexts rnd p ds r u (n * q + j + 1)).outs := by
    intro n hp
    obtain ⟨t', a1, a2, a3⟩ := parts_split (p := p) hrnd ho hp q (Nat.le_refl _)
    have e : nexts rnd p ds (q * r) t (n + 1) = t' := next_eq a1
    rw [e]
    refine ⟨by rw [Nat.succ_mul, nexts_add]; exact a2, a1, fun j hj => ?_⟩
    rw [nexts_add, Nat.add_assoc, nexts_add]
    exact a3 j hj
  have all : ∀ n, Pair ds FitL FitR (nexts rnd p ds (q * r) t n) (nexts rnd p ds r u (n * q)) := by
    intro n
    induction n with
    | zero => rw [Nat.zero_mul]; exact h
    | succ n ih => exact (step n ih).1
  exact fun n => ⟨all n, (step n (all n)).2⟩

end
end CN24.SplitData
