import Verif.Spec.Rates

/-! Layers that count errors in a session. -/

namespace CN24.Rates
open CN24 CN24.Session

section statistics
variable {S V : Type _}

theorem update_frame {a : Stats.Agg S V} (h : AggOk a) (hp : a.phase = .recording) (id : Nat) (v : V) :
    ∃ stats, a.update id v = some { a with stats := stats } ∧ stats.length = a.descs.length ∧
      (∀ k, k ≠ id → stats[k]? = a.stats[k]?) ∧
      ∀ d x, a.descs[id]? = some d → a.stats[id]? = some x → stats[id]? = some (d.updateF x v) := by
  unfold Stats.Agg.update
  rw [if_neg (by simp [hp])]
  by_cases hid : id < a.descs.length
  · rw [if_pos hid]
    have hid' : id < a.stats.length := by rw [h]; exact hid
    refine ⟨a.stats.set id ((a.descs[id]).updateF (a.stats[id]) v), ?_, by rw [List.length_set, h], ?_, ?_⟩
    · rw [rd, List.getElem?_eq_getElem hid, Option.bind_some, rd, List.getElem?_eq_getElem hid', Option.bind_some,
        wr, if_pos hid', Option.map_some]
    · intro k hk
      rw [List.getElem?_set_ne (Ne.symm hk)]
    · intro d x hd hx
      rw [List.getElem?_eq_getElem hid] at hd
      rw [List.getElem?_eq_getElem hid'] at hx
      cases hd
      cases hx
      rw [List.getElem?_set_self hid']
  · rw [if_neg hid]
    refine ⟨a.stats, rfl, h, fun _ _ => rfl, ?_⟩
    intro d x hd
    rw [List.getElem?_eq_none (by omega)] at hd
    cases hd

end statistics

variable {R τ B σ : Type _}

theorem valueOf_cons (u : Nat × R) (l : List (Nat × R)) (k : Nat) :
    valueOf (u :: l) k = if u.1 = k then some u.2 else valueOf l k := by
  unfold valueOf
  rw [List.find?_cons]
  by_cases h : u.1 = k
  · simp [h]
  · simp [h]

theorem valueOf_none {l : List (Nat × R)} {k : Nat} (h : k ∉ l.map (·.1)) : valueOf l k = none := by
  induction l with
  | nil => rfl
  | cons u l ih =>
    rw [List.map_cons, List.mem_cons, not_or] at h
    rw [valueOf_cons, if_neg (fun e => h.1 e.symm), ih h.2]

theorem updates_ok {l : List (Nat × R)} : ∀ {a : Stats.Agg (Stat R) R}, AggOk a → a.phase = .recording →
    (l.map (·.1)).Nodup → (∀ u ∈ l, a.descs[u.1]? = some rateDesc) →
    ∃ stats, updates l a = some { a with stats := stats } ∧ stats.length = a.descs.length ∧
      ∀ k, stats[k]? = match valueOf l k with
        | some v => some (some v)
        | none => a.stats[k]? := by
  induction l with
  | nil => exact fun h _ _ _ => ⟨_, rfl, h, fun k => rfl⟩
  | cons u l ih =>
    intro a h hp hn hd
    rw [List.map_cons, List.nodup_cons] at hn
    obtain ⟨stats, e1, e2, e3, e4⟩ := update_frame h hp u.1 u.2
    obtain ⟨stats', f1, f2, f3⟩ := ih (a := { a with stats := stats }) e2 hp hn.2
      (fun u' hu => hd u' (List.mem_cons_of_mem _ hu))
    refine ⟨stats', ?_, f2, ?_⟩
    · unfold updates
      rw [List.foldlM_cons, e1]
      exact f1
    · intro k
      rw [f3 k, valueOf_cons]
      by_cases hk : u.1 = k
      · subst hk
        rw [if_pos rfl, valueOf_none hn.1]
        have hdu := hd u (List.mem_cons_self ..)
        have hlt : u.1 < a.stats.length := by
          rw [h]
          exact (List.getElem?_eq_some_iff.1 hdu).1
        exact e4 rateDesc _ hdu (List.getElem?_eq_getElem hlt)
      · rw [if_neg hk]
        dsimp only
        cases valueOf l k with
        | some v => rfl
        | none => exact e3 k (Ne.symm hk)

/-- The rates are not touched. -/
structure Quiet (id : Nat) (a a' : Stats.Agg (Stat R) R) : Prop where
  ok : AggOk a'
  phase : a'.phase = .recording
  descs : a'.descs = a.descs
  sinks : a'.sinks = a.sinks
  stats : ∀ k, k ≠ id → a'.stats[k]? = a.stats[k]?

theorem Quiet.refl {id : Nat} {a : Stats.Agg (Stat R) R} (h : AggOk a) (hp : a.phase = .recording) : Quiet id a a :=
  ⟨h, hp, rfl, rfl, fun _ _ => rfl⟩

theorem Quiet.trans {id : Nat} {a b c : Stats.Agg (Stat R) R} (h : Quiet id a b) (h' : Quiet id b c) : Quiet id a c :=
  ⟨h'.ok, h'.phase, h'.descs.trans h.descs, h'.sinks.trans h.sinks, fun k hk => (h'.stats k hk).trans (h.stats k hk)⟩

variable [Field R] [LinearOrder R]

theorem report_quiet {m : Session.Machine R τ B} {v : R} {st st' : Session.State R τ} (h : AggOk st.agg)
    (hp : st.agg.phase = .recording) (hd : report m v st = .done st') :
    Quiet m.lossId st.agg st'.agg ∧ ∃ agg, st' = { st with agg := agg } := by
  unfold report at hd
  dsimp only at hd
  rw [if_pos hp] at hd
  obtain ⟨stats, e1, e2, e3, -⟩ := update_frame
    (a := (setHard (fun h => { h with iterations := h.iterations + 1 }) st).agg) h hp m.lossId v
  rw [e1] at hd
  cases hd
  exact ⟨⟨e2, hp, rfl, rfl, e3⟩, _, rfl⟩

theorem iteration_quiet {m : Session.Machine R τ B} {i : Nat} {st st' : Session.State R τ} (h : AggOk st.agg)
    (hp : st.agg.phase = .recording) (hd : Session.iteration m i st = .done st') :
    Quiet m.lossId st.agg st'.agg ∧ st'.epoch = st.epoch ∧ st'.isTesting = st.isTesting ∧ st'.testSrc = st.testSrc := by
  obtain ⟨x, p1, p2⟩ := bind_eq_done hd
  obtain ⟨opt, p3, p4⟩ := bind_eq_done p2
  obtain ⟨g, agg, rfl⟩ := report_quiet (st := { st with src := x.1, opt := opt }) h hp p4
  exact ⟨g, rfl, rfl, rfl⟩

theorem feedAll_append (M : Meter σ R) : ∀ (a b : List (Tensor R × Tensor R × Tensor R)) (s : σ),
    feedAll M (a ++ b) s = (feedAll M a s).bind (feedAll M b)
  | [], _, _ => rfl
  | t :: a, b, s => by
    rw [List.cons_append, feedAll, feedAll]
    cases M.feed t s with
    | none => rfl
    | some s' => exact feedAll_append M a b s'

theorem feedAll_inv {M : Meter σ R} {inv : σ → Prop} {fresh : σ} (hM : Lawful M inv fresh) :
    ∀ {ts : List (Tensor R × Tensor R × Tensor R)} {s s' : σ}, inv s → feedAll M ts s = some s' → inv s'
  | [], s, s', h, e => by cases e; exact h
  | t :: ts, s, s', h, e => by
    rw [feedAll] at e
    cases e1 : M.feed t s with
    | none => rw [e1] at e; cases e
    | some s1 =>
      rw [e1] at e
      exact feedAll_inv hM (hM.feed t s s1 h e1) e

/-- The layer after some batches, if it is not disabled. -/
def Counted (M : Meter σ R) (disabled : Bool) (ts : List (Tensor R × Tensor R × Tensor R)) (s s' : σ) : Prop :=
  if disabled then s' = s else feedAll M ts s = some s'

theorem Counted.nil (M : Meter σ R) (d : Bool) (s : σ) : Counted M d [] s s := by
  unfold Counted
  split
  · rfl
  · rfl

theorem Counted.append {M : Meter σ R} {d : Bool} {a b : List (Tensor R × Tensor R × Tensor R)} {s s' s'' : σ}
    (h : Counted M d a s s') (h' : Counted M d b s' s'') : Counted M d (a ++ b) s s'' := by
  unfold Counted at *
  split
  · rename_i e
    rw [if_pos e] at h h'
    rw [h', h]
  · rename_i e
    rw [if_neg e] at h h'
    rw [feedAll_append, h]
    exact h'

theorem Counted.one {M : Meter σ R} {d : Bool} {t : Tensor R × Tensor R × Tensor R} {s s' : σ}
    (h : feedIf M d t s = some s') : Counted M d [t] s s' := by
  unfold feedIf at h
  unfold Counted
  split
  · rename_i e
    rw [if_pos e] at h
    exact (Option.some.inj h).symm
  · rename_i e
    rw [if_neg e] at h
    rw [feedAll, h]
    rfl

theorem Counted.inv {M : Meter σ R} {inv : σ → Prop} {fresh : σ} (hM : Lawful M inv fresh) {d : Bool}
    {ts : List (Tensor R × Tensor R × Tensor R)} {s s' : σ} (hs : inv s) (h : Counted M d ts s s') : inv s' := by
  unfold Counted at h
  split at h
  · rw [h]; exact hs
  · exact feedAll_inv hM hs h

theorem countPasses_spec {m : Machine R τ B σ} {st : State R τ σ} {s : σ} (h : countPasses m st = .done s) :
    ∃ bs t, batches m.source m.cfg.sbatchsize st.base.src = .done (bs, t) ∧
      Counted m.meter st.disabled (bs.map (m.predict st.base.isTesting st.base.opt.weights)) st.counts s := by
  obtain ⟨x, p1, p2⟩ := bind_eq_done h
  cases p2
  have key := forO_keep (P := fun k (x : τ × σ) => ∃ bs, batches m.source k st.base.src = .done (bs, x.1) ∧
      Counted m.meter st.disabled (bs.map (m.predict st.base.isTesting st.base.opt.weights)) st.counts x.2)
    (by
      rintro i - x x' ⟨bs, a1, a2⟩ hx
      obtain ⟨b, b1, b2⟩ := bind_eq_done hx
      obtain ⟨s', c1, c2⟩ := bind_eq_done b2
      cases c2
      refine ⟨bs ++ [b.1], ?_, ?_⟩
      · rw [batches, a1, Outcome.bind_done, b1, Outcome.bind_done]
      · rw [List.map_append]
        exact a2.append (Counted.one (Outcome.ofOption_eq_done.1 c1)))
    ⟨[], rfl, Counted.nil _ _ _⟩ p1
  obtain ⟨bs, a1, a2⟩ := key
  exact ⟨bs, _, a1, a2⟩

/-- The iterations of an epoch. -/
theorem iterations_spec {m : Machine R τ B σ} {k : Nat} {st st' : State R τ σ} (h : AggOk st.base.agg)
    (hp : st.base.agg.phase = .recording) (hd : forO k (iteration m) st = .done st') :
    ∃ ts, shown m k st.base = .done (ts, st'.base) ∧ Counted m.meter st.disabled ts st.counts st'.counts ∧
      Quiet m.lossId st.base.agg st'.base.agg ∧ st'.testCounts = st.testCounts ∧ st'.disabled = st.disabled ∧
      st'.base.epoch = st.base.epoch ∧ st'.base.isTesting = st.base.isTesting ∧ st'.base.testSrc = st.base.testSrc := by
  induction k generalizing st' with
  | zero =>
    cases hd
    exact ⟨[], rfl, Counted.nil _ _ _, Quiet.refl h hp, rfl, rfl, rfl, rfl, rfl⟩
  | succ k ih =>
    obtain ⟨s1, p1, p2⟩ := bind_eq_done hd
    obtain ⟨ts, a1, a2, a3, a4, a5, a6, a7, a8⟩ := ih p1
    obtain ⟨s, q1, q2⟩ := bind_eq_done p2
    obtain ⟨base, q3, q4⟩ := bind_eq_done q2
    cases q4
    obtain ⟨bs, t, b1, b2⟩ := countPasses_spec q1
    obtain ⟨c1, c2, c3, c4⟩ := iteration_quiet a3.ok a3.phase q3
    refine ⟨ts ++ bs.map (m.predict s1.base.isTesting s1.base.opt.weights), ?_, ?_, a3.trans c1, a4, a5,
      c2.trans a6, c3.trans a7, c4.trans a8⟩
    · rw [shown, a1, Outcome.bind_done]
      dsimp only
      rw [b1, Outcome.bind_done, q3, Outcome.bind_done]
    · rw [a5] at b2
      exact a2.append b2

theorem updateAll_spec {m : Machine R τ B σ} {M : Meter σ R} {inv : σ → Prop} {fresh : σ} (hM : Lawful M inv fresh)
    {s : σ} {st st' : State R τ σ} (hids : ∀ id ∈ M.ids, id ∈ m.meter.ids ++ m.testMeter.ids)
    (hr : Registered m st.base.agg) (hp : st.base.agg.phase = .recording) (hd : updateAll M s st = .done st') :
    ∃ l stats, M.updateAll s = some l ∧
      st' = { st with base := { st.base with agg := { st.base.agg with stats := stats } } } ∧
      Registered m st'.base.agg ∧
      (∀ k, stats[k]? = match valueOf l k with
        | some v => some (some v)
        | none => st.base.agg.stats[k]?) ∧
      ∀ k, k ∉ M.ids → stats[k]? = st.base.agg.stats[k]? := by
  obtain ⟨l, p1, p2⟩ := bind_eq_done hd
  obtain ⟨agg, p3, p4⟩ := bind_eq_done p2
  cases p4
  rw [Outcome.ofOption_eq_done] at p1 p3
  obtain ⟨n1, n2⟩ := hM.ids s l p1
  obtain ⟨stats, e1, e2, e3⟩ := updates_ok (a := st.base.agg) hr.ok hp n1
    (fun u hu => hr.descs u.1 (hids _ (n2 u hu)))
  rw [e1] at p3
  cases p3
  refine ⟨l, stats, p1, rfl, ⟨e2, hr.distinct, hr.descs⟩, e3, ?_⟩
  intro k hk
  rw [e3 k, valueOf_none]
  intro hm
  obtain ⟨u, hu, rfl⟩ := List.mem_map.1 hm
  exact hk (n2 u hu)

theorem Registered.quiet {m : Machine R τ B σ} {a a' : Stats.Agg (Stat R) R} (h : Registered m a)
    (q : Quiet m.lossId a a') : Registered m a' :=
  ⟨q.ok, h.distinct, fun id hid => by rw [q.descs]; exact h.descs id hid⟩

theorem Registered.ne {m : Machine R τ B σ} {a : Stats.Agg (Stat R) R} (h : Registered m a) {id : Nat}
    (hid : id ∈ m.meter.ids ++ m.testMeter.ids) : id ≠ m.lossId := by
  rintro rfl
  exact (List.nodup_cons.1 h.distinct).1 hid

/-- The layers afterwards. -/
theorem resetLayers_spec {m : Machine R τ B σ} {inv tinv : σ → Prop} {fresh testFresh : σ}
    (hM : Lawful m.meter inv fresh) (hT : Lawful m.testMeter tinv testFresh) {st : State R τ σ} (h1 : inv st.counts)
    (h2 : tinv st.testCounts) :
    resetLayers m true st = .done { st with counts := fresh, testCounts := testFresh } := by
  unfold resetLayers
  rw [if_pos rfl, hM.reset _ h1, Outcome.ofOption_some, Outcome.bind_done, hT.reset _ h2, Outcome.ofOption_some,
    Outcome.bind_done]

/-- What an epoch does: `l` is what the layer reports at its end. -/
theorem epoch_spec {m : Machine R τ B σ} {inv : σ → Prop} {fresh : σ} (hM : Lawful m.meter inv fresh)
    {st st' : State R τ σ} (hr : Registered m st.base.agg) (hp : st.base.agg.phase = .recording)
    (hc : inv st.counts) (hd : epoch m st = .done st') :
    ∃ ts t, shown m m.iterations (epochStart m st.base) = .done (ts, t) ∧
      Counted m.meter st.disabled ts st.counts st'.counts ∧ inv st'.counts ∧
      (∃ agg, st'.base = { t with agg := agg, epoch := Trainer.u32 (t.epoch + 1) }) ∧ t.epoch = st.base.epoch ∧
      t.isTesting = st.base.isTesting ∧
      st'.testCounts = st.testCounts ∧ st'.disabled = st.disabled ∧ Registered m st'.base.agg ∧
      st'.base.agg.phase = .recording ∧ st'.base.agg.sinks = st.base.agg.sinks ∧
      (if m.during then ∃ l, m.meter.updateAll st'.counts = some l ∧
          ∀ id ∈ m.meter.ids, st'.base.agg.stats[id]? = match valueOf l id with
            | some v => some (some v)
            | none => st.base.agg.stats[id]?
        else ∀ id ∈ m.meter.ids, st'.base.agg.stats[id]? = st.base.agg.stats[id]?) ∧
      ∀ id ∈ m.testMeter.ids, st'.base.agg.stats[id]? = st.base.agg.stats[id]? := by
  obtain ⟨s1, p1, p2⟩ := bind_eq_done hd
  obtain ⟨s2, p3, p4⟩ := bind_eq_done p2
  cases p4
  obtain ⟨ts, a1, a2, a3, a4, a5, a6, a7, a8⟩ := iterations_spec (st := { st with base := epochStart m st.base })
    hr.ok hp p1
  have hr1 : Registered m s1.base.agg := Registered.quiet (a := (epochStart m st.base).agg) ⟨hr.ok, hr.distinct, hr.descs⟩ a3
  have hstat : ∀ id ∈ m.meter.ids ++ m.testMeter.ids, s1.base.agg.stats[id]? = st.base.agg.stats[id]? :=
    fun id hid => a3.stats id (hr.ne hid)
  have hi := Counted.inv hM hc a2
  refine ⟨ts, s1.base, a1, ?_⟩
  by_cases hdur : m.during = true
  · rw [if_pos hdur] at p3
    obtain ⟨l, stats, b1, b2, b3, b4, b5⟩ := updateAll_spec hM (m := m) (fun id hid => List.mem_append_left _ hid) hr1
      a3.phase p3
    subst b2
    refine ⟨a2, hi, ⟨_, rfl⟩, a6, a7, a4, a5, b3, a3.phase, a3.sinks, ?_, ?_⟩
    · rw [if_pos hdur]
      refine ⟨l, b1, fun id hid => ?_⟩
      show stats[id]? = _
      rw [b4 id]
      cases valueOf l id with
      | some v => rfl
      | none => exact hstat id (List.mem_append_left _ hid)
    · intro id hid
      show stats[id]? = _
      rw [b5 id, hstat id (List.mem_append_right _ hid)]
      intro hm
      have := (List.nodup_cons.1 hr.distinct).2
      exact (List.nodup_append.1 this).2.2 id hm id hid rfl
  · rw [if_neg hdur] at p3
    cases p3
    refine ⟨a2, hi, ⟨_, rfl⟩, a6, a7, a4, a5, hr1, a3.phase, a3.sinks, ?_, ?_⟩
    · rw [if_neg hdur]
      exact fun id hid => hstat id (List.mem_append_left _ hid)
    · exact fun id hid => hstat id (List.mem_append_right _ hid)

theorem resetLayers_mk {m : Machine R τ B σ} {inv tinv : σ → Prop} {fresh testFresh : σ}
    (hM : Lawful m.meter inv fresh) (hT : Lawful m.testMeter tinv testFresh) {base : Session.State R τ} {c t : σ}
    {d : Bool} (h1 : inv c) (h2 : tinv t) :
    resetLayers m true ⟨base, c, t, d⟩ = .done ⟨base, fresh, testFresh, d⟩ :=
  resetLayers_spec hM hT (st := ⟨base, c, t, d⟩) h1 h2

/-- During a training command, between two epochs with a snapshot. -/
structure Fresh (m : Machine R τ B σ) (fresh testFresh : σ) (st : State R τ σ) : Prop where
  registered : Registered m st.base.agg
  recording : st.base.agg.phase = .recording
  counts : st.counts = fresh
  testCounts : st.testCounts = testFresh
  null : ∀ id ∈ m.meter.ids ++ m.testMeter.ids, st.base.agg.stats[id]? = some none

theorem Registered.rate {m : Machine R τ B σ} {a : Stats.Agg (Stat R) R} (h : Registered m a) {id : Nat}
    (hid : id ∈ m.meter.ids ++ m.testMeter.ids) : ∃ x, a.descs[id]? = some rateDesc ∧ a.stats[id]? = some x := by
  have hd := h.descs id hid
  have hlt : id < a.stats.length := by
    rw [h.ok]
    exact (List.getElem?_eq_some_iff.1 hd).1
  exact ⟨_, hd, List.getElem?_eq_getElem hlt⟩

/-- An epoch with a snapshot. -/
theorem trainStep_spec {m : Machine R τ B σ} {inv tinv : σ → Prop} {fresh testFresh : σ}
    (hM : Lawful m.meter inv fresh) (hT : Lawful m.testMeter tinv testFresh) {st st' : State R τ σ}
    (hf : Fresh m fresh testFresh st) (hdis : st.disabled = !m.during) (hd : trainStep m true st = .done st') :
    Fresh m fresh testFresh st' ∧ st'.disabled = st.disabled ∧
    ∃ ts t hard outs, shown m m.iterations (epochStart m st.base) = .done (ts, t) ∧
      st'.base.opt = t.opt ∧ st'.base.src = t.src ∧ st'.base.isTesting = t.isTesting ∧
      st'.base.epoch = Trainer.u32 (t.epoch + 1) ∧
      st'.base.agg.sinks = st.base.agg.sinks.map (· ++ [.process hard outs]) ∧
      (if m.during then ∃ s l, feedAll m.meter ts fresh = some s ∧ m.meter.updateAll s = some l ∧
          ∀ id ∈ m.meter.ids, outs[id]? = some (valueOf l id)
        else ∀ id ∈ m.meter.ids, outs[id]? = some none) ∧
      ∀ id ∈ m.testMeter.ids, outs[id]? = some none := by
  obtain ⟨s1, p1, p2⟩ := bind_eq_done hd
  rw [if_pos rfl] at p2
  obtain ⟨s2, q1, q2⟩ := bind_eq_done p2
  cases q2
  obtain ⟨ts, t, a1, a2, a3, ⟨agg, a4⟩, a5, a6, a7, a8, a9, a10, a11, a12, a13⟩ := epoch_spec hM hf.registered hf.recording
    (by rw [hf.counts]; exact hM.start) p1
  obtain ⟨base, r1, r2⟩ := bind_eq_done q1
  obtain ⟨a', outs, sec, k1, k2, k3, k4, k5, k6, k7⟩ := snapshot_ok a9.ok a10 (m.clock s1.base.ticks)
    (m.clock (s1.base.ticks + 1))
  unfold Session.snapshot at r1
  rw [k1, Outcome.ofOption_some, Outcome.bind_done] at r1
  cases r1
  rw [a10, decide_eq_true rfl, resetLayers_mk hM hT a3
    (by show tinv s1.testCounts; rw [a7, hf.testCounts]; exact hT.start)] at r2
  cases r2
  have hrate : ∀ id ∈ m.meter.ids ++ m.testMeter.ids, ∀ x, s1.base.agg.stats[id]? = some x →
      outs[id]? = some x ∧ a'.stats[id]? = some none := by
    intro id hid x hx
    exact k7 id rateDesc x (a9.descs id hid) hx
  refine ⟨⟨⟨k2, hf.registered.distinct, ?_⟩, k3, rfl, rfl, ?_⟩, a8, ts, t, { s1.base.agg.hard with secondsElapsed := sec }, outs, a1, ?_, ?_, ?_, ?_, ?_, ?_, ?_⟩
  · intro id hid
    show a'.descs[id]? = _
    rw [k4]
    exact a9.descs id hid
  · intro id hid
    obtain ⟨x, -, hx⟩ := a9.rate hid
    exact (hrate id hid x hx).2
  · show s1.base.opt = _; rw [a4]
  · show s1.base.src = _; rw [a4]
  · show s1.base.isTesting = _; rw [a4]
  · show s1.base.epoch = _; rw [a4]
  · show a'.sinks = _; rw [k6, a11]
  · by_cases hdur : m.during = true
    · rw [if_pos hdur] at a12 ⊢
      obtain ⟨l, b1, b2⟩ := a12
      rw [hdis, hdur] at a2
      unfold Counted at a2
      rw [if_neg (by simp), hf.counts] at a2
      refine ⟨s1.counts, l, a2, b1, fun id hid => ?_⟩
      refine (hrate id (List.mem_append_left _ hid) _ ?_).1
      rw [b2 id hid]
      cases valueOf l id with
      | some v => rfl
      | none => exact hf.null id (List.mem_append_left _ hid)
    · rw [if_neg hdur] at a12 ⊢
      intro id hid
      refine (hrate id (List.mem_append_left _ hid) _ ?_).1
      rw [a12 id hid]
      exact hf.null id (List.mem_append_left _ hid)
  · intro id hid
    refine (hrate id (List.mem_append_right _ hid) _ ?_).1
    rw [a13 id hid]
    exact hf.null id (List.mem_append_right _ hid)

/-- The end of a command. -/
theorem finish_spec {m : Machine R τ B σ} {inv tinv : σ → Prop} {fresh testFresh : σ}
    (hM : Lawful m.meter inv fresh) (hT : Lawful m.testMeter tinv testFresh) {b : Bool} {st st' : State R τ σ}
    (hr : Registered m st.base.agg) (hp : st.base.agg.phase = .recording) (hdis : st.disabled = false)
    (h1 : inv st.counts) (h2 : tinv st.testCounts) (hd : finish m b st = .done st') :
    Ready m fresh testFresh st' ∧
      st'.base.opt = st.base.opt ∧ st'.base.src = st.base.src ∧ st'.base.epoch = st.base.epoch ∧
      if b then ∃ hard outs, st'.base.agg.sinks = st.base.agg.sinks.map (· ++ [.process hard outs]) ∧
        ∀ id ∈ m.meter.ids ++ m.testMeter.ids, outs[id]? = st.base.agg.stats[id]?
      else st'.base.agg.sinks = st.base.agg.sinks := by
  obtain ⟨base, p1, p2⟩ := bind_eq_done hd
  obtain ⟨base', p3, p4⟩ := bind_eq_done p2
  have e1 : (Session.stopRecording m.toMachine st.base).agg = { st.base.agg with
      hard := { st.base.agg.hard with secondsElapsed := st.base.agg.hard.secondsElapsed +
        (m.clock st.base.ticks - st.base.agg.startTime) }, phase := .stopped } := by
    show st.base.agg.stopRecording _ = _
    unfold Stats.Agg.stopRecording
    rw [if_neg (by simp [hp])]
  have key : AggOk base.agg ∧ base.agg.phase = .stopped ∧ base.agg.descs = st.base.agg.descs ∧
      base.opt = st.base.opt ∧ base.src = st.base.src ∧ base.epoch = st.base.epoch ∧
      if b then ∃ hard outs, base.agg.sinks = st.base.agg.sinks.map (· ++ [.process hard outs]) ∧
        ∀ id ∈ m.meter.ids ++ m.testMeter.ids, outs[id]? = st.base.agg.stats[id]?
      else base.agg.sinks = st.base.agg.sinks := by
    cases b with
    | false =>
      cases p1
      rw [e1]
      exact ⟨hr.ok, rfl, rfl, rfl, rfl, rfl, rfl⟩
    | true =>
      have p1' : Session.onAgg Stats.Agg.generate (Session.stopRecording m.toMachine st.base) = .done base := p1
      obtain ⟨outs, g1, g2⟩ := generate_ok (a := (Session.stopRecording m.toMachine st.base).agg)
        (by rw [e1]; exact hr.ok)
      unfold Session.onAgg at p1'
      rw [g1, Outcome.ofOption_some, Outcome.bind_done] at p1'
      cases p1'
      rw [e1]
      refine ⟨hr.ok, rfl, rfl, rfl, rfl, rfl, ?_⟩
      rw [if_pos rfl]
      refine ⟨_, outs, rfl, ?_⟩
      intro id hid
      obtain ⟨x, x1, x2⟩ := hr.rate hid
      rw [x2]
      exact g2 id rateDesc x (by rw [e1]; exact x1) (by rw [e1]; exact x2)
  obtain ⟨k1, k2, k3, k4, k5, k6, k7⟩ := key
  obtain ⟨stats, r1, r2, r3⟩ := reset_ok k1 k2
  unfold Session.onAgg at p3
  rw [r1, Outcome.ofOption_some, Outcome.bind_done] at p3
  cases p3
  rw [k2, decide_eq_true rfl, resetLayers_mk hM hT h1 h2] at p4
  cases p4
  refine ⟨⟨⟨r2, hr.distinct, ?_⟩, rfl, hdis, rfl, rfl, ?_⟩, k4, k5, k6, k7⟩
  · intro id hid
    show base.agg.descs[id]? = _
    rw [k3]
    exact hr.descs id hid
  · intro id hid
    have hd := hr.descs id hid
    rw [← k3] at hd
    have hlt : id < base.agg.stats.length := by
      rw [k1]
      exact (List.getElem?_eq_some_iff.1 hd).1
    exact r3 id rateDesc _ hd (List.getElem?_eq_getElem hlt)

/-- A loop that ends has states in between. -/
theorem forO_states {α : Type _} {f : Nat → α → Outcome α} : ∀ {n : Nat} {s s' : α}, forO n f s = .done s' →
    ∃ S : Nat → α, S 0 = s ∧ S n = s' ∧ ∀ k, k < n → f k (S k) = .done (S (k + 1))
  | 0, s, s', h => by
    cases h
    exact ⟨fun _ => s, rfl, rfl, fun k hk => absurd hk (Nat.not_lt_zero k)⟩
  | n + 1, s, s', h => by
    obtain ⟨s1, p1, p2⟩ := bind_eq_done h
    obtain ⟨S, a1, a2, a3⟩ := forO_states p1
    refine ⟨fun k => if k ≤ n then S k else s', ?_, ?_, ?_⟩
    · dsimp only
      rw [if_pos (Nat.zero_le _), a1]
    · dsimp only
      rw [if_neg (by omega)]
    · intro k hk
      dsimp only
      rw [if_pos (by omega)]
      by_cases hkn : k < n
      · rw [if_pos (by omega)]
        exact a3 k hkn
      · obtain rfl : k = n := by omega
        rw [if_neg (by omega), a2]
        exact p2

/-- The iterations of a test without a second network. -/
theorem testIterations_spec {m : Machine R τ B σ} {k : Nat} {st st' : State R τ σ} (h : AggOk st.base.agg)
    (hp : st.base.agg.phase = .recording) (hd : forO k (fun _ => testIteration m) st = .done st') :
    ∃ bs, batches m.source k st.base.src = .done (bs, st'.base.src) ∧
      Counted m.meter st.disabled (bs.map (m.predict st.base.isTesting st.base.opt.weights)) st.counts st'.counts ∧
      Quiet m.lossId st.base.agg st'.base.agg ∧ st'.testCounts = st.testCounts ∧ st'.disabled = st.disabled ∧
      st'.base.epoch = st.base.epoch ∧ st'.base.isTesting = st.base.isTesting ∧ st'.base.opt = st.base.opt := by
  induction k generalizing st' with
  | zero =>
    cases hd
    exact ⟨[], rfl, Counted.nil _ _ _, Quiet.refl h hp, rfl, rfl, rfl, rfl, rfl⟩
  | succ k ih =>
    obtain ⟨s1, p1, p2⟩ := bind_eq_done hd
    obtain ⟨bs, a1, a2, a3, a4, a5, a6, a7, a8⟩ := ih p1
    obtain ⟨b, q1, q2⟩ := bind_eq_done p2
    obtain ⟨s, q3, q4⟩ := bind_eq_done q2
    obtain ⟨base, q5, q6⟩ := bind_eq_done q4
    cases q6
    obtain ⟨b', r1, r2⟩ := bind_eq_done q5
    rw [q1] at r1
    cases r1
    obtain ⟨g, agg, rfl⟩ := report_quiet (st := { s1.base with src := b.2 }) a3.ok a3.phase r2
    refine ⟨bs ++ [b.1], ?_, ?_, a3.trans g, a4, a5, a6, a7, a8⟩
    · rw [batches, a1, Outcome.bind_done, q1, Outcome.bind_done]
    · rw [List.map_append]
      refine a2.append (Counted.one ?_)
      rw [← a5, ← a7, ← a8]
      exact Outcome.ofOption_eq_done.1 q3

/-- The iterations of a test with the second network. -/
theorem hybridIterations_spec {m : Machine R τ B σ} {k : Nat} {st st' : State R τ σ} (h : AggOk st.base.agg)
    (hp : st.base.agg.phase = .recording) (hd : forO k (fun _ => hybridIteration m) st = .done st') :
    ∃ bs, batches m.testSource k st.base.testSrc = .done (bs, st'.base.testSrc) ∧
      feedAll m.testMeter (bs.map (m.testPredict true st.base.opt.weights)) st.testCounts = some st'.testCounts ∧
      Quiet m.lossId st.base.agg st'.base.agg ∧ st'.counts = st.counts ∧ st'.disabled = st.disabled ∧
      st'.base.epoch = st.base.epoch ∧ st'.base.src = st.base.src ∧ st'.base.opt = st.base.opt := by
  induction k generalizing st' with
  | zero =>
    cases hd
    exact ⟨[], rfl, rfl, Quiet.refl h hp, rfl, rfl, rfl, rfl, rfl⟩
  | succ k ih =>
    obtain ⟨s1, p1, p2⟩ := bind_eq_done hd
    obtain ⟨bs, a1, a2, a3, a4, a5, a6, a7, a8⟩ := ih p1
    obtain ⟨b, q1, q2⟩ := bind_eq_done p2
    obtain ⟨s, q3, q4⟩ := bind_eq_done q2
    obtain ⟨base, q5, q6⟩ := bind_eq_done q4
    cases q6
    obtain ⟨b', r1, r2⟩ := bind_eq_done q5
    rw [q1] at r1
    cases r1
    obtain ⟨g, agg, rfl⟩ := report_quiet (st := { s1.base with testSrc := b.2 }) a3.ok a3.phase r2
    refine ⟨bs ++ [b.1], ?_, ?_, a3.trans g, a4, a5, a6, a7, a8⟩
    · rw [batches, a1, Outcome.bind_done, q1, Outcome.bind_done]
    · rw [List.map_append, feedAll_append, a2, Option.bind_some, List.map_cons, List.map_nil, feedAll]
      rw [a8, Outcome.ofOption_eq_done] at q3
      rw [q3]
      rfl

end CN24.Rates
