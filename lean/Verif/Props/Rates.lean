import Verif.Proof.Rates
import Verif.Props.StatLayers
import Verif.Props.Session

/-
Property theorems about the rates of errors that a session reports (C88).
-/

namespace CN24.Rates
open CN24 CN24.Session

variable {R τ B σ : Type _} [Field R] [LinearOrder R]

/-! ## Commands keep the session ready -/

theorem begin_spec {m : Machine R τ B σ} {fresh testFresh : σ} {st : State R τ σ} (h : Ready m fresh testFresh st) :
    Registered m (startRecording m.toMachine st.base).agg ∧ (startRecording m.toMachine st.base).agg.phase = .recording ∧
      (startRecording m.toMachine st.base).agg.stats = st.base.agg.stats ∧
      (startRecording m.toMachine st.base).agg.sinks = st.base.agg.sinks := by
  rw [startRecording_agg m.toMachine st.base h.stopped]
  exact ⟨⟨h.registered.ok, h.registered.distinct, h.registered.descs⟩, rfl, rfl, rfl⟩

/-- The start of a training command. -/
def begun (m : Machine R τ B σ) (st : State R τ σ) : State R τ σ :=
  { st with
    base := setIsTesting false (setHard (fun h => { h with weights := m.weightCount }) (startRecording m.toMachine st.base))
    disabled := !m.during }

/-- The epochs of a command without snapshots: counters and reports accumulate. -/
structure Plain (m : Machine R τ B σ) (inv : σ → Prop) (testFresh : σ) (st : State R τ σ) : Prop where
  registered : Registered m st.base.agg
  recording : st.base.agg.phase = .recording
  counts : inv st.counts
  testCounts : st.testCounts = testFresh
  testNull : ∀ id ∈ m.testMeter.ids, st.base.agg.stats[id]? = some none

/-- A sequence of values, the latest that is not null. -/
def latest {A : Type _} (v : Nat → Option A) : Nat → Option A
  | 0 => none
  | n + 1 => (v n).or (latest v n)

theorem plain_spec {m : Machine R τ B σ} {inv : σ → Prop} {fresh testFresh : σ} (hM : Lawful m.meter inv fresh)
    {n : Nat} {st st' : State R τ σ} (hp : Plain m inv testFresh st) (hdis : st.disabled = !m.during)
    (hnull : ∀ id ∈ m.meter.ids, st.base.agg.stats[id]? = some none)
    (hd : forO n (fun _ => trainStep m false) st = .done st') :
    Plain m inv testFresh st' ∧ st'.disabled = st.disabled ∧ st'.base.agg.sinks = st.base.agg.sinks ∧
    ∃ (S : Nat → Session.State R τ) (C : Nat → σ) (ts : Nat → List (Tensor R × Tensor R × Tensor R))
      (l : Nat → List (Nat × R)), S 0 = st.base ∧ C 0 = st.counts ∧ S n = st'.base ∧ C n = st'.counts ∧
      (∀ e, e < n → ∃ t, shown m m.iterations (epochStart m (S e)) = .done (ts e, t) ∧ ∃ agg,
        S (e + 1) = { t with agg := agg, epoch := Trainer.u32 (t.epoch + 1) }) ∧
      if m.during then
        (∀ e, e < n → feedAll m.meter (ts e) (C e) = some (C (e + 1)) ∧ m.meter.updateAll (C (e + 1)) = some (l e)) ∧
        ∀ id ∈ m.meter.ids, st'.base.agg.stats[id]? = some (latest (fun e => valueOf (l e) id) n)
      else ∀ id ∈ m.meter.ids, st'.base.agg.stats[id]? = some none := by
  induction n generalizing st' with
  | zero =>
    cases hd
    refine ⟨hp, rfl, rfl, fun _ => st.base, fun _ => st.counts, fun _ => [], fun _ => [], rfl, rfl, rfl, rfl,
      fun e he => absurd he (Nat.not_lt_zero e), ?_⟩
    split
    · exact ⟨fun e he => absurd he (Nat.not_lt_zero e), hnull⟩
    · exact hnull
  | succ n ih =>
    obtain ⟨s1, p1, p2⟩ := bind_eq_done hd
    obtain ⟨h1, h2, h3, S, C, ts, l, i1, i2, i3, i4, i5, i6⟩ := ih p1
    obtain ⟨s2, q1, q2⟩ := bind_eq_done p2
    cases q2
    obtain ⟨T, t, a1, a2, a3, a4, a5, a6, a7, a8, a9, a10, a11, a12, a13⟩ := epoch_spec hM h1.registered h1.recording
      h1.counts q1
    refine ⟨⟨a9, a10, a3, a7.trans h1.testCounts, fun id hid => (a13 id hid).trans (h1.testNull id hid)⟩, a8.trans h2,
      a11.trans h3, fun e => if e ≤ n then S e else st'.base, fun e => if e ≤ n then C e else st'.counts,
      fun e => if e < n then ts e else T, ?_⟩
    have sS : ∀ e, e ≤ n → (if e ≤ n then S e else st'.base) = S e := fun e he => if_pos he
    have sC : ∀ e, e ≤ n → (if e ≤ n then C e else st'.counts) = C e := fun e he => if_pos he
    have lS : (if n + 1 ≤ n then S (n + 1) else st'.base) = st'.base := if_neg (by omega)
    have lC : (if n + 1 ≤ n then C (n + 1) else st'.counts) = st'.counts := if_neg (by omega)
    have key : ∀ e, e < n + 1 → ∃ u, shown m m.iterations (epochStart m (if e ≤ n then S e else st'.base)) =
        .done (if e < n then ts e else T, u) ∧ ∃ agg, (if e + 1 ≤ n then S (e + 1) else st'.base) =
          { u with agg := agg, epoch := Trainer.u32 (u.epoch + 1) } := by
      intro e he
      rw [sS e (by omega)]
      by_cases hen : e < n
      · rw [if_pos hen, sS (e + 1) hen]
        exact i5 e hen
      · obtain rfl : e = n := by omega
        rw [if_neg hen, lS, i3]
        exact ⟨t, a1, a4⟩
    by_cases hdur : m.during = true
    · rw [if_pos hdur] at a12 i6
      obtain ⟨L, b1, b2⟩ := a12
      refine ⟨fun e => if e < n then l e else L, ?_, ?_, lS, lC, key, ?_⟩
      · exact (sS 0 (Nat.zero_le _)).trans i1
      · exact (sC 0 (Nat.zero_le _)).trans i2
      · rw [if_pos hdur]
        refine ⟨?_, ?_⟩
        · intro e he
          dsimp only
          rw [sC e (by omega)]
          by_cases hen : e < n
          · rw [if_pos hen, if_pos hen, sC (e + 1) hen]
            exact i6.1 e hen
          · obtain rfl : e = n := by omega
            rw [if_neg hen, if_neg hen, lC, i4]
            refine ⟨?_, b1⟩
            rw [h2, hdis, hdur] at a2
            exact a2
        · intro id hid
          have hl : latest (fun e => valueOf (if e < n then l e else L) id) n = latest (fun e => valueOf (l e) id) n := by
            have : ∀ k, k ≤ n → latest (fun e => valueOf (if e < n then l e else L) id) k =
                latest (fun e => valueOf (l e) id) k := by
              intro k
              induction k with
              | zero => intro _; rfl
              | succ k ihk =>
                intro hk
                rw [latest, latest, ihk (by omega), if_pos (by omega)]
            exact this n (Nat.le_refl n)
          rw [latest, hl, b2 id hid]
          dsimp only
          rw [if_neg (Nat.lt_irrefl n)]
          cases valueOf L id with
          | some v => rfl
          | none => exact i6.2 id hid
    · rw [if_neg hdur] at a12 i6
      refine ⟨l, ?_, ?_, lS, lC, key, ?_⟩
      · exact (sS 0 (Nat.zero_le _)).trans i1
      · exact (sC 0 (Nat.zero_le _)).trans i2
      · rw [if_neg hdur]
        intro id hid
        rw [a12 id hid]
        exact i6 id hid

/-- What a row says about errors: the layer, enabled or not, has been shown `ts` since it was reset. -/
def RowOf (m : Machine R τ B σ) (fresh : σ) (ts : List (Tensor R × Tensor R × Tensor R)) (outs : List (Stat R)) : Prop :=
  (if m.during then ∃ s l, feedAll m.meter ts fresh = some s ∧ m.meter.updateAll s = some l ∧
      ∀ id ∈ m.meter.ids, outs[id]? = some (valueOf l id)
    else ∀ id ∈ m.meter.ids, outs[id]? = some none) ∧
  ∀ id ∈ m.testMeter.ids, outs[id]? = some none

/-- The epochs of a command with snapshots. -/
theorem rows_spec {m : Machine R τ B σ} {inv tinv : σ → Prop} {fresh testFresh : σ} (hM : Lawful m.meter inv fresh)
    (hT : Lawful m.testMeter tinv testFresh) {n : Nat} {st st' : State R τ σ} (hf : Fresh m fresh testFresh st)
    (hdis : st.disabled = !m.during) (hd : forO n (fun _ => trainStep m true) st = .done st') :
    Fresh m fresh testFresh st' ∧ st'.disabled = st.disabled ∧
    ∃ (S : Nat → Session.State R τ) (ts : Nat → List (Tensor R × Tensor R × Tensor R)) (hard : Nat → Stats.Hard)
      (outs : Nat → List (Stat R)), S 0 = st.base ∧ S n = st'.base ∧
      (∀ e, e < n → ∃ t, shown m m.iterations (epochStart m (S e)) = .done (ts e, t) ∧ (S (e + 1)).opt = t.opt ∧
        (S (e + 1)).src = t.src ∧ (S (e + 1)).isTesting = t.isTesting ∧
        (S (e + 1)).epoch = Trainer.u32 (t.epoch + 1) ∧ RowOf m fresh (ts e) (outs e)) ∧
      st'.base.agg.sinks = st.base.agg.sinks.map
        (· ++ (List.range n).map fun e => .process (hard e) (outs e)) := by
  induction n generalizing st' with
  | zero =>
    cases hd
    refine ⟨hf, rfl, fun _ => st.base, fun _ => [], fun _ => st.base.agg.hard, fun _ => [], rfl, rfl,
      fun e he => absurd he (Nat.not_lt_zero e), ?_⟩
    simp
  | succ n ih =>
    obtain ⟨s1, p1, p2⟩ := bind_eq_done hd
    obtain ⟨h1, h2, S, ts, hard, outs, i1, i2, i3, i4⟩ := ih p1
    obtain ⟨f1, f2, T, t, H, O, a1, a2, a3, a4, a5, a6, a7, a8⟩ := trainStep_spec hM hT h1 (h2.trans hdis) p2
    refine ⟨f1, f2.trans h2, fun e => if e ≤ n then S e else st'.base, fun e => if e < n then ts e else T,
      fun e => if e < n then hard e else H, fun e => if e < n then outs e else O, ?_, ?_, ?_, ?_⟩
    · dsimp only
      rw [if_pos (Nat.zero_le _), i1]
    · dsimp only
      rw [if_neg (by omega)]
    · intro e he
      dsimp only
      rw [if_pos (by omega : e ≤ n)]
      by_cases hen : e < n
      · rw [if_pos hen, if_pos hen, if_pos (by omega : e + 1 ≤ n)]
        exact i3 e hen
      · obtain rfl : e = n := by omega
        rw [if_neg hen, if_neg hen, if_neg (by omega), i2]
        exact ⟨t, a1, a2, a3, a4, a5, a7, a8⟩
    · rw [a6, i4, List.map_map]
      congr 1
      funext x
      rw [Function.comp_apply, List.range_succ, List.map_append, List.map_cons, List.map_nil,
        List.append_assoc]
      dsimp only
      rw [if_neg (Nat.lt_irrefl n), if_neg (Nat.lt_irrefl n)]
      congr 2
      refine List.map_congr_left fun e he => ?_
      rw [if_pos (List.mem_range.1 he), if_pos (List.mem_range.1 he)]

/-! ## C88 -/

/-- C88: training with a row for every epoch.  Row `e` shows the rates of the images of epoch `e` alone, whatever has
happened before, if statistics during training are asked for; otherwise its rates are null. -/
theorem training_row {m : Machine R τ B σ} {inv tinv : σ → Prop} {fresh testFresh : σ}
    (hM : Lawful m.meter inv fresh) (hT : Lawful m.testMeter tinv testFresh) {st st' : State R τ σ}
    (h : Ready m fresh testFresh st) {n : Nat} (hd : exec m (.train n true) st = .done st') :
    Ready m fresh testFresh st' ∧
    ∃ (S : Nat → Session.State R τ) (ts : Nat → List (Tensor R × Tensor R × Tensor R)) (hard : Nat → Stats.Hard)
      (outs : Nat → List (Stat R)),
      ((S 0).opt = st.base.opt ∧ (S 0).src = st.base.src ∧ (S 0).epoch = st.base.epoch ∧ (S 0).isTesting = false) ∧
      (∀ e, e < n → ∃ t, shown m m.iterations (epochStart m (S e)) = .done (ts e, t) ∧ (S (e + 1)).opt = t.opt ∧
        (S (e + 1)).src = t.src ∧ (S (e + 1)).isTesting = t.isTesting ∧
        (S (e + 1)).epoch = Trainer.u32 (t.epoch + 1) ∧ RowOf m fresh (ts e) (outs e)) ∧
      st'.base.agg.sinks = st.base.agg.sinks.map
        (· ++ (List.range n).map fun e => .process (hard e) (outs e)) := by
  obtain ⟨b1, b2, b3, b4⟩ := begin_spec h
  obtain ⟨s1, p1, p2⟩ := bind_eq_done hd
  obtain ⟨s0, q1, q2⟩ := bind_eq_done p1
  cases q2
  obtain ⟨f1, f2, S, ts, hard, outs, c1, c2, c3, c4⟩ := rows_spec hM hT (st := begun m st)
    ⟨⟨b1.ok, b1.distinct, b1.descs⟩, b2, h.counts, h.testCounts, fun id hid => by
      show (startRecording m.toMachine st.base).agg.stats[id]? = _
      rw [b3]
      exact h.null id hid⟩ rfl q1
  have e1 := syncEpoch_cases m.toMachine s0.base
  obtain ⟨r1, r2, r3, r4, r5⟩ := finish_spec hM hT (b := false) (by
      show Registered m (syncEpoch m.toMachine s0.base).agg
      rw [e1]; exact f1.registered) (by
      show (syncEpoch m.toMachine s0.base).agg.phase = _
      rw [e1]; exact f1.recording) rfl (by
      show inv s0.counts
      rw [f1.counts]; exact hM.start) (by
      show tinv s0.testCounts
      rw [f1.testCounts]; exact hT.start) p2
  refine ⟨r1, S, ts, hard, outs, ?_, c3, ?_⟩
  · rw [c1]
    exact ⟨rfl, rfl, rfl, rfl⟩
  · rw [if_neg (by simp)] at r5
    rw [r5]
    show (syncEpoch m.toMachine s0.base).agg.sinks = _
    rw [e1]
    show s0.base.agg.sinks = _
    rw [c4]
    show (startRecording m.toMachine st.base).agg.sinks.map _ = _
    rw [b4]

/-- Training with one row at the end. -/
theorem training_total {m : Machine R τ B σ} {inv tinv : σ → Prop} {fresh testFresh : σ}
    (hM : Lawful m.meter inv fresh) (hT : Lawful m.testMeter tinv testFresh) {st st' : State R τ σ}
    (h : Ready m fresh testFresh st) {n : Nat} (hd : exec m (.train n false) st = .done st') :
    Ready m fresh testFresh st' ∧
    ∃ (S : Nat → Session.State R τ) (C : Nat → σ) (ts : Nat → List (Tensor R × Tensor R × Tensor R))
      (l : Nat → List (Nat × R)) (hard : Stats.Hard) (outs : List (Stat R)),
      ((S 0).opt = st.base.opt ∧ (S 0).src = st.base.src ∧ (S 0).epoch = st.base.epoch ∧ (S 0).isTesting = false) ∧
      (∀ e, e < n → ∃ t, shown m m.iterations (epochStart m (S e)) = .done (ts e, t) ∧ ∃ agg,
        S (e + 1) = { t with agg := agg, epoch := Trainer.u32 (t.epoch + 1) }) ∧
      st'.base.agg.sinks = st.base.agg.sinks.map (· ++ [.process hard outs]) ∧
      (if m.during then C 0 = fresh ∧
          (∀ e, e < n → feedAll m.meter (ts e) (C e) = some (C (e + 1)) ∧ m.meter.updateAll (C (e + 1)) = some (l e)) ∧
          ∀ id ∈ m.meter.ids, outs[id]? = some (latest (fun e => valueOf (l e) id) n)
        else ∀ id ∈ m.meter.ids, outs[id]? = some none) ∧
      ∀ id ∈ m.testMeter.ids, outs[id]? = some none := by
  obtain ⟨b1, b2, b3, b4⟩ := begin_spec h
  obtain ⟨s1, p1, p2⟩ := bind_eq_done hd
  obtain ⟨s0, q1, q2⟩ := bind_eq_done p1
  cases q2
  obtain ⟨f1, f2, f3, S, C, ts, l, c1, c2, c3, c4, c5, c6⟩ := plain_spec hM (testFresh := testFresh) (st := begun m st)
    ⟨⟨b1.ok, b1.distinct, b1.descs⟩, b2, by
      show inv st.counts
      rw [h.counts]; exact hM.start, h.testCounts, fun id hid => by
      show (startRecording m.toMachine st.base).agg.stats[id]? = _
      rw [b3]
      exact h.null id (List.mem_append_right _ hid)⟩ rfl (fun id hid => by
      show (startRecording m.toMachine st.base).agg.stats[id]? = _
      rw [b3]
      exact h.null id (List.mem_append_left _ hid)) q1
  have e1 := syncEpoch_cases m.toMachine s0.base
  have e2 : (syncEpoch m.toMachine s0.base).agg = s0.base.agg := by rw [e1]
  obtain ⟨r1, r2, r3, r4, r5⟩ := finish_spec hM hT (b := true) (by
      show Registered m (syncEpoch m.toMachine s0.base).agg
      rw [e2]; exact f1.registered) (by
      show (syncEpoch m.toMachine s0.base).agg.phase = _
      rw [e2]; exact f1.recording) rfl (by exact f1.counts) (by
      show tinv s0.testCounts
      rw [f1.testCounts]; exact hT.start) p2
  rw [if_pos rfl] at r5
  obtain ⟨hard, outs, d1, d2⟩ := r5
  have d2' : ∀ id ∈ m.meter.ids ++ m.testMeter.ids, outs[id]? = s0.base.agg.stats[id]? := by
    intro id hid
    rw [d2 id hid]
    show (syncEpoch m.toMachine s0.base).agg.stats[id]? = _
    rw [e2]
  refine ⟨r1, S, C, ts, l, hard, outs, ?_, c5, ?_, ?_, ?_⟩
  · rw [c1]
    exact ⟨rfl, rfl, rfl, rfl⟩
  · rw [d1]
    show (syncEpoch m.toMachine s0.base).agg.sinks.map _ = _
    rw [e2, f3]
    show (startRecording m.toMachine st.base).agg.sinks.map _ = _
    rw [b4]
  · by_cases hdur : m.during = true
    · rw [if_pos hdur] at c6 ⊢
      refine ⟨c2.trans h.counts, c6.1, fun id hid => ?_⟩
      rw [d2' id (List.mem_append_left _ hid)]
      exact c6.2 id hid
    · rw [if_neg hdur] at c6 ⊢
      intro id hid
      rw [d2' id (List.mem_append_left _ hid)]
      exact c6 id hid
  · intro id hid
    rw [d2' id (List.mem_append_right _ hid)]
    exact f1.testNull id hid

/-- A test without a second network. -/
theorem test_row {m : Machine R τ B σ} {inv tinv : σ → Prop} {fresh testFresh : σ}
    (hM : Lawful m.meter inv fresh) (hT : Lawful m.testMeter tinv testFresh) {st st' : State R τ σ}
    (h : Ready m fresh testFresh st) (hh : m.hybrid = false) (hd : exec m .test st = .done st') :
    Ready m fresh testFresh st' ∧
    ∃ bs src s l hard outs,
      batches m.source m.testIterations (m.source.setTesting true st.base.src) = .done (bs, src) ∧
      feedAll m.meter (bs.map (m.predict true st.base.opt.weights)) fresh = some s ∧ m.meter.updateAll s = some l ∧
      st'.base.agg.sinks = st.base.agg.sinks.map (· ++ [.process hard outs]) ∧
      (∀ id ∈ m.meter.ids, outs[id]? = some (valueOf l id)) ∧ ∀ id ∈ m.testMeter.ids, outs[id]? = some none := by
  obtain ⟨b1, b2, b3, b4⟩ := begin_spec h
  obtain ⟨s1, p1, p2⟩ := bind_eq_done hd
  have e1 := syncEpoch_cases m.toMachine (startRecording m.toMachine st.base)
  rw [e1] at p1
  unfold test at p1
  dsimp only at p1
  rw [if_neg (by simp [hh])] at p1
  obtain ⟨s2, q1, q2⟩ := bind_eq_done p1
  obtain ⟨s3, q3, q4⟩ := bind_eq_done q2
  cases q4
  obtain ⟨bs, a1, a2, a3, a4, a5, a6, a7, a8⟩ := testIterations_spec (by exact b1.ok) (by exact b2) q1
  have hr : Registered m s2.base.agg := Registered.quiet
    (a := (startRecording m.toMachine st.base).agg) b1 ⟨a3.ok, a3.phase, a3.descs, a3.sinks, a3.stats⟩
  obtain ⟨l, stats, u1, u2, u3, u4, u5⟩ := updateAll_spec hM (fun id hid => List.mem_append_left _ hid) hr a3.phase q3
  subst u2
  have a2' : feedAll m.meter (bs.map (m.predict true st.base.opt.weights)) fresh = some s2.counts := by
    have := a2
    unfold Counted at this
    dsimp only at this
    rw [h.enabled, if_neg (by simp), h.counts] at this
    rw [hh] at this
    exact this
  obtain ⟨r1, r2, r3, r4, r5⟩ := finish_spec hM hT (b := true) (by exact u3) (by exact a3.phase)
    (by exact a5.trans h.enabled) (by exact feedAll_inv hM hM.start a2') (by
      show tinv s2.testCounts
      rw [a4]
      show tinv st.testCounts
      rw [h.testCounts]; exact hT.start) p2
  rw [if_pos rfl] at r5
  obtain ⟨hard, outs, d1, d2⟩ := r5
  have hs : ∀ id ∈ m.meter.ids ++ m.testMeter.ids, s2.base.agg.stats[id]? = some none := by
    intro id hid
    rw [a3.stats id (hr.ne hid)]
    show (startRecording m.toMachine st.base).agg.stats[id]? = _
    rw [b3]
    exact h.null id hid
  refine ⟨r1, bs, _, s2.counts, l, hard, outs, a1, a2', u1, ?_, ?_, ?_⟩
  · rw [d1]
    show s2.base.agg.sinks.map _ = _
    rw [a3.sinks]
    show (startRecording m.toMachine st.base).agg.sinks.map _ = _
    rw [b4]
  · intro id hid
    rw [d2 id (List.mem_append_left _ hid)]
    show stats[id]? = _
    rw [u4 id]
    cases valueOf l id with
    | some v => rfl
    | none => exact hs id (List.mem_append_left _ hid)
  · intro id hid
    rw [d2 id (List.mem_append_right _ hid)]
    show stats[id]? = _
    rw [u5 id]
    · exact hs id (List.mem_append_right _ hid)
    · intro hm
      exact (List.nodup_append.1 (List.nodup_cons.1 hr.distinct).2).2.2 id hm id hid rfl

/-- A test with the second network of hybrid training. -/
theorem hybrid_row {m : Machine R τ B σ} {inv tinv : σ → Prop} {fresh testFresh : σ}
    (hM : Lawful m.meter inv fresh) (hT : Lawful m.testMeter tinv testFresh) {st st' : State R τ σ}
    (h : Ready m fresh testFresh st) (hh : m.hybrid = true) (hd : exec m .test st = .done st') :
    Ready m fresh testFresh st' ∧
    ∃ bs src s l hard outs,
      batches m.testSource m.testIterations (m.testSource.setTesting true st.base.testSrc) = .done (bs, src) ∧
      feedAll m.testMeter (bs.map (m.testPredict true st.base.opt.weights)) testFresh = some s ∧
      m.testMeter.updateAll s = some l ∧
      st'.base.agg.sinks = st.base.agg.sinks.map (· ++ [.process hard outs]) ∧
      (∀ id ∈ m.testMeter.ids, outs[id]? = some (valueOf l id)) ∧ ∀ id ∈ m.meter.ids, outs[id]? = some none := by
  obtain ⟨b1, b2, b3, b4⟩ := begin_spec h
  obtain ⟨s1, p1, p2⟩ := bind_eq_done hd
  have e1 := syncEpoch_cases m.toMachine (startRecording m.toMachine st.base)
  rw [e1] at p1
  unfold test at p1
  dsimp only at p1
  rw [if_pos hh] at p1
  obtain ⟨s2, q1, q2⟩ := bind_eq_done p1
  obtain ⟨s3, q3, q4⟩ := bind_eq_done q2
  cases q4
  obtain ⟨bs, a1, a2, a3, a4, a5, a6, a7, a8⟩ := hybridIterations_spec (by exact b1.ok) (by exact b2) q1
  have hr : Registered m s2.base.agg := Registered.quiet
    (a := (startRecording m.toMachine st.base).agg) b1 ⟨a3.ok, a3.phase, a3.descs, a3.sinks, a3.stats⟩
  obtain ⟨l, stats, u1, u2, u3, u4, u5⟩ := updateAll_spec hT (fun id hid => List.mem_append_right _ hid) hr a3.phase q3
  subst u2
  have a2' : feedAll m.testMeter (bs.map (m.testPredict true st.base.opt.weights)) testFresh = some s2.testCounts := by
    have := a2
    dsimp only at this
    rw [h.testCounts] at this
    rw [hh] at this
    exact this
  obtain ⟨r1, r2, r3, r4, r5⟩ := finish_spec hM hT (b := true) (by exact u3) (by exact a3.phase)
    (by exact a5.trans h.enabled) (by
      show inv s2.counts
      rw [a4]
      show inv st.counts
      rw [h.counts]; exact hM.start) (by exact feedAll_inv hT hT.start a2') p2
  rw [if_pos rfl] at r5
  obtain ⟨hard, outs, d1, d2⟩ := r5
  have hs : ∀ id ∈ m.meter.ids ++ m.testMeter.ids, s2.base.agg.stats[id]? = some none := by
    intro id hid
    rw [a3.stats id (hr.ne hid)]
    show (startRecording m.toMachine st.base).agg.stats[id]? = _
    rw [b3]
    exact h.null id hid
  refine ⟨r1, bs, _, s2.testCounts, l, hard, outs, a1, a2', u1, ?_, ?_, ?_⟩
  · rw [d1]
    show s2.base.agg.sinks.map _ = _
    rw [a3.sinks]
    show (startRecording m.toMachine st.base).agg.sinks.map _ = _
    rw [b4]
  · intro id hid
    rw [d2 id (List.mem_append_right _ hid)]
    show stats[id]? = _
    rw [u4 id]
    cases valueOf l id with
    | some v => rfl
    | none => exact hs id (List.mem_append_right _ hid)
  · intro id hid
    rw [d2 id (List.mem_append_left _ hid)]
    show stats[id]? = _
    rw [u5 id]
    · exact hs id (List.mem_append_left _ hid)
    · intro hm
      exact (List.nodup_append.1 (List.nodup_cons.1 hr.distinct).2).2.2 id hid id hm rfl

theorem exec_ready {m : Machine R τ B σ} {inv tinv : σ → Prop} {fresh testFresh : σ}
    (hM : Lawful m.meter inv fresh) (hT : Lawful m.testMeter tinv testFresh) {c : Command R} {st st' : State R τ σ}
    (h : Ready m fresh testFresh st) (hd : exec m c st = .done st') : Ready m fresh testFresh st' := by
  cases c with
  | train n b =>
    cases b with
    | true => exact (training_row hM hT h hd).1
    | false => exact (training_total hM hT h hd).1
  | test =>
    cases hh : m.hybrid with
    | false => exact (test_row hM hT h hh hd).1
    | true => exact (hybrid_row hM hT h hh hd).1
  | setEpoch e =>
    cases hd
    have e1 := syncEpoch_cases m.toMachine { st.base with epoch := e, opt := Trainer.reset st.base.opt }
    have e2 : (syncEpoch m.toMachine { st.base with epoch := e, opt := Trainer.reset st.base.opt }).agg =
        st.base.agg := by rw [e1]
    exact ⟨by dsimp only; rw [e2]; exact h.registered, by dsimp only; rw [e2]; exact h.stopped, h.enabled, h.counts,
      h.testCounts, by dsimp only; rw [e2]; exact h.null⟩
  | reset w =>
    cases hd
    exact ⟨h.registered, h.stopped, h.enabled, h.counts, h.testCounts, h.null⟩
  | load w =>
    cases hd
    exact ⟨h.registered, h.stopped, h.enabled, h.counts, h.testCounts, h.null⟩

theorem run_ready {m : Machine R τ B σ} {inv tinv : σ → Prop} {fresh testFresh : σ}
    (hM : Lawful m.meter inv fresh) (hT : Lawful m.testMeter tinv testFresh) :
    ∀ {cs : List (Command R)} {st st' : State R τ σ}, Ready m fresh testFresh st → run m cs st = .done st' →
      Ready m fresh testFresh st'
  | [], st, st', h, hd => by cases hd; exact h
  | c :: cs, st, st', h, hd => by
    obtain ⟨s1, p1, p2⟩ := bind_eq_done hd
    exact run_ready hM hT (exec_ready hM hT h p1) p2

/-- C88: a test after any session, without a second network: every sink gets one row, whose rates are those of the
testing batches of this command and the parameters at its beginning. -/
theorem C88_test (m : Machine R τ B σ) (inv tinv : σ → Prop) (fresh testFresh : σ)
    (hM : Lawful m.meter inv fresh) (hT : Lawful m.testMeter tinv testFresh) (cs : List (Command R))
    (st0 st st' : State R τ σ) (h : Ready m fresh testFresh st0) (hrun : run m cs st0 = .done st)
    (hh : m.hybrid = false) (hd : exec m .test st = .done st') :
    ∃ bs src s l hard outs,
      batches m.source m.testIterations (m.source.setTesting true st.base.src) = .done (bs, src) ∧
      feedAll m.meter (bs.map (m.predict true st.base.opt.weights)) fresh = some s ∧ m.meter.updateAll s = some l ∧
      st'.base.agg.sinks = st.base.agg.sinks.map (· ++ [.process hard outs]) ∧
      (∀ id ∈ m.meter.ids, outs[id]? = some (valueOf l id)) ∧ ∀ id ∈ m.testMeter.ids, outs[id]? = some none :=
  (test_row hM hT (run_ready hM hT h hrun) hh hd).2

/-- C88: the same with the second network of hybrid training: the row has the rates of its layer, those of the layer of
the training network are null. -/
theorem C88_hybrid_test (m : Machine R τ B σ) (inv tinv : σ → Prop) (fresh testFresh : σ)
    (hM : Lawful m.meter inv fresh) (hT : Lawful m.testMeter tinv testFresh) (cs : List (Command R))
    (st0 st st' : State R τ σ) (h : Ready m fresh testFresh st0) (hrun : run m cs st0 = .done st)
    (hh : m.hybrid = true) (hd : exec m .test st = .done st') :
    ∃ bs src s l hard outs,
      batches m.testSource m.testIterations (m.testSource.setTesting true st.base.testSrc) = .done (bs, src) ∧
      feedAll m.testMeter (bs.map (m.testPredict true st.base.opt.weights)) testFresh = some s ∧
      m.testMeter.updateAll s = some l ∧
      st'.base.agg.sinks = st.base.agg.sinks.map (· ++ [.process hard outs]) ∧
      (∀ id ∈ m.testMeter.ids, outs[id]? = some (valueOf l id)) ∧ ∀ id ∈ m.meter.ids, outs[id]? = some none :=
  (hybrid_row hM hT (run_ready hM hT h hrun) hh hd).2

/-- C88: training `n` epochs with snapshots after any session: every sink gets `n` rows.  Row `e` has the rates of the
images of epoch `e` alone, as the parameters were when they were shown, if statistics during training are asked for;
otherwise its rates are null. -/
theorem C88_training (m : Machine R τ B σ) (inv tinv : σ → Prop) (fresh testFresh : σ)
    (hM : Lawful m.meter inv fresh) (hT : Lawful m.testMeter tinv testFresh) (cs : List (Command R))
    (st0 st st' : State R τ σ) (h : Ready m fresh testFresh st0) (hrun : run m cs st0 = .done st) (n : Nat)
    (hd : exec m (.train n true) st = .done st') :
    ∃ (S : Nat → Session.State R τ) (ts : Nat → List (Tensor R × Tensor R × Tensor R)) (hard : Nat → Stats.Hard)
      (outs : Nat → List (Stat R)),
      ((S 0).opt = st.base.opt ∧ (S 0).src = st.base.src ∧ (S 0).epoch = st.base.epoch ∧ (S 0).isTesting = false) ∧
      (∀ e, e < n → ∃ t, shown m m.iterations (epochStart m (S e)) = .done (ts e, t) ∧ (S (e + 1)).opt = t.opt ∧
        (S (e + 1)).src = t.src ∧ (S (e + 1)).isTesting = t.isTesting ∧
        (S (e + 1)).epoch = Trainer.u32 (t.epoch + 1) ∧ RowOf m fresh (ts e) (outs e)) ∧
      st'.base.agg.sinks = st.base.agg.sinks.map
        (· ++ (List.range n).map fun e => .process (hard e) (outs e)) :=
  (training_row hM hT (run_ready hM hT h hrun) hd).2

/-- C88: training `n` epochs without snapshots after any session: every sink gets one row; counting starts at the
beginning of the command and goes on through its epochs, and the row has the latest number reported for each rate. -/
theorem C88_no_snapshots (m : Machine R τ B σ) (inv tinv : σ → Prop) (fresh testFresh : σ)
    (hM : Lawful m.meter inv fresh) (hT : Lawful m.testMeter tinv testFresh) (cs : List (Command R))
    (st0 st st' : State R τ σ) (h : Ready m fresh testFresh st0) (hrun : run m cs st0 = .done st) (n : Nat)
    (hd : exec m (.train n false) st = .done st') :
    ∃ (S : Nat → Session.State R τ) (C : Nat → σ) (ts : Nat → List (Tensor R × Tensor R × Tensor R))
      (l : Nat → List (Nat × R)) (hard : Stats.Hard) (outs : List (Stat R)),
      ((S 0).opt = st.base.opt ∧ (S 0).src = st.base.src ∧ (S 0).epoch = st.base.epoch ∧ (S 0).isTesting = false) ∧
      (∀ e, e < n → ∃ t, shown m m.iterations (epochStart m (S e)) = .done (ts e, t) ∧ ∃ agg,
        S (e + 1) = { t with agg := agg, epoch := Trainer.u32 (t.epoch + 1) }) ∧
      st'.base.agg.sinks = st.base.agg.sinks.map (· ++ [.process hard outs]) ∧
      (if m.during then C 0 = fresh ∧
          (∀ e, e < n → feedAll m.meter (ts e) (C e) = some (C (e + 1)) ∧ m.meter.updateAll (C (e + 1)) = some (l e)) ∧
          ∀ id ∈ m.meter.ids, outs[id]? = some (latest (fun e => valueOf (l e) id) n)
        else ∀ id ∈ m.meter.ids, outs[id]? = some none) ∧
      ∀ id ∈ m.testMeter.ids, outs[id]? = some none :=
  (training_total hM hT (run_ready hM hT h hrun) hd).2

/-! ### The layers of the library -/

/-- A connected confusion matrix layer for `n` classes. -/
def Sized (n : Nat) (s : ConfusionMatrix.State R) : Prop :=
  s.classes = n ∧ ∃ a b, s.counters = some (a, b) ∧ a.length = n * n ∧ b.length = n

/-- One that has counted nothing. -/
def unused (n : Nat) : ConfusionMatrix.State R :=
  ⟨n, some (List.replicate (n * n) 0, List.replicate n 0), 0, 0⟩

theorem bumpAt_length {l l' : List R} {i : Nat} {w : R} (h : ConfusionMatrix.bumpAt l i w = some l') :
    l'.length = l.length := by
  unfold ConfusionMatrix.bumpAt at h
  obtain ⟨v, -, h⟩ := Option.bind_eq_some_iff.1 h
  exact wr_length h

theorem confusion_lawful (lowest : R) (n first : Nat) : Lawful (confusion lowest first) (Sized n) (unused n) where
  start := ⟨rfl, _, _, rfl, by simp, by simp⟩
  feed := by
    intro t s s' hs hf
    have hf' : ConfusionMatrix.feedForward lowest false t.1 t.2.1 t.2.2 s = some s' := hf
    unfold ConfusionMatrix.feedForward at hf'
    rw [if_neg (by simp)] at hf'
    refine forLoop_inv_of_eq (fun _ => Sized n) hf' hs fun i s1 s1' _ h1 h2 => ?_
    refine forLoop_inv_of_eq (fun _ => Sized n) h2 h1 fun j s2 s2' _ h3 h4 => ?_
    refine forLoop_inv_of_eq (fun _ => Sized n) h4 h3 fun k s3 s3' _ h5 h6 => ?_
    obtain ⟨a, -, h6⟩ := Option.bind_eq_some_iff.1 h6
    obtain ⟨b, -, h6⟩ := Option.bind_eq_some_iff.1 h6
    obtain ⟨w, -, h6⟩ := Option.bind_eq_some_iff.1 h6
    obtain ⟨e, x, y, e1, e2, e3⟩ := h5
    unfold ConfusionMatrix.count at h6
    rw [e1, Option.bind_some] at h6
    obtain ⟨x', g1, h6⟩ := Option.bind_eq_some_iff.1 h6
    obtain ⟨y', g2, h6⟩ := Option.map_eq_some_iff.1 h6
    subst h6
    exact ⟨e, x', y', rfl, (bumpAt_length g1).trans e2, (bumpAt_length g2).trans e3⟩
  reset := by
    rintro s ⟨e, x, y, e1, e2, e3⟩
    show ConfusionMatrix.reset s = _
    unfold ConfusionMatrix.reset unused
    rw [e1, e]
    dsimp only
    rw [List.map_const', List.map_const', e2, e3]
  ids := by
    intro s l h
    obtain ⟨r, h1, h2⟩ := Option.map_eq_some_iff.1 h
    cases r with
    | none => subst h2; simp
    | some r =>
      subst h2
      simp [confusion]

/-- A binary statistics layer with the given thresholds. -/
def Measuring (vs : List R) (s : BinaryStat.State R) : Prop := s.values = vs ∧ s.counts.length = vs.length

theorem binary_lawful (vs : List R) (first : Nat) :
    Lawful (binary first) (Measuring vs) ⟨vs, List.replicate vs.length ⟨0, 0, 0, 0⟩⟩ where
  start := ⟨rfl, by simp⟩
  feed := by
    intro t s s' hs hf
    have hf' : BinaryStat.feedForward false t.1 t.2.1 t.2.2 s = some s' := hf
    unfold BinaryStat.feedForward at hf'
    rw [if_neg (by simp)] at hf'
    obtain ⟨c, h1, h2⟩ := Option.map_eq_some_iff.1 hf'
    subst h2
    refine ⟨hs.1, ?_⟩
    refine forLoop_inv_of_eq (fun _ (c : List (BinaryStat.Counts R)) => c.length = vs.length) h1 hs.2
      fun i c1 c1' _ g1 g2 => ?_
    obtain ⟨θ, -, g2⟩ := Option.bind_eq_some_iff.1 g2
    refine forLoop_inv_of_eq (fun _ (c : List (BinaryStat.Counts R)) => c.length = vs.length) g2 g1
      fun j c2 c2' _ g3 g4 => ?_
    obtain ⟨_, -, g4⟩ := Option.bind_eq_some_iff.1 g4
    obtain ⟨_, -, g4⟩ := Option.bind_eq_some_iff.1 g4
    obtain ⟨_, -, g4⟩ := Option.bind_eq_some_iff.1 g4
    obtain ⟨_, -, g4⟩ := Option.bind_eq_some_iff.1 g4
    exact (wr_length g4).trans g3
  reset := by
    rintro s ⟨e1, e2⟩
    show some (BinaryStat.reset s) = _
    unfold BinaryStat.reset
    rw [List.map_const', e1, e2]
  ids := by
    intro s l h
    obtain ⟨r, h1, h2⟩ := Option.map_eq_some_iff.1 h
    subst h2
    have key : ∀ us : List (Nat × Option R),
        ((us.filterMap fun u => u.2.map fun v => (u.1, v)).map (·.1)).Sublist (us.map (·.1)) := by
      intro us
      induction us with
      | nil => simp
      | cons u us ih =>
        obtain ⟨k, v⟩ := u
        cases v with
        | none => simpa using ih.cons k
        | some v => simpa using ih
    have hsub := key [(first, r.fpr), (first + 1, r.fnr), (first + 2, r.precision), (first + 3, r.recall),
      (first + 4, r.accuracy), (first + 5, r.f1)]
    refine ⟨hsub.nodup (by simp), ?_⟩
    intro u hu
    have := hsub.mem (List.mem_map_of_mem hu)
    simpa [binary] using this

/-- What a confusion matrix layer is shown, as in C43. -/
def asBatch (t : Tensor R × Tensor R × Tensor R) : Props.StatBatch R := ⟨false, t.1, t.2.1, t.2.2⟩

theorem confusion_feedAll (lowest : R) (first : Nat) : ∀ (ts : List (Tensor R × Tensor R × Tensor R)) (s),
    feedAll (confusion lowest first) ts s = Props.feedAll lowest (ts.map asBatch) s
  | [], _ => rfl
  | t :: ts, s => by
    rw [feedAll, List.map_cons, Props.feedAll]
    show (ConfusionMatrix.feedForward lowest false t.1 t.2.1 t.2.2 s).bind _ = _
    congr 1
    funext s'
    exact confusion_feedAll lowest first ts s'

variable [IsStrictOrderedRing R]

/-- What a confusion matrix layer reports after having been shown `ts`. -/
theorem confusion_row {lowest : R} {n first : Nat} {ts : List (Tensor R × Tensor R × Tensor R)}
    {s : ConfusionMatrix.State R} {l : List (Nat × R)} {outs : List (Stat R)}
    (hfit : ∀ t ∈ ts, Props.StatBatchFits n lowest (asBatch t)) (hw : ∀ t ∈ ts, ∀ v ∈ t.2.2.data, 0 ≤ v)
    (a2 : feedAll (confusion lowest first) ts (unused n) = some s)
    (a3 : (confusion lowest first).updateAll s = some l)
    (a5 : ∀ id ∈ (confusion lowest first).ids, outs[id]? = some (valueOf l id)) :
    ∃ news, List.Forall₂ Props.Shows (ts.map asBatch) news ∧
      (ConfusionMatrix.weight news.flatten < 1 →
        outs[first]? = some none ∧ outs[first + 1]? = some none ∧ outs[first + 2]? = some none) ∧
      (1 ≤ ConfusionMatrix.weight news.flatten →
        outs[first]? = some (some (100 * ConfusionMatrix.correct news.flatten / ConfusionMatrix.weight news.flatten)) ∧
        outs[first + 1]? = some (some (100 * (∑ c ∈ (Finset.range n).filter
            (fun c => 0 < ConfusionMatrix.labelled news.flatten c),
            ConfusionMatrix.entry news.flatten c c / ConfusionMatrix.labelled news.flatten c) /
          (((Finset.range n).filter (fun c => 0 < ConfusionMatrix.labelled news.flatten c)).card : R))) ∧
        outs[first + 2]? = some (some (100 * (∑ t ∈ Finset.range n,
            if 0 < Props.eitherWeight news.flatten t then
              ConfusionMatrix.entry news.flatten t t / Props.eitherWeight news.flatten t else 0) / (n : R)))) := by
  rw [confusion_feedAll] at a2
  have hconn : ConfusionMatrix.connect (⟨1, 1, 1, 1⟩ : Shape) ⟨1, 1, 1, 1⟩ ⟨1, 1, 1, 1⟩
      (unused n : ConfusionMatrix.State R) = some (some (unused n)) := by
    unfold ConfusionMatrix.connect ConfusionMatrix.reset unused
    rw [if_pos ⟨rfl, rfl, rfl⟩]
    simp
  obtain ⟨news, b1, b2, b3⟩ := Props.C43_rates lowest (unused n) (unused n) s _ _ _ _ (by
      intro b hb
      obtain ⟨x, hx, rfl⟩ := List.mem_map.1 hb
      exact hfit x hx) (by
      intro b hb
      obtain ⟨x, hx, rfl⟩ := List.mem_map.1 hb
      exact hw x hx) hconn a2
  refine ⟨news, b1, ?_, ?_⟩
  · intro hlt
    have : l = [] := by
      have a3' : (ConfusionMatrix.updateAll s).map _ = some l := a3
      rw [b2 hlt] at a3'
      exact (Option.some.inj a3').symm
    subst this
    exact ⟨a5 first (by simp [confusion]), a5 (first + 1) (by simp [confusion]), a5 (first + 2) (by simp [confusion])⟩
  · intro hle
    obtain ⟨x, y, z, c1, c2, c3, c4, -⟩ := b3 hle
    have : l = [(first, x), (first + 1, y), (first + 2, z)] := by
      have a3' : (ConfusionMatrix.updateAll s).map _ = some l := a3
      rw [c1] at a3'
      exact (Option.some.inj a3').symm
    subst this
    rw [a5 first (by simp [confusion]), a5 (first + 1) (by simp [confusion]), a5 (first + 2) (by simp [confusion])]
    refine ⟨?_, ?_, ?_⟩
    · rw [← c2]; simp [valueOf]
    · simp only [valueOf]
      rw [c3]
      simp [unused]
    · simp only [valueOf]
      rw [c4]
      simp [unused]

/-- C88 for the confusion matrix layer: after any session, the row of a test shows the overall and average recognition
rates and the intersection over union (as specified for C43) of the pixels of this test, and nothing if their weights
add up to less than one. -/
theorem C88_recognition (m : Machine R τ B (ConfusionMatrix.State R)) (lowest : R) (n first first' : Nat)
    (hm : m.meter = confusion lowest first) (ht : m.testMeter = confusion lowest first') (cs : List (Command R))
    (st0 st st' : State R τ (ConfusionMatrix.State R)) (h : Ready m (unused n) (unused n) st0)
    (hrun : run m cs st0 = .done st) (hh : m.hybrid = false) (hd : exec m .test st = .done st')
    (bs : List B) (src : τ)
    (hb : batches m.source m.testIterations (m.source.setTesting true st.base.src) = .done (bs, src))
    (hfit : ∀ b ∈ bs, Props.StatBatchFits n lowest (asBatch (m.predict true st.base.opt.weights b)))
    (hw : ∀ b ∈ bs, ∀ v ∈ (m.predict true st.base.opt.weights b).2.2.data, 0 ≤ v) :
    ∃ news hard outs,
      List.Forall₂ Props.Shows (bs.map fun b => asBatch (m.predict true st.base.opt.weights b)) news ∧
      st'.base.agg.sinks = st.base.agg.sinks.map (· ++ [.process hard outs]) ∧
      (ConfusionMatrix.weight news.flatten < 1 →
        outs[first]? = some none ∧ outs[first + 1]? = some none ∧ outs[first + 2]? = some none) ∧
      (1 ≤ ConfusionMatrix.weight news.flatten →
        outs[first]? = some (some (100 * ConfusionMatrix.correct news.flatten / ConfusionMatrix.weight news.flatten)) ∧
        outs[first + 1]? = some (some (100 * (∑ c ∈ (Finset.range n).filter
            (fun c => 0 < ConfusionMatrix.labelled news.flatten c),
            ConfusionMatrix.entry news.flatten c c / ConfusionMatrix.labelled news.flatten c) /
          (((Finset.range n).filter (fun c => 0 < ConfusionMatrix.labelled news.flatten c)).card : R))) ∧
        outs[first + 2]? = some (some (100 * (∑ t ∈ Finset.range n,
            if 0 < Props.eitherWeight news.flatten t then
              ConfusionMatrix.entry news.flatten t t / Props.eitherWeight news.flatten t else 0) / (n : R)))) := by
  have hM : Lawful m.meter (Sized n) (unused n) := by rw [hm]; exact confusion_lawful lowest n first
  have hT : Lawful m.testMeter (Sized n) (unused n) := by rw [ht]; exact confusion_lawful lowest n first'
  obtain ⟨bs', src', s, l, hard, outs, a1, a2, a3, a4, a5, -⟩ := C88_test m _ _ _ _ hM hT cs st0 st st' h hrun hh hd
  rw [hb] at a1
  obtain ⟨rfl, rfl⟩ := Prod.mk.inj (Outcome.done.inj a1)
  rw [hm] at a2 a3 a5
  obtain ⟨news, b1, b2, b3⟩ := confusion_row (by
      intro b hb
      obtain ⟨x, hx, rfl⟩ := List.mem_map.1 hb
      exact hfit x hx) (by
      intro b hb
      obtain ⟨x, hx, rfl⟩ := List.mem_map.1 hb
      exact hw x hx) a2 a3 a5
  rw [List.map_map] at b1
  exact ⟨news, hard, outs, b1, a4, b2, b3⟩

/-- C88 for the confusion matrix layer of the second network of hybrid training. -/
theorem C88_hybrid_recognition (m : Machine R τ B (ConfusionMatrix.State R)) (lowest : R) (n first first' : Nat)
    (hm : m.meter = confusion lowest first) (ht : m.testMeter = confusion lowest first') (cs : List (Command R))
    (st0 st st' : State R τ (ConfusionMatrix.State R)) (h : Ready m (unused n) (unused n) st0)
    (hrun : run m cs st0 = .done st) (hh : m.hybrid = true) (hd : exec m .test st = .done st')
    (bs : List B) (src : τ)
    (hb : batches m.testSource m.testIterations (m.testSource.setTesting true st.base.testSrc) = .done (bs, src))
    (hfit : ∀ b ∈ bs, Props.StatBatchFits n lowest (asBatch (m.testPredict true st.base.opt.weights b)))
    (hw : ∀ b ∈ bs, ∀ v ∈ (m.testPredict true st.base.opt.weights b).2.2.data, 0 ≤ v) :
    ∃ news hard outs,
      List.Forall₂ Props.Shows (bs.map fun b => asBatch (m.testPredict true st.base.opt.weights b)) news ∧
      st'.base.agg.sinks = st.base.agg.sinks.map (· ++ [.process hard outs]) ∧
      (ConfusionMatrix.weight news.flatten < 1 →
        outs[first']? = some none ∧ outs[first' + 1]? = some none ∧ outs[first' + 2]? = some none) ∧
      (1 ≤ ConfusionMatrix.weight news.flatten →
        outs[first']? = some (some (100 * ConfusionMatrix.correct news.flatten / ConfusionMatrix.weight news.flatten)) ∧
        outs[first' + 1]? = some (some (100 * (∑ c ∈ (Finset.range n).filter
            (fun c => 0 < ConfusionMatrix.labelled news.flatten c),
            ConfusionMatrix.entry news.flatten c c / ConfusionMatrix.labelled news.flatten c) /
          (((Finset.range n).filter (fun c => 0 < ConfusionMatrix.labelled news.flatten c)).card : R))) ∧
        outs[first' + 2]? = some (some (100 * (∑ t ∈ Finset.range n,
            if 0 < Props.eitherWeight news.flatten t then
              ConfusionMatrix.entry news.flatten t t / Props.eitherWeight news.flatten t else 0) / (n : R)))) := by
  have hM : Lawful m.meter (Sized n) (unused n) := by rw [hm]; exact confusion_lawful lowest n first
  have hT : Lawful m.testMeter (Sized n) (unused n) := by rw [ht]; exact confusion_lawful lowest n first'
  obtain ⟨bs', src', s, l, hard, outs, a1, a2, a3, a4, a5, -⟩ :=
    C88_hybrid_test m _ _ _ _ hM hT cs st0 st st' h hrun hh hd
  rw [hb] at a1
  obtain ⟨rfl, rfl⟩ := Prod.mk.inj (Outcome.done.inj a1)
  rw [ht] at a2 a3 a5
  obtain ⟨news, b1, b2, b3⟩ := confusion_row (by
      intro b hb
      obtain ⟨x, hx, rfl⟩ := List.mem_map.1 hb
      exact hfit x hx) (by
      intro b hb
      obtain ⟨x, hx, rfl⟩ := List.mem_map.1 hb
      exact hw x hx) a2 a3 a5
  rw [List.map_map] at b1
  exact ⟨news, hard, outs, b1, a4, b2, b3⟩

/-- C88: a test without errors (in the terms of `C88_recognition`): both recognition rates are 100.  The average
intersection over union is only that if every class occurs: otherwise it is 100 times the part of the classes that do. -/
theorem C88_perfect_partial (n : Nat) (obs : List (ConfusionMatrix.Obs R)) (hok : ∀ o ∈ obs, o.pred = o.label)
    (hn : ∀ o ∈ obs, o.label < n) (hw : ∀ o ∈ obs, 0 ≤ o.weight) (h1 : 1 ≤ ConfusionMatrix.weight obs) :
    100 * ConfusionMatrix.correct obs / ConfusionMatrix.weight obs = 100 ∧
    100 * (∑ c ∈ (Finset.range n).filter (fun c => 0 < ConfusionMatrix.labelled obs c),
        ConfusionMatrix.entry obs c c / ConfusionMatrix.labelled obs c) /
      (((Finset.range n).filter (fun c => 0 < ConfusionMatrix.labelled obs c)).card : R) = 100 ∧
    100 * (∑ t ∈ Finset.range n, if 0 < Props.eitherWeight obs t then
        ConfusionMatrix.entry obs t t / Props.eitherWeight obs t else 0) / (n : R) =
      100 * (((Finset.range n).filter (fun c => 0 < ConfusionMatrix.labelled obs c)).card : R) / (n : R) := by
  have e1 : ConfusionMatrix.correct obs = ConfusionMatrix.weight obs := by
    unfold ConfusionMatrix.correct ConfusionMatrix.weight
    refine congrArg List.sum (List.map_congr_left fun o ho => ?_)
    rw [if_pos (hok o ho)]
  have e2 : ∀ c, ConfusionMatrix.entry obs c c = ConfusionMatrix.labelled obs c := by
    intro c
    unfold ConfusionMatrix.entry ConfusionMatrix.labelled
    refine congrArg List.sum (List.map_congr_left fun o ho => ?_)
    simp only [hok o ho, and_self]
  have e3 : ∀ c, Props.eitherWeight obs c = ConfusionMatrix.labelled obs c := by
    intro c
    unfold Props.eitherWeight ConfusionMatrix.labelled
    refine congrArg List.sum (List.map_congr_left fun o ho => ?_)
    simp only [hok o ho, or_self]
  have hpos : 0 < ConfusionMatrix.weight obs := lt_of_lt_of_le one_pos h1
  obtain ⟨_, _, _, t4⟩ := ConfusionMatrix.sums n obs (fun o ho => ⟨by rw [hok o ho]; exact hn o ho, hn o ho⟩)
  have hcard : 0 < ((Finset.range n).filter (fun c => 0 < ConfusionMatrix.labelled obs c)).card := by
    rw [Finset.card_pos]
    by_contra hempty
    rw [Finset.not_nonempty_iff_eq_empty, Finset.filter_eq_empty_iff] at hempty
    rw [Finset.sum_eq_zero] at t4
    · rw [← t4] at hpos; exact lt_irrefl _ hpos
    · intro c hc
      refine le_antisymm (not_lt.1 (hempty hc)) ?_
      rw [← e2]
      exact ConfusionMatrix.entry_nonneg hw c c
  have hcard' : (0 : R) < (((Finset.range n).filter (fun c => 0 < ConfusionMatrix.labelled obs c)).card : R) := by
    exact_mod_cast hcard
  refine ⟨?_, ?_, ?_⟩
  · rw [e1, mul_div_assoc, div_self hpos.ne', mul_one]
  · rw [Finset.sum_congr rfl (g := fun _ => (1 : R)) fun c hc => by
      rw [e2, div_self (Finset.mem_filter.1 hc).2.ne']]
    rw [Finset.sum_const, nsmul_eq_mul, mul_one, mul_div_assoc, div_self hcard'.ne', mul_one]
  · congr 2
    rw [Finset.card_filter, Nat.cast_sum]
    refine Finset.sum_congr rfl fun c _ => ?_
    rw [e2, e3]
    split
    · rename_i h
      rw [div_self h.ne', Nat.cast_one]
    · rw [Nat.cast_zero]

/-! ### A session -/

/-- One pixel, two classes, labelled 0 with weight 2; the only parameter decreases by 1 with each epoch and class 1 is
predicted once it is below -3/2. -/
def pixelMachine (hybrid : Bool) : Machine ℚ Unit Unit (ConfusionMatrix.State ℚ) where
  toMachine := Props.oneWeight hybrid 0
  predict := fun _ w _ =>
    (⟨1, 1, 1, 2, [(Trainer.at3 w 0 0 0).getD 0, -3 / 2]⟩, ⟨1, 1, 1, 2, [1, 0]⟩, ⟨1, 1, 1, 1, [2]⟩)
  testPredict := fun _ w _ =>
    (⟨1, 1, 1, 2, [(Trainer.at3 w 0 0 0).getD 0, -3 / 2]⟩, ⟨1, 1, 1, 2, [1, 0]⟩, ⟨1, 1, 1, 1, [2]⟩)
  during := true
  meter := confusion (-1000) 1
  testMeter := confusion (-1000) 4

def pixelState : State ℚ Unit (ConfusionMatrix.State ℚ) where
  base := { Props.oneState with agg :=
    { phase := .stopped, stats := [none, none, none, none, none, none, none]
      descs := [lossDesc, rateDesc, rateDesc, rateDesc, rateDesc, rateDesc, rateDesc], sinks := [[]] } }
  counts := unused 2
  testCounts := unused 2
  disabled := false

/-- The rates in the rows of the first sink. -/
def ratesAfter {σ : Type _} : Outcome (State ℚ Unit σ) → Option (List (List (Stat ℚ)))
  | .done st => st.base.agg.sinks.head?.map fun l => l.filterMap fun
    | .process _ outs => some (outs.drop 1)
    | _ => none
  | _ => none

theorem pixel_ready (hybrid : Bool) : Ready (pixelMachine hybrid) (unused 2) (unused 2) pixelState :=
  ⟨⟨rfl, by cases hybrid <;> decide, by
    intro id hid
    have : id = 1 ∨ id = 2 ∨ id = 3 ∨ id = 4 ∨ id = 5 ∨ id = 6 := by
      simpa [pixelMachine, confusion] using hid
    rcases this with rfl | rfl | rfl | rfl | rfl | rfl <;> rfl⟩, rfl, rfl, rfl, rfl, by
    intro id hid
    have : id = 1 ∨ id = 2 ∨ id = 3 ∨ id = 4 ∨ id = 5 ∨ id = 6 := by
      simpa [pixelMachine, confusion] using hid
    rcases this with rfl | rfl | rfl | rfl | rfl | rfl <;> rfl⟩

/-- Three epochs: right, right, wrong; the test afterwards is wrong. -/
example : ratesAfter (run (pixelMachine false) [.train 3 true, .test] pixelState) = some
    [[some 100, some 100, some 50, none, none, none], [some 100, some 100, some 50, none, none, none],
      [some 0, some 0, some 0, none, none, none], [some 0, some 0, some 0, none, none, none]] := by
  decide +kernel

/-- C88 is false for the intersection over union: a test without errors is reported with 50 of 100 if only one of two
classes occurs. -/
theorem C88_absent_class :
    ratesAfter (run (pixelMachine false) [.test] pixelState) = some
      [[some 100, some 100, some 50, none, none, none]] := by
  decide +kernel

/-- In one row: two of three. -/
example : ratesAfter (run (pixelMachine false) [.test, .train 3 false] pixelState) = some
    [[some 100, some 100, some 50, none, none, none],
      [some (200 / 3), some (200 / 3), some (100 / 3), none, none, none]] := by
  decide +kernel

/-- With a second network. -/
example : ratesAfter (run (pixelMachine true) [.train 2 true, .test] pixelState) = some
    [[some 100, some 100, some 50, none, none, none], [some 100, some 100, some 50, none, none, none],
      [none, none, none, some 0, some 0, some 0]] := by
  decide +kernel

end CN24.Rates
