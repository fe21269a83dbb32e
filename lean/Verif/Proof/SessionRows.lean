import Verif.Proof.Session

/-! What a session writes to its sinks. -/

namespace CN24.Session
open CN24

/-- The statistics after `k` iterations. -/
structure Grown {S V : Type _} (k : Nat) (a a' : Stats.Agg S V) : Prop where
  ok : AggOk a'
  phase : a'.phase = .recording
  sinks : a'.sinks = a.sinks
  descs : a'.descs = a.descs
  hard : a'.hard = { a.hard with iterations := a.hard.iterations + k }

theorem Grown.refl {S V : Type _} {a : Stats.Agg S V} (h : AggOk a) (hp : a.phase = .recording) : Grown 0 a a :=
  ⟨h, hp, rfl, rfl, rfl⟩

theorem Grown.step {S V : Type _} {k : Nat} {a b c : Stats.Agg S V} (h : Grown k a b) (h' : Grown 1 b c) :
    Grown (k + 1) a c :=
  ⟨h'.ok, h'.phase, h'.sinks.trans h.sinks, h'.descs.trans h.descs, by rw [h'.hard, h.hard]; rfl⟩

variable {R τ B : Type _} [Field R] [LinearOrder R] {m : Machine R τ B}

theorem report_grown {v : R} {st st' : State R τ} (h : AggOk st.agg) (hp : st.agg.phase = .recording)
    (hd : report m v st = .done st') : Grown 1 st.agg st'.agg ∧ (∃ agg, st' = { st with agg := agg }) ∧
      ∀ d x, st.agg.descs[m.lossId]? = some d → st.agg.stats[m.lossId]? = some x →
          st'.agg.stats[m.lossId]? = some (d.updateF x v) := by
  obtain ⟨agg, e1, e2, e3, e4, e5, e6⟩ := report_ok m v st h
  rw [e1] at hd
  cases hd
  exact ⟨⟨e2, e3.trans hp, e4, e5, (e6 hp).1⟩, ⟨agg, rfl⟩, (e6 hp).2⟩

theorem iteration_grown {i : Nat} {st st' : State R τ} (h : AggOk st.agg) (hp : st.agg.phase = .recording)
    (hd : iteration m i st = .done st') : Grown 1 st.agg st'.agg ∧ st'.epoch = st.epoch := by
  obtain ⟨x, p1, p2⟩ := bind_eq_done hd
  obtain ⟨opt, p3, p4⟩ := bind_eq_done p2
  obtain ⟨g, ⟨agg, rfl⟩, _⟩ := report_grown (st := { st with src := x.1, opt := opt }) h hp p4
  exact ⟨g, rfl⟩

theorem epoch_grown {st st' : State R τ} (h : AggOk st.agg) (hp : st.agg.phase = .recording)
    (hd : epoch m st = .done st') :
    Grown m.iterations { st.agg with hard := { st.agg.hard with epoch := st.epoch } } st'.agg ∧
      st'.epoch = Trainer.u32 (st.epoch + 1) := by
  obtain ⟨s1, p1, p2⟩ := bind_eq_done hd
  cases p2
  have key := fun hp h0 => forO_keep (P := fun k (s : State R τ) =>
      Grown k { st.agg with hard := { st.agg.hard with epoch := st.epoch } } s.agg ∧ s.epoch = st.epoch)
    (f := iteration m) (n := m.iterations) hp h0 p1
  obtain ⟨k1, k2⟩ := key (by
    rintro i _ s s' ⟨a1, a2⟩ hs
    obtain ⟨b1, b2⟩ := iteration_grown a1.ok a1.phase hs
    exact ⟨a1.step b1, b2.trans a2⟩) ⟨Grown.refl h hp, rfl⟩
  exact ⟨k1, by show Trainer.u32 _ = _; rw [k2]⟩

/-- An epoch with a snapshot. -/
theorem trainStep_row {st st' : State R τ} (h : AggOk st.agg) (hp : st.agg.phase = .recording)
    (hd : trainStep m true st = .done st') :
    AggOk st'.agg ∧ st'.agg.phase = .recording ∧ st'.agg.descs = st.agg.descs ∧
      st'.epoch = Trainer.u32 (st.epoch + 1) ∧
      st'.agg.hard = { st.agg.hard with secondsElapsed := 0, iterations := 0, weights := m.weightCount, epoch := st.epoch } ∧
      ∃ sec outs, st'.agg.sinks = st.agg.sinks.map (· ++ [.process { st.agg.hard with
        secondsElapsed := sec, iterations := st.agg.hard.iterations + m.iterations, epoch := st.epoch } outs]) := by
  obtain ⟨s1, p1, p2⟩ := bind_eq_done hd
  obtain ⟨g, e⟩ := epoch_grown h hp p1
  obtain ⟨s2, q1, q2⟩ := bind_eq_done p2
  cases q2
  obtain ⟨a', outs, sec, k1, k2, k3, k4, k5, k6, _⟩ := snapshot_ok g.ok g.phase (m.clock s1.ticks) (m.clock (s1.ticks + 1))
  unfold snapshot at q1
  rw [k1, Outcome.ofOption_some, Outcome.bind_done] at q1
  cases q1
  refine ⟨k2, k3, k4.trans g.descs, e, ?_, sec, outs, ?_⟩
  · show { a'.hard with weights := m.weightCount } = _
    rw [k5, g.hard]
  · show a'.sinks = _
    rw [k6, g.hard, g.sinks]

theorem trainStep_plain {st st' : State R τ} (h : AggOk st.agg) (hp : st.agg.phase = .recording)
    (hd : trainStep m false st = .done st') :
    Grown m.iterations { st.agg with hard := { st.agg.hard with epoch := st.epoch } } st'.agg ∧
      st'.epoch = Trainer.u32 (st.epoch + 1) := by
  obtain ⟨s1, p1, p2⟩ := bind_eq_done hd
  cases p2
  exact epoch_grown h hp p1

/-- What a row says. -/
def row : Stats.SinkEvent (Stat R) → Option (Bool × Nat × Nat)
  | .process h _ => some (h.isTraining, h.epoch, h.iterations)
  | _ => none

/-- The rows written to a sink. -/
def rows (l : List (Stats.SinkEvent (Stat R))) : List (Bool × Nat × Nat) := l.filterMap row

/-- The sinks got these rows. -/
def Wrote (a a' : Stats.Agg (Stat R) R) (l : List (Bool × Nat × Nat)) : Prop :=
  a'.sinks.map rows = a.sinks.map fun s => rows s ++ l

theorem Wrote.refl (a : Stats.Agg (Stat R) R) : Wrote a a [] := by simp [Wrote]

theorem Wrote.trans {a b c : Stats.Agg (Stat R) R} {l l' : List (Bool × Nat × Nat)} (h : Wrote a b l) (h' : Wrote b c l') :
    Wrote a c (l ++ l') := by
  unfold Wrote at *
  rw [h', show (b.sinks.map fun s => rows s ++ l') = (b.sinks.map rows).map (· ++ l') by
    rw [List.map_map]; rfl, h, List.map_map]
  apply List.map_congr_left
  intro s _
  simp

theorem Wrote.tell {a a' : Stats.Agg (Stat R) R} {h : Stats.Hard} {outs : List (Stat R)}
    (e : a'.sinks = a.sinks.map (· ++ [.process h outs])) : Wrote a a' [(h.isTraining, h.epoch, h.iterations)] := by
  unfold Wrote
  rw [e, List.map_map]
  apply List.map_congr_left
  intro s _
  simp [rows, row]

theorem u32_add (a b : Nat) : Trainer.u32 (Trainer.u32 a + b) = Trainer.u32 (a + b) := by
  unfold Trainer.u32
  rw [Nat.mod_add_mod]

/-- The epochs of a command with snapshots. -/
theorem train_rows (n : Nat) {st st' : State R τ} (h : AggOk st.agg) (hp : st.agg.phase = .recording)
    (he : st.epoch < 2 ^ 32) (hz : st.agg.hard.iterations = 0)
    (hd : forO n (fun _ => trainStep m true) st = .done st') :
    AggOk st'.agg ∧ st'.agg.phase = .recording ∧ st'.agg.descs = st.agg.descs ∧
      st'.epoch = Trainer.u32 (st.epoch + n) ∧ st'.agg.hard.isTraining = st.agg.hard.isTraining ∧
      st'.agg.hard.iterations = 0 ∧
      st'.agg.hard.epoch = (if n = 0 then st.agg.hard.epoch else Trainer.u32 (st.epoch + n - 1)) ∧
      Wrote st.agg st'.agg ((List.range n).map fun i =>
        (st.agg.hard.isTraining, Trainer.u32 (st.epoch + i), m.iterations)) := by
  induction n generalizing st' with
  | zero =>
    cases hd
    exact ⟨h, hp, rfl, by rw [Nat.add_zero, Trainer.u32, Nat.mod_eq_of_lt he], rfl, hz, by simp, by simpa using Wrote.refl _⟩
  | succ n ih =>
    obtain ⟨s1, p1, p2⟩ := bind_eq_done hd
    obtain ⟨a1, a2, a3, a4, a5, a6, a7, a8⟩ := ih p1
    obtain ⟨b1, b2, b3, b4, b5, sec, outs, b6⟩ := trainStep_row a1 a2 p2
    refine ⟨b1, b2, b3.trans a3, ?_, ?_, ?_, ?_, ?_⟩
    · rw [b4, a4, u32_add]; rfl
    · rw [b5]; exact a5
    · rw [b5]
    · rw [b5, if_neg (by omega)]; exact a4
    · rw [List.range_succ, List.map_append]
      refine a8.trans ?_
      have := Wrote.tell b6
      dsimp only at this
      rw [a6, a5, a4, Nat.zero_add] at this
      exact this

theorem train_plain (n : Nat) {st st' : State R τ} (h : AggOk st.agg) (hp : st.agg.phase = .recording)
    (he : st.epoch < 2 ^ 32)
    (hd : forO n (fun _ => trainStep m false) st = .done st') :
    AggOk st'.agg ∧ st'.agg.phase = .recording ∧ st'.agg.descs = st.agg.descs ∧
      st'.epoch = Trainer.u32 (st.epoch + n) ∧ st'.agg.hard.isTraining = st.agg.hard.isTraining ∧
      st'.agg.hard.iterations = st.agg.hard.iterations + n * m.iterations ∧
      st'.agg.hard.epoch = (if n = 0 then st.agg.hard.epoch else Trainer.u32 (st.epoch + n - 1)) ∧
      st'.agg.sinks = st.agg.sinks := by
  induction n generalizing st' with
  | zero =>
    cases hd
    exact ⟨h, hp, rfl, by rw [Nat.add_zero, Trainer.u32, Nat.mod_eq_of_lt he], rfl, by simp, by simp, rfl⟩
  | succ n ih =>
    obtain ⟨s1, p1, p2⟩ := bind_eq_done hd
    obtain ⟨a1, a2, a3, a4, a5, a6, a7, a8⟩ := ih p1
    obtain ⟨g, e⟩ := trainStep_plain a1 a2 p2
    refine ⟨g.ok, g.phase, g.descs.trans a3, ?_, ?_, ?_, ?_, g.sinks.trans a8⟩
    · rw [e, a4, u32_add]; rfl
    · rw [g.hard]; exact a5
    · rw [g.hard]; dsimp only; rw [a6, Nat.add_assoc, Nat.succ_mul]
    · rw [g.hard, if_neg (by omega)]; exact a4

/-- The end of a command, with what is written. -/
theorem finish_rows (b : Bool) {st st' : State R τ} (h : AggOk st.agg) (hp : st.agg.phase = .recording)
    (hd : (generateIf b (stopRecording m st)).bind (onAgg Stats.Agg.reset) = .done st') :
    AggOk st'.agg ∧ st'.agg.phase = .stopped ∧ st'.agg.descs = st.agg.descs ∧ st'.epoch = st.epoch ∧
      st'.agg.hard.iterations = 0 ∧ st'.agg.hard.epoch = st.agg.hard.epoch ∧
      Wrote st.agg st'.agg (if b then [(st.agg.hard.isTraining, st.agg.hard.epoch, st.agg.hard.iterations)] else []) ∧
      (b = true → ∃ hard outs, hard.iterations = st.agg.hard.iterations ∧
        st'.agg.sinks = st.agg.sinks.map (· ++ [.process hard outs]) ∧
        ∀ (k : Nat) d x, st.agg.descs[k]? = some d → st.agg.stats[k]? = some x →
          outs[k]? = some (d.outputF hard x)) := by
  have e1 : (st.agg.stopRecording (m.clock st.ticks)) = { st.agg with
      hard := { st.agg.hard with secondsElapsed := st.agg.hard.secondsElapsed + (m.clock st.ticks - st.agg.startTime) },
      phase := .stopped } := by
    unfold Stats.Agg.stopRecording
    rw [if_neg (by simp [hp])]
  have a0 : (stopRecording m st).agg = { st.agg with
      hard := { st.agg.hard with secondsElapsed := st.agg.hard.secondsElapsed + (m.clock st.ticks - st.agg.startTime) },
      phase := .stopped } := e1
  have a1 : AggOk (stopRecording m st).agg := by rw [a0]; exact h
  have a2 : (stopRecording m st).agg.phase = .stopped := by rw [a0]
  obtain ⟨s1, p1, p2⟩ := bind_eq_done hd
  cases b
  · cases p1
    obtain ⟨stats, r1, r2, r3⟩ := reset_ok a1 a2
    unfold onAgg at p2
    rw [r1, Outcome.ofOption_some, Outcome.bind_done] at p2
    cases p2
    refine ⟨r2, a2, ?_, rfl, rfl, ?_, ?_, fun e => by cases e⟩
    · show (stopRecording m st).agg.descs = _; rw [a0]
    · show (stopRecording m st).agg.hard.epoch = _; rw [a0]
    · show Wrote st.agg { (stopRecording m st).agg with hard := _, stats := stats } []
      rw [a0]
      exact Wrote.refl st.agg
  · obtain ⟨outs, g1, g2⟩ := generate_ok a1
    have p1' : onAgg Stats.Agg.generate (stopRecording m st) = .done s1 := p1
    unfold onAgg at p1' p2
    rw [g1, Outcome.ofOption_some, Outcome.bind_done] at p1'
    cases p1'
    obtain ⟨stats, r1, r2, r3⟩ := reset_ok
      (a := (stopRecording m st).agg.tell (.process (stopRecording m st).agg.hard outs)) a1 a2
    rw [r1, Outcome.ofOption_some, Outcome.bind_done] at p2
    cases p2
    have hs : ((stopRecording m st).agg.tell (.process (stopRecording m st).agg.hard outs)).sinks =
        st.agg.sinks.map (· ++ [.process { st.agg.hard with
          secondsElapsed := st.agg.hard.secondsElapsed + (m.clock st.ticks - st.agg.startTime) } outs]) := by
      rw [a0]; rfl
    refine ⟨r2, a2, ?_, rfl, rfl, ?_, ?_, fun _ => ⟨_, outs, ?_, hs, ?_⟩⟩
    · show (stopRecording m st).agg.descs = _; rw [a0]
    · show (stopRecording m st).agg.hard.epoch = _; rw [a0]
    · have w := Wrote.tell (a := st.agg)
        (a' := (stopRecording m st).agg.tell (.process (stopRecording m st).agg.hard outs)) hs
      exact w
    · rfl
    · intro k d x hd hx
      have := g2 k d x (by rw [a0]; exact hd) (by rw [a0]; exact hx)
      rw [a0] at this
      exact this

/-- Batches one after the other. -/
def batches (s : Source τ B) : Nat → τ → Outcome (List B × τ)
  | 0, t => .done ([], t)
  | n + 1, t => (batches s n t).bind fun x => (s.forward x.2).bind fun b => .done (x.1 ++ [b.1], b.2)

/-- The loss of a test: the state before, and the batches. -/
theorem test_rows {st st' : State R τ} (h : AggOk st.agg) (hp : st.agg.phase = .recording)
    (hd : test m st = .done st') :
    Grown m.testIterations { st.agg with hard := { st.agg.hard with weights := m.weightCount, isTraining := false } }
      st'.agg ∧ st'.epoch = st.epoch ∧
      ∃ bs, bs.length = m.testIterations ∧
        (if m.hybrid then ∃ t, batches m.testSource m.testIterations (m.testSource.setTesting true st.testSrc) = .done (bs, t)
          else ∃ t, batches m.source m.testIterations (m.source.setTesting true st.src) = .done (bs, t)) ∧
        (st.agg.descs[m.lossId]? = some lossDesc → st.agg.stats[m.lossId]? = some none →
          ∃ x, st'.agg.stats[m.lossId]? = some x ∧ x.getD 0 =
            (bs.map fun b => if m.hybrid then m.testLoss true st.opt.weights b / (m.testSampleCount : R)
              else m.loss true st.opt.weights b / (m.cfg.sampleCount : R)).sum) := by
  unfold test at hd
  dsimp only at hd
  cases hh : m.hybrid
  · rw [hh, if_neg (by simp)] at hd
    obtain ⟨s1, p1, p2⟩ := bind_eq_done hd
    cases p2
    have key := fun hp h0 => forO_keep (P := fun k (s : State R τ) =>
        Grown k { st.agg with hard := { st.agg.hard with weights := m.weightCount, isTraining := false } } s.agg ∧
        s.epoch = st.epoch ∧ s.opt = st.opt ∧ s.isTesting = true ∧ ∃ bs, bs.length = k ∧
        batches m.source k (m.source.setTesting true st.src) = .done (bs, s.src) ∧
        (st.agg.descs[m.lossId]? = some lossDesc → st.agg.stats[m.lossId]? = some none →
          ∃ x, s.agg.stats[m.lossId]? = some x ∧ x.getD 0 =
            (bs.map fun b => m.loss true st.opt.weights b / (m.cfg.sampleCount : R)).sum))
      (f := fun _ => testIteration m) (n := m.testIterations) hp h0 p1
    obtain ⟨k1, k2, k3, k4, bs, k5, k6, k7⟩ := key (by
      rintro i _ s s' ⟨a1, a2, a3, a4, bs, a5, a6, a7⟩ hs
      obtain ⟨b, b1, b2⟩ := bind_eq_done hs
      obtain ⟨g, ⟨agg, rfl⟩, g3⟩ := report_grown (st := { s with src := b.2 }) a1.ok a1.phase b2
      refine ⟨a1.step g, a2, a3, a4, bs ++ [b.1], by simp [a5], ?_, ?_⟩
      · rw [batches, a6, Outcome.bind_done, b1, Outcome.bind_done]
      · intro q1 q2
        obtain ⟨x, q3, q4⟩ := a7 q1 q2
        refine ⟨_, g3 lossDesc x (by rw [a1.descs]; exact q1) q3, ?_⟩
        simp [lossDesc, q4, a3, a4])
      ⟨Grown.refl h hp, rfl, rfl, rfl, [], rfl, rfl, fun _ q => ⟨none, q, by simp⟩⟩
    refine ⟨k1, k2, bs, k5, ?_, ?_⟩
    · rw [if_neg (by simp)]; exact ⟨_, k6⟩
    · simpa using k7
  · rw [hh, if_pos rfl] at hd
    obtain ⟨s1, p1, p2⟩ := bind_eq_done hd
    cases p2
    have key := fun hp h0 => forO_keep (P := fun k (s : State R τ) =>
        Grown k { st.agg with hard := { st.agg.hard with weights := m.weightCount, isTraining := false } } s.agg ∧
        s.epoch = st.epoch ∧ s.opt = st.opt ∧ ∃ bs, bs.length = k ∧
        batches m.testSource k (m.testSource.setTesting true st.testSrc) = .done (bs, s.testSrc) ∧
        (st.agg.descs[m.lossId]? = some lossDesc → st.agg.stats[m.lossId]? = some none →
          ∃ x, s.agg.stats[m.lossId]? = some x ∧ x.getD 0 =
            (bs.map fun b => m.testLoss true st.opt.weights b / (m.testSampleCount : R)).sum))
      (f := fun _ => hybridIteration m) (n := m.testIterations) hp h0 p1
    obtain ⟨k1, k2, k3, bs, k5, k6, k7⟩ := key (by
      rintro i _ s s' ⟨a1, a2, a3, bs, a5, a6, a7⟩ hs
      obtain ⟨b, b1, b2⟩ := bind_eq_done hs
      obtain ⟨g, ⟨agg, rfl⟩, g3⟩ := report_grown (st := { s with testSrc := b.2 }) a1.ok a1.phase b2
      refine ⟨a1.step g, a2, a3, bs ++ [b.1], by simp [a5], ?_, ?_⟩
      · rw [batches, a6, Outcome.bind_done, b1, Outcome.bind_done]
      · intro q1 q2
        obtain ⟨x, q3, q4⟩ := a7 q1 q2
        refine ⟨_, g3 lossDesc x (by rw [a1.descs]; exact q1) q3, ?_⟩
        simp [lossDesc, q4, a3])
      ⟨Grown.refl h hp, rfl, rfl, [], rfl, rfl, fun _ q => ⟨none, q, by simp⟩⟩
    refine ⟨k1, k2, bs, k5, ?_, ?_⟩
    · rw [if_pos rfl]; exact ⟨_, k6⟩
    · simpa using k7

end CN24.Session
