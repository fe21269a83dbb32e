import Verif.Model.Session
import Verif.Proof.Trainer

/-! Lemmas about sessions. -/

namespace CN24.Session
open CN24

section loops

theorem bind_eq_done {α β : Type _} {o : Outcome α} {f : α → Outcome β} {b : β} (h : o.bind f = .done b) :
    ∃ a, o = .done a ∧ f a = .done b := by
  cases o with
  | done a => exact ⟨a, rfl, h⟩
  | fatal => cases h
  | undefined => cases h

/-- Two runs of a loop side by side. -/
theorem forO_sim {α : Type _} {P : α → α → Prop} {f : Nat → α → Outcome α} :
    ∀ {n : Nat} {s u s' : α}, (∀ i, i < n → ∀ s u s', P s u → f i s = .done s' → ∃ u', f i u = .done u' ∧ P s' u') →
      P s u → forO n f s = .done s' → ∃ u', forO n f u = .done u' ∧ P s' u'
  | 0, s, u, s', _, hp, h => by
    cases h
    exact ⟨u, rfl, hp⟩
  | n + 1, s, u, s', hf, hp, h => by
    obtain ⟨s1, h1, h2⟩ := bind_eq_done h
    obtain ⟨u1, k1, k2⟩ := forO_sim (fun i hi => hf i (by omega)) hp h1
    obtain ⟨u2, k3, k4⟩ := hf n (by omega) s1 u1 s' k2 h2
    exact ⟨u2, by rw [forO, k1]; exact k3, k4⟩

/-- An invariant of a loop that ends. -/
theorem forO_keep {α : Type _} {P : Nat → α → Prop} {f : Nat → α → Outcome α} :
    ∀ {n : Nat} {s s' : α}, (∀ i, i < n → ∀ s s', P i s → f i s = .done s' → P (i + 1) s') →
      P 0 s → forO n f s = .done s' → P n s'
  | 0, s, s', _, hp, h => by
    cases h
    exact hp
  | n + 1, s, s', hf, hp, h => by
    obtain ⟨s1, h1, h2⟩ := bind_eq_done h
    exact hf n (by omega) s1 s' (forO_keep (fun i hi => hf i (by omega)) hp h1) h2

theorem forO_add {α : Type _} (f : α → Outcome α) (a : Nat) (s : α) :
    ∀ b, forO (a + b) (fun _ => f) s = (forO a (fun _ => f) s).bind (forO b fun _ => f)
  | 0 => by cases h : forO a (fun _ => f) s <;> simp [forO, h]
  | b + 1 => by
    rw [← Nat.add_assoc, forO, forO_add f a s b]
    cases forO a (fun _ => f) s <;> simp [forO]

end loops

section statistics
variable {S V : Type _}

/-- Every registered statistic has its value. -/
def AggOk (a : Stats.Agg S V) : Prop := a.stats.length = a.descs.length

theorem update_ok {a : Stats.Agg S V} (h : AggOk a) (id : Nat) (v : V) :
    ∃ stats, a.update id v = some { a with stats := stats } ∧ stats.length = a.descs.length ∧
      (a.phase = .recording → ∀ d x, a.descs[id]? = some d → a.stats[id]? = some x →
        stats[id]? = some (d.updateF x v)) := by
  unfold Stats.Agg.update
  by_cases hp : a.phase ≠ .recording
  · rw [if_pos hp]
    exact ⟨a.stats, rfl, h, fun e => absurd e hp⟩
  · rw [if_neg hp]
    by_cases hid : id < a.descs.length
    · have h' : id < a.stats.length := by rw [h]; exact hid
      rw [if_pos hid, rd_eq_some hid, Option.bind_some, rd_eq_some h', Option.bind_some, wr_of_lt h']
      refine ⟨_, rfl, by rw [List.length_set]; exact h, fun _ d x hd hx => ?_⟩
      rw [List.getElem?_eq_getElem hid, Option.some.injEq] at hd
      rw [List.getElem?_eq_getElem h', Option.some.injEq] at hx
      rw [List.getElem?_set_self h', hd, hx]
    · rw [if_neg hid]
      refine ⟨a.stats, rfl, h, fun _ d x hd _ => ?_⟩
      rw [List.getElem?_eq_none (by omega)] at hd
      cases hd

theorem reset_ok {a : Stats.Agg S V} (h : AggOk a) (hp : a.phase = .stopped) :
    ∃ stats, a.reset = some { a with hard := a.hard.reset, stats := stats } ∧ stats.length = a.descs.length ∧
      ∀ (k : Nat) d x, a.descs[k]? = some d → a.stats[k]? = some x → stats[k]? = some (d.initF x) := by
  unfold Stats.Agg.reset
  rw [if_neg (by simp [hp])]
  obtain ⟨stats, h1, h2, h3, _⟩ := forLoop_inv (n := a.descs.length)
    (f := fun s stats =>
      (rd a.descs s).bind fun d => (rd stats s).bind fun x => wr stats s (d.initF x))
    (s := a.stats)
    (fun i (stats : List S) => stats.length = a.descs.length ∧
      (∀ (k : Nat) (d : Stats.Desc S V) (x : S), k < i → a.descs[k]? = some d → a.stats[k]? = some x →
        stats[k]? = some (d.initF x)) ∧ ∀ k, i ≤ k → stats[k]? = a.stats[k]?)
    ⟨h, by simp, fun _ _ => rfl⟩
    (by
      rintro i stats hi ⟨hlen, hval, hrest⟩
      have hi' : i < stats.length := by omega
      rw [rd_eq_some hi, Option.bind_some, rd_eq_some hi', Option.bind_some, wr_of_lt hi']
      refine ⟨_, rfl, by simpa using hlen, ?_, ?_⟩
      · intro k d x hk hd hx
        by_cases hki : k = i
        · subst hki
          rw [List.getElem?_eq_getElem hi, Option.some.injEq] at hd
          have := hrest k (Nat.le_refl _)
          rw [hx, List.getElem?_eq_getElem hi', Option.some.injEq] at this
          rw [List.getElem?_set_self hi', hd, this]
        · rw [List.getElem?_set_ne (by omega)]
          exact hval k d x (by omega) hd hx
      · intro k hk
        rw [List.getElem?_set_ne (by omega)]
        exact hrest k (by omega))
  refine ⟨stats, by rw [h1]; rfl, h2, fun k d x hd hx => h3 k d x ?_ hd hx⟩
  exact (List.getElem?_eq_some_iff.1 hd).1

theorem generate_ok {a : Stats.Agg S V} (h : AggOk a) :
    ∃ outs, a.generate = some (a.tell (.process a.hard outs)) ∧
      ∀ (k : Nat) d x, a.descs[k]? = some d → a.stats[k]? = some x → outs[k]? = some (d.outputF a.hard x) := by
  unfold Stats.Agg.generate
  obtain ⟨out, h1, h2, h3⟩ := forLoop_inv (n := a.descs.length)
    (f := fun s out =>
      (rd a.descs s).bind fun d => (rd a.stats s).map fun x => out ++ [d.outputF a.hard x])
    (s := ([] : List S))
    (fun i (out : List S) => out.length = i ∧
      ∀ (k : Nat) (d : Stats.Desc S V) (x : S), k < i → a.descs[k]? = some d → a.stats[k]? = some x →
        out[k]? = some (d.outputF a.hard x))
    (by simp)
    (by
      rintro i out hi ⟨hlen, hval⟩
      have hi' : i < a.stats.length := by rw [h]; exact hi
      rw [rd_eq_some hi, Option.bind_some, rd_eq_some hi']
      refine ⟨_, rfl, by simp [hlen], ?_⟩
      intro k d x hk hd hx
      by_cases hki : k = i
      · subst hki
        rw [List.getElem?_eq_getElem hi, Option.some.injEq] at hd
        rw [List.getElem?_eq_getElem hi', Option.some.injEq] at hx
        rw [List.getElem?_append_right (by omega), hlen, hd, hx]
        simp
      · rw [List.getElem?_append_left (by omega)]
        exact hval k d x (by omega) hd hx)
  refine ⟨out, by rw [h1]; rfl, fun k d x hd hx => h3 k d x ?_ hd hx⟩
  exact (List.getElem?_eq_some_iff.1 hd).1

/-- A snapshot while recording: a row, and the statistics begin anew. -/
theorem snapshot_ok {a : Stats.Agg S V} (h : AggOk a) (hp : a.phase = .recording) (t t' : Int) :
    ∃ a' outs sec, a.snapshot t t' = some a' ∧ AggOk a' ∧ a'.phase = .recording ∧ a'.descs = a.descs ∧
      a'.hard = { a.hard with secondsElapsed := 0, iterations := 0, weights := 0 } ∧
      a'.sinks = a.sinks.map (· ++ [.process { a.hard with secondsElapsed := sec } outs]) ∧
      (∀ (k : Nat) d x, a.descs[k]? = some d → a.stats[k]? = some x →
        outs[k]? = some (d.outputF { a.hard with secondsElapsed := sec } x) ∧ a'.stats[k]? = some (d.initF x)) := by
  unfold Stats.Agg.snapshot
  rw [if_neg (by simp [hp])]
  have e1 : a.stopRecording t = { a with
      hard := { a.hard with secondsElapsed := a.hard.secondsElapsed + (t - a.startTime) }, phase := .stopped } := by
    unfold Stats.Agg.stopRecording
    rw [if_neg (by simp [hp])]
  obtain ⟨outs, g1, g2⟩ := generate_ok (a := a.stopRecording t) (by rw [e1]; exact h)
  obtain ⟨stats, r1, r2, r3⟩ := reset_ok
    (a := (a.stopRecording t).tell (.process (a.stopRecording t).hard outs)) (by rw [e1]; exact h) (by rw [e1]; rfl)
  rw [g1, Option.bind_some, r1, Option.map_some]
  refine ⟨_, outs, a.hard.secondsElapsed + (t - a.startTime), rfl, ?_⟩
  unfold Stats.Agg.startRecording
  rw [if_neg (by rw [e1]; simp [Stats.Agg.tell])]
  rw [e1] at g2 r2 r3 ⊢
  exact ⟨r2, rfl, rfl, rfl, rfl, fun k d x hd hx => ⟨g2 k d x hd hx, r3 k d x hd hx⟩⟩

end statistics

variable {R τ B : Type _} [Field R] [LinearOrder R]

theorem report_ok (m : Machine R τ B) (v : R) (st : State R τ) (h : AggOk st.agg) :
    ∃ agg, report m v st = .done { st with agg := agg } ∧ AggOk agg ∧ agg.phase = st.agg.phase ∧
      agg.sinks = st.agg.sinks ∧ agg.descs = st.agg.descs ∧
      (st.agg.phase = .recording → agg.hard = { st.agg.hard with iterations := st.agg.hard.iterations + 1 } ∧
        ∀ d x, st.agg.descs[m.lossId]? = some d → st.agg.stats[m.lossId]? = some x →
          agg.stats[m.lossId]? = some (d.updateF x v)) := by
  unfold report
  dsimp only
  by_cases hp : st.agg.phase = .recording
  · rw [if_pos hp]
    obtain ⟨stats, e1, e2, e3⟩ := update_ok (a := { st.agg with hard :=
      { st.agg.hard with iterations := st.agg.hard.iterations + 1 } }) h m.lossId v
    show ∃ agg, (Outcome.ofOption (Stats.Agg.update _ m.lossId v)).bind _ = _ ∧ _
    rw [show (setHard (fun h => { h with iterations := h.iterations + 1 }) st).agg = { st.agg with hard :=
      { st.agg.hard with iterations := st.agg.hard.iterations + 1 } } from rfl, e1, Outcome.ofOption_some,
      Outcome.bind_done]
    exact ⟨_, rfl, e2, rfl, rfl, rfl, fun _ => ⟨rfl, e3 hp⟩⟩
  · rw [if_neg hp]
    obtain ⟨stats, e1, e2, e3⟩ := update_ok h m.lossId v
    rw [e1, Outcome.ofOption_some, Outcome.bind_done]
    exact ⟨_, rfl, e2, rfl, rfl, rfl, fun e => absurd e hp⟩

/-- Two sources that train alike; `mode` is the mode of a layer. -/
structure Alike (s : Source τ B) (mode : τ → Bool) (Rel : τ → τ → Prop) : Prop where
  setMode : ∀ b t, mode (s.setTesting b t) = b
  set : ∀ t u, Rel t u → Rel (s.setTesting false t) (s.setTesting false u)
  step : ∀ t u b t', mode t = false → mode u = false → Rel t u → s.forward t = .done (b, t') →
    ∃ u', s.forward u = .done (b, u') ∧ Rel t' u' ∧ mode t' = false ∧ mode u' = false

/-- What a test does not touch. -/
structure Untouched (s : Source τ B) (mode : τ → Bool) (Rel : τ → τ → Prop) : Prop where
  set : ∀ c t u, Rel t u → Rel (s.setTesting c t) u
  step : ∀ t u b t', mode t = true → Rel t u → s.forward t = .done (b, t') → Rel t' u ∧ mode t' = true

/-- Two trainers that change the parameters alike. -/
structure Optim (m : Machine R τ B) (O : Trainer.State R → Trainer.State R → Prop) : Prop where
  weights : ∀ x y, O x y → x.weights = y.weights
  acc : ∀ x y, O x y → x.accumulated = y.accumulated
  step : ∀ lr acc x y x', O x y → Trainer.applyGradients m.cfg lr m.localLr { x with accumulated := acc } = some x' →
    ∃ y', Trainer.applyGradients m.cfg lr m.localLr { y with accumulated := acc } = some y' ∧ O x' y'

theorem optim_eq (m : Machine R τ B) : Optim m Eq where
  weights := fun _ _ h => by rw [h]
  acc := fun _ _ h => by rw [h]
  step := fun _ _ x y x' h e => by subst h; exact ⟨x', e, rfl⟩

/-- Two states during training. -/
structure Sim (O : Trainer.State R → Trainer.State R → Prop) (Rel : τ → τ → Prop) (st u : State R τ) : Prop where
  opt : O st.opt u.opt
  epoch : st.epoch = u.epoch
  flag : st.isTesting = u.isTesting
  src : Rel st.src u.src
  aggL : AggOk st.agg
  aggR : AggOk u.agg
  recL : st.agg.phase = .recording
  recR : u.agg.phase = .recording

section training
variable {mode : τ → Bool} {Rel : τ → τ → Prop} {m : Machine R τ B} {O : Trainer.State R → Trainer.State R → Prop}

theorem iteration_sim (hO : Optim m O) (ha : Alike m.source mode Rel) {i : Nat} {st u st' : State R τ} (h : Sim O Rel st u)
    (h1 : mode st.src = false) (h2 : mode u.src = false) (hd : iteration m i st = .done st') :
    ∃ u', iteration m i u = .done u' ∧ Sim O Rel st' u' ∧ mode st'.src = false ∧ mode u'.src = false := by
  obtain ⟨x, p1, p2⟩ := bind_eq_done hd
  obtain ⟨opt, p3, p4⟩ := bind_eq_done p2
  have w1 := hO.weights _ _ h.opt
  have w2 := hO.acc _ _ h.opt
  obtain ⟨y, q1, q2⟩ := forO_sim (P := fun (x y : τ × List (List R) × R) => x.2 = y.2 ∧ Rel x.1 y.1 ∧
      mode x.1 = false ∧ mode y.1 = false)
    (s := (st.src, Trainer.clearAll st.opt.accumulated, 0)) (u := (u.src, Trainer.clearAll st.opt.accumulated, 0))
    (by
      rintro i - x y x' ⟨a1, a2, a3, a4⟩ hx
      obtain ⟨b, b1, b2⟩ := bind_eq_done hx
      obtain ⟨acc, c1, c2⟩ := bind_eq_done b2
      obtain ⟨u', d1, d2, d3, d4⟩ := ha.step x.1 y.1 b.1 b.2 a3 a4 a2 b1
      refine ⟨(u', acc, x.2.2 + m.loss st.isTesting st.opt.weights b.1), ?_, ?_⟩
      · unfold pass
        rw [d1, Outcome.bind_done, ← a1, c1, Outcome.bind_done]
      · cases c2
        exact ⟨rfl, d2, d3, d4⟩) ⟨rfl, h.src, h1, h2⟩ p1
  obtain ⟨e1, e2, e3, e4⟩ := q2
  rw [h.flag, w1, w2] at q1
  cases hap : Trainer.applyGradients m.cfg (m.rate (Trainer.lrIndex st.epoch m.iterations i)) m.localLr
      { st.opt with accumulated := x.2.1 } with
  | none => rw [hap] at p3; cases p3
  | some opt1 =>
  rw [hap] at p3
  cases p3
  obtain ⟨opt', o1, o2⟩ := hO.step _ _ _ _ _ h.opt hap
  rw [h.epoch, e1] at o1
  unfold iteration
  rw [q1, Outcome.bind_done, o1, Outcome.ofOption_some, Outcome.bind_done, ← e1]
  obtain ⟨agg, f1, f2, f3, -⟩ := report_ok m
    (Trainer.reportedLoss m.cfg x.2.2)
    { st with src := x.1, opt := opt } h.aggL
  obtain ⟨agg', g1, g2, g3, -⟩ := report_ok m
    (Trainer.reportedLoss m.cfg x.2.2)
    { u with src := y.1, opt := opt' } h.aggR
  rw [f1] at p4
  cases p4
  exact ⟨_, g1, ⟨o2, h.epoch, h.flag, e2, f2, g2, f3.trans h.recL, g3.trans h.recR⟩, e3, e4⟩

theorem epoch_sim (hO : Optim m O) (ha : Alike m.source mode Rel) {st u st' : State R τ} (h : Sim O Rel st u)
    (hd : epoch m st = .done st') :
    ∃ u', epoch m u = .done u' ∧ Sim O Rel st' u' := by
  obtain ⟨s1, p1, p2⟩ := bind_eq_done hd
  obtain ⟨u1, q1, q2, -⟩ := forO_sim (P := fun (s u : State R τ) => Sim O Rel s u ∧ mode s.src = false ∧
      mode u.src = false)
    (s := { setHard (fun h => { h with epoch := st.epoch }) st with src := m.source.setTesting false st.src })
    (u := { setHard (fun h => { h with epoch := u.epoch }) u with src := m.source.setTesting false u.src })
    (by
      rintro i - s u s' ⟨a1, a2, a3⟩ hs
      exact iteration_sim hO ha a1 a2 a3 hs)
    ⟨⟨h.opt, h.epoch, h.flag, ha.set _ _ h.src, h.aggL, h.aggR, h.recL, h.recR⟩, ha.setMode _ _, ha.setMode _ _⟩ p1
  cases p2
  unfold epoch
  dsimp only
  refine ⟨{ u1 with epoch := Trainer.u32 (u1.epoch + 1) }, ?_, ⟨q2.opt, ?_, q2.flag, q2.src, q2.aggL, q2.aggR, q2.recL, q2.recR⟩⟩
  · have : (setHard (fun h => { h with epoch := u.epoch }) u).src = u.src := rfl
    rw [this, q1]; rfl
  · show Trainer.u32 _ = Trainer.u32 _
    rw [q2.epoch]

theorem trainStep_sim (hO : Optim m O) (ha : Alike m.source mode Rel) {b c : Bool} {st u st' : State R τ} (h : Sim O Rel st u)
    (hd : trainStep m b st = .done st') :
    ∃ u', trainStep m c u = .done u' ∧ Sim O Rel st' u' := by
  obtain ⟨s1, p1, p2⟩ := bind_eq_done hd
  obtain ⟨u1, q1, q2⟩ := epoch_sim hO ha h p1
  have snap : ∀ (s : State R τ), AggOk s.agg → s.agg.phase = .recording → ∃ agg t, snapshot m s =
      .done { s with agg := agg, ticks := t } ∧ AggOk agg ∧ agg.phase = .recording := by
    intro s k1 k2
    obtain ⟨a', _, _, e1, e2, e3, _⟩ := snapshot_ok k1 k2 (m.clock s.ticks) (m.clock (s.ticks + 1))
    refine ⟨a', s.ticks + 2, ?_, e2, e3⟩
    unfold snapshot
    rw [e1]; rfl
  have fin : ∀ (b : Bool) (s : State R τ), AggOk s.agg → s.agg.phase = .recording → ∃ agg t,
      (if b then (snapshot m s).bind fun st => Outcome.done (setHard (fun h => { h with weights := m.weightCount }) st)
        else .done s) = .done { s with agg := agg, ticks := t } ∧ AggOk agg ∧ agg.phase = .recording := by
    intro b s k1 k2
    cases b
    · exact ⟨s.agg, s.ticks, rfl, k1, k2⟩
    · obtain ⟨agg, t, e1, e2, e3⟩ := snap s k1 k2
      rw [if_pos rfl, e1, Outcome.bind_done]
      exact ⟨_, t, rfl, e2, e3⟩
  obtain ⟨agg, t, e1, e2, e3⟩ := fin b s1 q2.aggL q2.recL
  obtain ⟨agg', t', f1, f2, f3⟩ := fin c u1 q2.aggR q2.recR
  rw [e1] at p2
  cases p2
  refine ⟨{ u1 with agg := agg', ticks := t' }, ?_, ⟨q2.opt, q2.epoch, q2.flag, q2.src, e2, f2, e3, f3⟩⟩
  · unfold trainStep
    rw [q1, Outcome.bind_done]
    exact f1

/-- The trainer carries nothing over. -/
def Rested (opt : Trainer.State R) : Prop := Trainer.reset opt = opt

theorem clearAll_clearAll (b : List (List R)) : Trainer.clearAll (Trainer.clearAll b) = Trainer.clearAll b := by
  unfold Trainer.clearAll
  simp [List.map_map, Function.comp_def]

theorem rested_reset (opt : Trainer.State R) : Rested (Trainer.reset opt) := by
  unfold Rested Trainer.reset
  simp [clearAll_clearAll]

/-- The end of a command. -/
theorem finish (m : Machine R τ B) (b : Bool) (st : State R τ) (h : AggOk st.agg) (hp : st.agg.phase = .recording) :
    ∃ agg t, (generateIf b (stopRecording m st)).bind (onAgg Stats.Agg.reset) = .done { st with agg := agg, ticks := t } ∧
      AggOk agg ∧ agg.phase = .stopped := by
  have e1 : (st.agg.stopRecording (m.clock st.ticks)) = { st.agg with
      hard := { st.agg.hard with secondsElapsed := st.agg.hard.secondsElapsed + (m.clock st.ticks - st.agg.startTime) },
      phase := .stopped } := by
    unfold Stats.Agg.stopRecording
    rw [if_neg (by simp [hp])]
  have fin : ∀ s : State R τ, AggOk s.agg → s.agg.phase = .stopped → ∃ agg, onAgg Stats.Agg.reset s =
      .done { s with agg := agg } ∧ AggOk agg ∧ agg.phase = .stopped := by
    intro s k1 k2
    obtain ⟨stats, r1, r2, _⟩ := reset_ok k1 k2
    unfold onAgg
    rw [r1, Outcome.ofOption_some, Outcome.bind_done]
    exact ⟨_, rfl, r2, k2⟩
  have a1 : AggOk (stopRecording m st).agg := by
    show AggOk (st.agg.stopRecording (m.clock st.ticks)); rw [e1]; exact h
  have a2 : (stopRecording m st).agg.phase = .stopped := by
    show (st.agg.stopRecording (m.clock st.ticks)).phase = _; rw [e1]
  cases b
  · obtain ⟨agg, r1, r2, r3⟩ := fin _ a1 a2
    exact ⟨agg, st.ticks + 1, r1, r2, r3⟩
  · obtain ⟨outs, g1, _⟩ := generate_ok a1
    obtain ⟨agg, r1, r2, r3⟩ := fin { stopRecording m st with
      agg := (stopRecording m st).agg.tell (.process (stopRecording m st).agg.hard outs) } a1 a2
    refine ⟨agg, st.ticks + 1, ?_, r2, r3⟩
    show (onAgg Stats.Agg.generate (stopRecording m st)).bind _ = _
    unfold onAgg at r1 ⊢
    rw [g1]
    exact r1

/-- Two states between commands. -/
structure Between (m : Machine R τ B) (Rel : τ → τ → Prop) (st u : State R τ) : Prop where
  opt : st.opt = u.opt
  epoch : st.epoch = u.epoch
  src : Rel st.src u.src
  aggL : AggOk st.agg
  aggR : AggOk u.agg
  offL : st.agg.phase = .stopped
  offR : u.agg.phase = .stopped
  rest : m.hybrid = false → Rested st.opt

theorem startRecording_agg (m : Machine R τ B) (st : State R τ) (hp : st.agg.phase = .stopped) :
    (startRecording m st).agg = { st.agg with startTime := m.clock st.ticks, phase := .recording } := by
  show st.agg.startRecording (m.clock st.ticks) = _
  unfold Stats.Agg.startRecording
  rw [if_neg (by simp [hp])]

theorem train_begin {st u : State R τ} (h : Between m Rel st u) : Sim Eq Rel
    (setIsTesting false (setHard (fun h => { h with weights := m.weightCount }) (startRecording m st)))
    (setIsTesting false (setHard (fun h => { h with weights := m.weightCount }) (startRecording m u))) := by
  have e1 := startRecording_agg m st h.offL
  have e2 := startRecording_agg m u h.offR
  refine ⟨h.opt, h.epoch, rfl, h.src, ?_, ?_, ?_, ?_⟩
  · show AggOk { (startRecording m st).agg with hard := _ }; rw [e1]; exact h.aggL
  · show AggOk { (startRecording m u).agg with hard := _ }; rw [e2]; exact h.aggR
  · show (startRecording m st).agg.phase = _; rw [e1]
  · show (startRecording m u).agg.phase = _; rw [e2]

theorem syncEpoch_cases (m : Machine R τ B) (st : State R τ) : syncEpoch m st =
    { st with testEpoch := st.epoch, opt := if m.hybrid then st.opt else Trainer.reset st.opt } := by
  unfold syncEpoch
  cases m.hybrid <;> rfl

theorem train_cmd (ha : Alike m.source mode Rel) {n : Nat} {b c : Bool} {st u st' : State R τ}
    (h : Between m Rel st u) (hd : exec m (.train n b) st = .done st') :
    ∃ u', exec m (.train n c) u = .done u' ∧ Between m Rel st' u' := by
  obtain ⟨s1, p1, p2⟩ := bind_eq_done hd
  have key : ∃ u1, train m n c (startRecording m u) = .done u1 ∧ Sim Eq Rel s1 u1 := by
    have : ∀ n s u s1, Sim Eq Rel s u → forO n (fun _ => trainStep m b) s = .done s1 →
        ∃ u1, forO n (fun _ => trainStep m c) u = .done u1 ∧ Sim Eq Rel s1 u1 := by
      intro n
      induction n with
      | zero => intro s u s1 hs h1; cases h1; exact ⟨u, rfl, hs⟩
      | succ n ih =>
        intro s u s1 hs h1
        obtain ⟨s2, h2, h3⟩ := bind_eq_done h1
        obtain ⟨u2, k1, k2⟩ := ih s u s2 hs h2
        obtain ⟨u3, k3, k4⟩ := trainStep_sim (c := c) (optim_eq m) ha k2 h3
        exact ⟨u3, by rw [forO, k1]; exact k3, k4⟩
    exact this n _ _ s1 (train_begin h) p1
  obtain ⟨u1, q1, q2⟩ := key
  have g1 : ∀ (s : State R τ), (syncEpoch m s).agg = s.agg := by intro s; rw [syncEpoch_cases]
  obtain ⟨agg, t, f1, f2, f3⟩ := finish m (!b) (syncEpoch m s1) (by rw [g1]; exact q2.aggL) (by rw [g1]; exact q2.recL)
  obtain ⟨agg', t', f1', f2', f3'⟩ := finish m (!c) (syncEpoch m u1) (by rw [g1]; exact q2.aggR) (by rw [g1]; exact q2.recR)
  rw [f1] at p2
  cases p2
  refine ⟨{ syncEpoch m u1 with agg := agg', ticks := t' }, ?_, ?_⟩
  · show (train m n c (startRecording m u)).bind _ = _
    rw [q1, Outcome.bind_done]
    exact f1'
  · refine ⟨?_, ?_, ?_, f2, f2', f3, f3', ?_⟩
    · show (syncEpoch m s1).opt = (syncEpoch m u1).opt
      rw [syncEpoch_cases, syncEpoch_cases]
      dsimp only
      rw [q2.opt]
    · show (syncEpoch m s1).epoch = (syncEpoch m u1).epoch
      rw [syncEpoch_cases, syncEpoch_cases]
      exact q2.epoch
    · show Rel (syncEpoch m s1).src (syncEpoch m u1).src
      rw [syncEpoch_cases, syncEpoch_cases]
      exact q2.src
    · intro hh
      show Rested (syncEpoch m s1).opt
      rw [syncEpoch_cases, hh]
      exact rested_reset _

/-- A test leaves the trainer and what it trains next. -/
theorem test_cmd (ha : Alike m.source mode Rel) (hu : Untouched m.source mode Rel) {st u st' : State R τ}
    (h : Between m Rel st u) (hd : exec m .test st = .done st') : Between m Rel st' u := by
  obtain ⟨s1, p1, p2⟩ := bind_eq_done hd
  have e1 := startRecording_agg m st h.offL
  have hopt : (syncEpoch m (startRecording m st)).opt = st.opt := by
    rw [syncEpoch_cases]
    show (if m.hybrid then st.opt else Trainer.reset st.opt) = _
    cases hh : m.hybrid
    · exact h.rest hh
    · rfl
  have hagg : (syncEpoch m (startRecording m st)).agg = { st.agg with startTime := m.clock st.ticks, phase := .recording } := by
    rw [syncEpoch_cases]; exact e1
  have hep : (syncEpoch m (startRecording m st)).epoch = st.epoch := by rw [syncEpoch_cases]; rfl
  have hsrc : (syncEpoch m (startRecording m st)).src = st.src := by rw [syncEpoch_cases]; rfl
  have key : s1.opt = st.opt ∧ s1.epoch = st.epoch ∧ Rel s1.src u.src ∧ AggOk s1.agg ∧ s1.agg.phase = .recording := by
    generalize syncEpoch m (startRecording m st) = s0 at *
    unfold test at p1
    dsimp only at p1
    cases hh : m.hybrid
    · rw [hh, if_neg (by simp)] at p1
      obtain ⟨s2, q1, q2⟩ := bind_eq_done p1
      cases q2
      have := forO_keep (P := fun _ (s : State R τ) => s.opt = st.opt ∧ s.epoch = st.epoch ∧ Rel s.src u.src ∧
          mode s.src = true ∧ AggOk s.agg ∧ s.agg.phase = .recording) (f := fun _ => testIteration m)
        (s := setIsTesting true { setHard (fun h => { h with weights := m.weightCount }) s0 with
          src := m.source.setTesting true s0.src }) (n := m.testIterations) (s' := s2) (by
        rintro i - s s' ⟨a1, a2, a3, a4, a5, a6⟩ hs
        obtain ⟨b, b1, b2⟩ := bind_eq_done hs
        obtain ⟨c1, c2⟩ := hu.step s.src u.src b.1 b.2 a4 a3 b1
        obtain ⟨agg, d1, d2, d3, -⟩ := report_ok m (m.loss s.isTesting s.opt.weights b.1 / (m.cfg.sampleCount : R))
          { s with src := b.2 } a5
        rw [d1] at b2
        cases b2
        exact ⟨a1, a2, c1, c2, d2, d3.trans a6⟩) ⟨hopt, hep, ?_, ha.setMode _ _, ?_, ?_⟩ q1
      · exact ⟨this.1, this.2.1, hu.set _ _ _ this.2.2.1, this.2.2.2.2.1, this.2.2.2.2.2⟩
      · show Rel (m.source.setTesting true s0.src) u.src
        rw [hsrc]
        exact hu.set _ _ _ h.src
      · show AggOk { s0.agg with hard := _ }; rw [hagg]; exact h.aggL
      · show s0.agg.phase = _; rw [hagg]
    · rw [hh, if_pos rfl] at p1
      obtain ⟨s2, q1, q2⟩ := bind_eq_done p1
      cases q2
      exact forO_keep (P := fun _ (s : State R τ) => s.opt = st.opt ∧ s.epoch = st.epoch ∧ Rel s.src u.src ∧
          AggOk s.agg ∧ s.agg.phase = .recording) (f := fun _ => hybridIteration m) (n := m.testIterations) (s' := s2)
        (s := setHard (fun h => { h with isTraining := false })
          { setHard (fun h => { h with weights := m.weightCount }) s0 with
            testSrc := m.testSource.setTesting true s0.testSrc }) (by
        rintro i - s s' ⟨a1, a2, a3, a5, a6⟩ hs
        obtain ⟨b, b1, b2⟩ := bind_eq_done hs
        obtain ⟨agg, d1, d2, d3, -⟩ := report_ok m (m.testLoss true s.opt.weights b.1 / (m.testSampleCount : R))
          { s with testSrc := b.2 } a5
        rw [d1] at b2
        cases b2
        exact ⟨a1, a2, a3, d2, d3.trans a6⟩) ⟨hopt, hep, (by show Rel s0.src u.src; rw [hsrc]; exact h.src),
          (by show AggOk { s0.agg with hard := _ }; rw [hagg]; exact h.aggL), (by show s0.agg.phase = _; rw [hagg])⟩ q1
  obtain ⟨k1, k2, k3, k4, k5⟩ := key
  obtain ⟨agg, t, f1, f2, f3⟩ := finish m true s1 k4 k5
  rw [f1] at p2
  cases p2
  exact ⟨k1.trans h.opt, k2.trans h.epoch, k3, f2, h.aggR, f3, h.offR, fun hh => by
    show Rested s1.opt; rw [k1]; exact h.rest hh⟩

end training
end CN24.Session
