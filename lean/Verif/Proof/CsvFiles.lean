import Verif.Model.CsvFiles
import Verif.Props.Stats

namespace CN24.Csv
open CN24 CN24.Stats CN24.Props
variable {S D V : Type _}

theorem csvPath_inj {m n : Str} (h : csvPath m = csvPath n) : m = n := by
  unfold csvPath at h
  rw [List.append_assoc, List.append_assoc] at h
  exact List.append_cancel_right (List.append_cancel_left h)

theorem sinkRun_append (e : Env S D) (l m : List (SinkEvent S)) (st : Sink × Files) :
    sinkRun e (l ++ m) st = (sinkRun e l st).bind (sinkRun e m) := by
  unfold sinkRun
  rw [List.foldlM_append]
  rfl

theorem sinkRun_cons (e : Env S D) (x : SinkEvent S) (m : List (SinkEvent S)) (st : Sink × Files) :
    sinkRun e (x :: m) st = (onEvent e st x).bind (sinkRun e m) := rfl

/-- Calls after `Initialize` that are in order for `n` descriptors: the files can be opened, the records are long
enough. -/
structure Fine (e : Env S D) (n : Nat) (events : List (SinkEvent S)) : Prop where
  noInit : ∀ k, .initialize k ∉ events
  opens : ∀ name, .setExperiment name ∈ events → e.canOpen (csvPath name.toList) = true
  long : ∀ h o, .process h o ∈ events → n ≤ o.length

theorem Fine.sub {e : Env S D} {n : Nat} {l m : List (SinkEvent S)} (h : Fine e n m) (hs : ∀ x ∈ l, x ∈ m) :
    Fine e n l :=
  ⟨fun k hk => h.noInit k (hs _ hk), fun a ha => h.opens a (hs _ ha), fun a b ha => h.long a b (hs _ ha)⟩

theorem rowLine_some {e : Env S D} {n : Nat} (h : Hard) {o : List S} (hn : n ≤ o.length) :
    rowLine e n h o = some ((rowLine e n h o).getD []) := by
  unfold rowLine
  rw [if_pos hn]
  rfl

theorem fine_run {e : Env S D} : ∀ (events : List (SinkEvent S)) (s : Sink) (fs : Files),
    Fine e s.descs.length events → ∃ s' fs', sinkRun e events (s, fs) = some (s', fs') ∧ s'.descs = s.descs
  | [], s, fs, _ => ⟨s, fs, rfl, rfl⟩
  | x :: xs, s, fs, h => by
    have hsub := h.sub (l := xs) fun y hy => List.mem_cons_of_mem _ hy
    rw [sinkRun_cons]
    cases x with
    | «initialize» k => exact absurd List.mem_cons_self (h.noInit k)
    | process hd o =>
      have ho := h.long hd o List.mem_cons_self
      show ∃ s' fs', (process e hd o (s, fs)).bind _ = _ ∧ _
      unfold process
      dsimp only
      cases hst : s.stream with
      | none => exact fine_run xs s fs hsub
      | some p =>
        dsimp only
        rw [rowLine_some hd ho]
        exact fine_run xs s _ hsub
    | setExperiment name =>
      have ho := h.opens name List.mem_cons_self
      show ∃ s' fs', (setExperiment e name.toList (s, fs)).bind _ = _ ∧ _
      unfold setExperiment
      rw [if_pos ho]
      exact fine_run xs { s with stream := some (csvPath name.toList) } _ hsub

/-- Rows only: they are added to the open file, every other file stays. -/
theorem rows_run {e : Env S D} {path : Str} : ∀ (rows : List (Hard × List S)) (s : Sink) (fs : Files) (text : Str),
    s.stream = some path → fs path = some text → (∀ r ∈ rows, s.descs.length ≤ r.2.length) →
    ∃ fs', sinkRun e (rows.map fun r => .process r.1 r.2) (s, fs) = some (s, fs') ∧
      fs' path = some (text ++ rows.flatMap fun r => (rowLine e s.descs.length r.1 r.2).getD []) ∧
      ∀ p, p ≠ path → fs' p = fs p
  | [], s, fs, text, _, hf, _ => ⟨fs, rfl, by simpa using hf, fun _ _ => rfl⟩
  | r :: rs, s, fs, text, hst, hf, hl => by
    have h1 := rowLine_some (e := e) r.1 (hl r List.mem_cons_self)
    obtain ⟨fs', e1, e2, e3⟩ := rows_run rs s
      (fs.set path (text ++ (rowLine e s.descs.length r.1 r.2).getD [])) _ hst (if_pos rfl)
      fun q hq => hl q (List.mem_cons_of_mem _ hq)
    refine ⟨fs', ?_, ?_, ?_⟩
    · rw [List.map_cons, sinkRun_cons]
      show (process e r.1 r.2 (s, fs)).bind _ = _
      unfold process
      dsimp only
      rw [hst]
      dsimp only
      rw [h1, hf]
      exact e1
    · rw [e2, List.flatMap_cons, List.append_assoc]
    · intro p hp
      rw [e3 p hp]
      exact if_neg hp

/-- While another file is open and `path` is not selected, `path` keeps its text. -/
theorem others_run {e : Env S D} {n : String} : ∀ (events : List (SinkEvent S)) (s : Sink) (fs : Files),
    Fine e s.descs.length events → .setExperiment n ∉ events →
    (∀ p, s.stream = some p → p ≠ csvPath n.toList) →
    ∃ s' fs', sinkRun e events (s, fs) = some (s', fs') ∧ s'.descs = s.descs ∧
      fs' (csvPath n.toList) = fs (csvPath n.toList) ∧ ∀ p, s'.stream = some p → p ≠ csvPath n.toList
  | [], s, fs, _, _, hp => ⟨s, fs, rfl, rfl, rfl, hp⟩
  | x :: xs, s, fs, h, hn, hp => by
    have hsub := h.sub (l := xs) fun y hy => List.mem_cons_of_mem _ hy
    have hn' : SinkEvent.setExperiment n ∉ xs := fun hx => hn (List.mem_cons_of_mem _ hx)
    rw [sinkRun_cons]
    cases x with
    | «initialize» k => exact absurd List.mem_cons_self (h.noInit k)
    | process hd o =>
      have ho := h.long hd o List.mem_cons_self
      show ∃ s' fs', (process e hd o (s, fs)).bind _ = _ ∧ _
      unfold process
      dsimp only
      cases hst : s.stream with
      | none => exact others_run xs s fs hsub hn' hp
      | some p =>
        dsimp only
        rw [rowLine_some hd ho]
        obtain ⟨s', fs', e1, e2, e3, e4⟩ := others_run xs s
          (fs.set p ((fs p).getD [] ++ (rowLine e s.descs.length hd o).getD [])) hsub hn' hp
        exact ⟨s', fs', e1, e2, e3.trans (if_neg fun hq => hp p hst hq.symm), e4⟩
    | setExperiment name =>
      have ho := h.opens name List.mem_cons_self
      have hne : csvPath name.toList ≠ csvPath n.toList := by
        intro hq
        have := String.toList_inj.1 (csvPath_inj hq)
        subst this
        exact hn List.mem_cons_self
      show ∃ s' fs', (setExperiment e name.toList (s, fs)).bind _ = _ ∧ _
      unfold setExperiment
      rw [if_pos ho]
      obtain ⟨s', fs', e1, e2, e3, e4⟩ := others_run xs { s with stream := some (csvPath name.toList) }
        (fs.set (csvPath name.toList) (csvHeader s.descs ++ ['\n'])) hsub hn'
        (by rintro p hq; rw [← Option.some.inj hq]; exact hne)
      exact ⟨s', fs', e1, e2, e3.trans (if_neg fun hq => hne hq.symm), e4⟩

/-! ### The calls the collector makes -/

/-- What one call tells the sinks. -/
def toldOf (dflt : S) (a : Agg S V) (s : Spec V) : Op S V → List (SinkEvent S)
  | .initialize => if s.phase = .init then [.initialize a.descs.length, .setExperiment a.experiment] else []
  | .generate => [.process a.hard (expectedOutputs dflt a.descs a.hard s)]
  | .snapshot t _ =>
    if s.phase = .recording then
      let h := { a.hard with secondsElapsed := a.hard.secondsElapsed + (t - a.startTime) }
      [.process h (expectedOutputs dflt a.descs h s)]
    else []
  | .setCurrentExperiment n => if s.phase = .stopped then [.setExperiment n] else []
  | _ => []

theorem reset_sinks {a a' : Agg S V} (h : a.reset = some a') :
    a'.sinks = a.sinks ∧ a'.experiment = a.experiment := by
  unfold Agg.reset at h
  split at h
  · rw [← Option.some.inj h]; exact ⟨rfl, rfl⟩
  · rw [Option.map_eq_some_iff] at h
    obtain ⟨_, _, rfl⟩ := h; exact ⟨rfl, rfl⟩

theorem start_sinks (a : Agg S V) (t : Int) :
    (a.startRecording t).sinks = a.sinks ∧ (a.startRecording t).experiment = a.experiment := by
  unfold Agg.startRecording; split <;> exact ⟨rfl, rfl⟩

theorem stop_sinks (a : Agg S V) (t : Int) :
    (a.stopRecording t).sinks = a.sinks ∧ (a.stopRecording t).experiment = a.experiment := by
  unfold Agg.stopRecording; split <;> exact ⟨rfl, rfl⟩

theorem map_nil (l : List (List (SinkEvent S))) : l.map (· ++ []) = l := by simp

theorem exec_told {dflt : S} {a a' : Agg S V} {s : Spec V} (hi : Inv dflt a s) (op : Op S V)
    (hop : Admits s.phase op) (he : exec dflt a op = some a') :
    a'.experiment = a.experiment ∧ ∃ l, a'.sinks = a.sinks.map (· ++ toldOf dflt a s op) ++ l := by
  have hphase := hi.phase
  cases op with
  | registerSink =>
    rw [← Option.some.inj he]
    refine ⟨rfl, [[]], ?_⟩
    simp [toldOf, Agg.registerSink]
  | setCurrentExperiment n =>
    rw [← Option.some.inj he]
    unfold Agg.setCurrentExperiment
    simp only [toldOf]
    by_cases h : s.phase = .stopped
    · rw [if_neg (by simp [hphase, h]), if_pos h]
      exact ⟨rfl, [], by simp [Agg.tell]⟩
    · rw [if_pos (by simpa [hphase] using h), if_neg h]
      exact ⟨rfl, [], by simp⟩
  | hardcode h => rw [← Option.some.inj he]; exact ⟨rfl, [], by simp [toldOf]⟩
  | registerStat d => rw [← Option.some.inj he]; exact ⟨rfl, [], by simp [toldOf, Agg.registerStat]⟩
  | generate =>
    have hp : a.phase ≠ .init := by rw [hphase]; exact hop
    have := generate_spec hi hp
    rw [show exec dflt a (Op.generate : Op S V) = a.generate from rfl, this] at he
    rw [← Option.some.inj he]
    exact ⟨rfl, [], by simp [toldOf, Agg.tell]⟩
  | startRecording t =>
    rw [← Option.some.inj he]
    obtain ⟨h1, h2⟩ := start_sinks a t
    exact ⟨h2, [], by simp [toldOf, h1]⟩
  | stopRecording t =>
    rw [← Option.some.inj he]
    obtain ⟨h1, h2⟩ := stop_sinks a t
    exact ⟨h2, [], by simp [toldOf, h1]⟩
  | reset =>
    obtain ⟨h1, h2⟩ := reset_sinks (show a.reset = some a' from he)
    exact ⟨h2, [], by simp [toldOf, h1]⟩
  | update id v =>
    have : a'.sinks = a.sinks ∧ a'.experiment = a.experiment := by
      simp only [exec, Agg.update] at he
      split at he
      · rw [← Option.some.inj he]; exact ⟨rfl, rfl⟩
      · split at he
        · simp only [Option.bind_eq_some_iff, Option.map_eq_some_iff] at he
          obtain ⟨_, _, _, _, _, _, rfl⟩ := he
          exact ⟨rfl, rfl⟩
        · rw [← Option.some.inj he]; exact ⟨rfl, rfl⟩
    exact ⟨this.2, [], by simp [toldOf, this.1]⟩
  | «initialize» =>
    simp only [exec, Agg.initAll] at he
    by_cases h : s.phase = .init
    · rw [if_neg (by simp [hphase, h]), Option.map_eq_some_iff] at he
      obtain ⟨b, hb, rfl⟩ := he
      have hbp : b.phase = .stopped := by
        unfold Agg.reset at hb
        rw [if_neg (by simp), Option.map_eq_some_iff] at hb
        obtain ⟨_, _, rfl⟩ := hb; rfl
      obtain ⟨h1, h2⟩ := reset_sinks hb
      unfold Agg.setCurrentExperiment
      simp only [toldOf]
      rw [if_neg (by simp [hbp]), if_pos h]
      refine ⟨h2, [], ?_⟩
      simp only [Agg.tell, h1, h2, List.map_map, List.append_nil]
      exact List.map_congr_left fun l _ => by simp
    · rw [if_pos (by simpa [hphase] using h)] at he
      rw [← Option.some.inj he]
      simp only [toldOf]
      rw [if_neg h]
      exact ⟨trivial, [], by simp⟩
  | snapshot t t' =>
    simp only [exec, Agg.snapshot] at he
    by_cases h : s.phase = .recording
    · have hp : a.phase = .recording := hphase.trans h
      have hne : a.phase ≠ .init := by simp [hp]
      rw [if_neg (by simp [hp])] at he
      have hstop : Inv dflt (a.stopRecording t) { s with phase := .stopped } := by
        unfold Agg.stopRecording
        rw [if_neg (by simp [hp])]
        exact ⟨rfl, hi.fixed, by simp, fun _ => hi.len hne, fun _ => hi.val hne⟩
      have hg := generate_spec hstop (by simp [hstop.phase])
      rw [hg, Option.bind_some, Option.map_eq_some_iff] at he
      obtain ⟨b, hb, rfl⟩ := he
      obtain ⟨h1, h2⟩ := reset_sinks hb
      obtain ⟨h3, h4⟩ := start_sinks b t'
      refine ⟨by rw [h4, h2]; exact (stop_sinks a t).2, [], ?_⟩
      rw [h3, h1]
      simp only [toldOf]
      rw [if_pos h]
      have e1 : (a.stopRecording t).hard =
          { a.hard with secondsElapsed := a.hard.secondsElapsed + (t - a.startTime) } := by
        unfold Agg.stopRecording; rw [if_neg (by simp [hp])]
      have e2 : (a.stopRecording t).descs = a.descs := by
        unfold Agg.stopRecording; split <;> rfl
      simp only [Agg.tell, (stop_sinks a t).1, e1, e2, List.append_nil]
      rfl
    · rw [if_pos (by simpa [hphase] using h)] at he
      rw [← Option.some.inj he]
      simp only [toldOf]
      rw [if_neg h]
      exact ⟨trivial, [], by simp⟩

theorem step_phase {s : Spec V} (h : s.phase ≠ .init) (op : Op S V) : (s.step op).phase ≠ .init := by
  cases op <;> simp only [Spec.step] <;> (try split) <;> simp_all

/-- Which calls report to the sinks in a phase. -/
def Reports (p : Phase) : Op S V → Prop
  | .generate => True
  | .snapshot _ _ => p = .recording
  | _ => False

instance (p : Phase) (op : Op S V) : Decidable (Reports p op) := by
  cases op <;> unfold Reports <;> infer_instance

/-- How many of the calls report. -/
def reports : Spec V → List (Op S V) → Nat
  | _, [] => 0
  | s, op :: ops => (if Reports s.phase op then 1 else 0) + reports (s.step op) ops

/-- Calls after `Initialize`: what they tell every sink. -/
theorem ops_told {dflt : S} : ∀ (ops : List (Op S V)) (a : Agg S V) (s : Spec V), Inv dflt a s → s.phase ≠ .init →
    Proper s.phase ops → (∀ d ∈ registered ops, FixedInit d) →
    ∃ (a' : Agg S V) (evs : List (SinkEvent S)), ops.foldlM (exec dflt) a = some a' ∧ Inv dflt a' (ops.foldl Spec.step s) ∧ a'.descs = a.descs ∧
      (∀ (k : Nat) (log : List (SinkEvent S)), a.sinks[k]? = some log → a'.sinks[k]? = some (log ++ evs)) ∧
      (∀ n, .initialize n ∉ evs) ∧
      (∀ n, .setExperiment n ∈ evs → .setCurrentExperiment n ∈ ops) ∧
      (∀ h o, .process h o ∈ evs → o.length = a.descs.length) ∧
      ((∀ n, .setCurrentExperiment n ∉ ops) → evs.length = reports s ops)
  | [], a, s, hi, _, _, _ => ⟨a, [], rfl, hi, rfl, by simp, by simp, by simp, by simp, fun _ => rfl⟩
  | op :: ops, a, s, hi, hne, hp, hf => by
    obtain ⟨h1, h2, h3⟩ := admits_of_proper hp hf
    obtain ⟨a1, e1, i1⟩ := exec_inv hi op h1
    rw [proper_phase (op := op) ({ phase := s.phase } : Spec V) s rfl] at h2
    obtain ⟨-, l, hl⟩ := exec_told hi op h1 e1
    have hd1 : a1.descs = a.descs := by
      rw [descs_exec e1]
      cases op with
      | registerStat d => exact absurd h1.1 hne
      | _ => simp [registered]
    obtain ⟨a', evs, g1, g2, g3, g4, g5, g6, g7, g8⟩ := ops_told ops a1 (s.step op) i1 (step_phase hne op) h2 h3
    refine ⟨a', toldOf dflt a s op ++ evs, ?_, g2, g3.trans hd1, ?_, ?_, ?_, ?_, ?_⟩
    · simp only [List.foldlM_cons, e1]
      exact g1
    · intro k log hk
      rw [← List.append_assoc]
      refine g4 k _ ?_
      rw [hl, List.getElem?_append_left, List.getElem?_map, hk]
      · rfl
      · rw [List.length_map]; exact (List.getElem?_eq_some_iff.1 hk).1
    · intro n hn
      rcases List.mem_append.1 hn with hn | hn
      · cases op <;> simp only [toldOf] at hn <;> (try split at hn) <;> simp_all
      · exact g5 n hn
    · intro n hn
      rcases List.mem_append.1 hn with hn | hn
      · cases op <;> simp only [toldOf] at hn <;> (try split at hn) <;> simp_all
      · exact List.mem_cons_of_mem _ (g6 n hn)
    · intro h o hn
      rcases List.mem_append.1 hn with hn | hn
      · cases op <;> simp only [toldOf] at hn <;> (try split at hn) <;> simp_all [expectedOutputs]
      · rw [← hd1]; exact g7 h o hn
    · intro hs
      rw [List.length_append, g8 fun n hn => hs n (List.mem_cons_of_mem _ hn)]
      show _ = (if Reports s.phase op then 1 else 0) + reports (s.step op) ops
      congr 1
      have hop : ∀ n, op ≠ .setCurrentExperiment n := fun n hn => hs n (hn ▸ List.mem_cons_self)
      cases op with
      | setCurrentExperiment n => exact absurd rfl (hop n)
      | «initialize» => simp [toldOf, Reports, hne]
      | snapshot t t' => simp only [toldOf, Reports]; split <;> simp_all
      | _ => simp [toldOf, Reports]

def isSink : Op S V → Bool
  | .registerSink => true
  | _ => false

/-- Calls that stay before `Initialize` tell the sinks nothing. -/
theorem ops_before {dflt : S} : ∀ (ops : List (Op S V)) (a : Agg S V) (s : Spec V), Inv dflt a s → s.phase = .init →
    (ops.foldl Spec.step s).phase = .init → Proper s.phase ops → (∀ d ∈ registered ops, FixedInit d) →
    (∀ l ∈ a.sinks, l = []) →
    ∃ a' : Agg S V, ops.foldlM (exec dflt) a = some a' ∧ Inv dflt a' (ops.foldl Spec.step s) ∧
      a'.experiment = a.experiment ∧ a'.descs = a.descs ++ registered ops ∧
      (∀ l ∈ a'.sinks, l = []) ∧ a'.sinks.length = a.sinks.length +
        (ops.filter isSink).length
  | [], a, s, hi, _, _, _, _, hl => ⟨a, rfl, hi, rfl, by simp [registered], hl, by simp⟩
  | op :: ops, a, s, hi, h0, h1, hp, hf, hl => by
    obtain ⟨p1, p2, p3⟩ := admits_of_proper hp hf
    obtain ⟨a1, e1, i1⟩ := exec_inv hi op p1
    rw [proper_phase (op := op) ({ phase := s.phase } : Spec V) s rfl] at p2
    obtain ⟨q1, -⟩ := exec_told hi op p1 e1
    have hs1 : (s.step op).phase = .init := by
      refine Decidable.byContradiction fun hne => ?_
      have : ∀ (l : List (Op S V)) (t : Spec V), t.phase ≠ .init → (l.foldl Spec.step t).phase ≠ .init := by
        intro l
        induction l with
        | nil => intro t h; exact h
        | cons x l ih => intro t h; exact ih _ (step_phase h x)
      exact this ops _ hne h1
    have key : a1.sinks = a.sinks ++ (if isSink op = true then [[]] else []) := by
      cases op with
      | registerSink => rw [← Option.some.inj e1]; rfl
      | «initialize» => simp [Spec.step, h0] at hs1
      | generate => exact absurd h0 p1
      | setCurrentExperiment n =>
        rw [← Option.some.inj e1]
        unfold Agg.setCurrentExperiment
        rw [if_pos (by simp [hi.phase, h0])]
        simp [isSink]
      | hardcode h => rw [← Option.some.inj e1]; simp [isSink]
      | registerStat d => rw [← Option.some.inj e1]; simp [Agg.registerStat, isSink]
      | startRecording t => rw [← Option.some.inj e1, (start_sinks a t).1]; simp [isSink]
      | stopRecording t => rw [← Option.some.inj e1, (stop_sinks a t).1]; simp [isSink]
      | reset => rw [(reset_sinks (show a.reset = some a1 from e1)).1]; simp [isSink]
      | update id v =>
        simp only [exec, Agg.update] at e1
        rw [if_pos (by simp [hi.phase, h0])] at e1
        rw [← Option.some.inj e1]; simp [isSink]
      | snapshot t t' =>
        simp only [exec, Agg.snapshot] at e1
        rw [if_pos (by simp [hi.phase, h0])] at e1
        rw [← Option.some.inj e1]; simp [isSink]
    obtain ⟨a', g1, g2, g3, g4, g5, g6⟩ := ops_before ops a1 (s.step op) i1 hs1 h1 p2 p3 (by
      rw [key]
      intro l hm
      rcases List.mem_append.1 hm with hm | hm
      · exact hl l hm
      · split at hm <;> simp_all)
    refine ⟨a', ?_, g2, g3.trans q1, ?_, g5, ?_⟩
    · simp only [List.foldlM_cons, e1]; exact g1
    · rw [g4, descs_exec e1, registered_cons op ops, List.append_assoc]
    · rw [g6, key, List.length_append, List.filter_cons]
      split <;> simp_all <;> omega

theorem rows_of {evs : List (SinkEvent S)} (h : ∀ x ∈ evs, ∃ hd o, x = .process hd o) :
    ∃ rows : List (Hard × List S), evs = rows.map fun r => .process r.1 r.2 := by
  induction evs with
  | nil => exact ⟨[], rfl⟩
  | cons x xs ih =>
    obtain ⟨hd, o, rfl⟩ := h x List.mem_cons_self
    obtain ⟨rows, rfl⟩ := ih fun y hy => h y (List.mem_cons_of_mem _ hy)
    exact ⟨(hd, o) :: rows, rfl⟩

theorem proper_append : ∀ (l m : List (Op S V)) (s : Spec V), Proper s.phase (l ++ m) →
    Proper s.phase l ∧ Proper (l.foldl Spec.step s).phase m
  | [], m, s, h => ⟨trivial, h⟩
  | x :: l, m, s, h => by
    have hstep : (Spec.step ({ phase := s.phase } : Spec V) x).phase = (s.step x).phase := proper_phase _ _ rfl
    cases x with
    | registerStat d => exact ⟨⟨h.1, (proper_append l m s h.2).1⟩, (proper_append l m s h.2).2⟩
    | generate => exact ⟨⟨h.1, (proper_append l m s h.2).1⟩, (proper_append l m s h.2).2⟩
    | _ =>
      have h' : Proper _ (l ++ m) := h
      rw [hstep] at h'
      obtain ⟨h1, h2⟩ := proper_append l m (s.step _) h'
      refine ⟨?_, h2⟩
      rw [← hstep] at h1
      exact h1

theorem registered_append (l m : List (Op S V)) : registered (l ++ m) = registered l ++ registered m := by
  induction l with
  | nil => rfl
  | cons x l ih => rw [List.cons_append, registered_cons, ih, ← List.append_assoc, ← registered_cons]

end CN24.Csv
