import Verif.Model.ConsoleSink
import Verif.Spec.ConsoleReport
import Verif.Proof.MatrixReport
import Verif.Props.CsvFiles

/-!
C101: the statistics on the console.
-/

namespace CN24.Console
open CN24 CN24.Stats CN24.Config CN24.MatrixReport CN24.ReadConsole CN24.Props
open CN24.ReadReport (split body decimal)
open CN24.Csv (Reports isSink toldOf exec_told ops_told proper_append step_phase registered_append)
variable {S D V : Type _}

/-- The entries that a report should have: one per statistic that is not null, in the order of registration. -/
def entriesOf (e : Env S D) (descs : List (Str × Str)) (stats : List S) : List Entry :=
  (descs.zip stats).filterMap fun p => (e.value p.2).map fun v => ⟨p.1.1, e.real v, p.1.2⟩

/-- The report of a call. -/
def reportOf (e : Env S D) (descs : List (Str × Str)) (hard : Hard) (stats : List S) : Report :=
  ⟨hard.isTraining, some hard.epoch, entriesOf e descs stats⟩

/-- Descriptions, units and numbers can be told apart. -/
structure Readable (e : Env S D) : Prop where
  colon : ∀ d ∈ e.descs, ':' ∉ d.1
  blank : ∀ d ∈ e.descs, d.1.head? ≠ some ' '
  heading : ∀ d ∈ e.descs, ¬ "Stats for epoch ".toList <+: d.1
  line : ∀ d ∈ e.descs, '\n' ∉ d.1 ∧ '\n' ∉ d.2
  value : ∀ v, e.real v ≠ [] ∧ ' ' ∉ e.real v ∧ '\n' ∉ e.real v
  places : '\n' ∉ e.initPlace ∧ '\n' ∉ e.experimentPlace

/-! ### Reading -/

theorem split_ne_nil (a : Str) : split a ≠ [] := by
  cases a with
  | nil => simp [split]
  | cons c a =>
    rw [split]
    split
    · simp
    · split <;> simp

theorem split_two (a b : Str) : split (a ++ '\n' :: b) = split a ++ split b := by
  induction a with
  | nil => exact if_pos rfl
  | cons c a ih =>
    rw [List.cons_append, split, split, ih]
    split
    · rfl
    · cases h : split a with
      | nil => exact absurd h (split_ne_nil a)
      | cons l ls => rfl

theorem foldr_step (ls : List Str) (R : List Report) :
    ls.foldr step ([], R) = ((ls.foldr step ([], [])).1, (ls.foldr step ([], [])).2 ++ R) := by
  induction ls with
  | nil => rfl
  | cons l ls ih =>
    rw [List.foldr_cons, List.foldr_cons, ih]
    unfold step
    split
    · rfl
    · split <;> rfl

theorem kind_lineOf (tr : Bool) (t : Str) : kind (lineOf tr t) = some tr := by
  unfold kind lineOf
  cases tr
  · have : (("\x1b[1;32mRESULT --- ".toList ++ t ++ "\x1b[0m".toList).take 18) = "\x1b[1;32mRESULT --- ".toList := by
      rw [List.append_assoc]; exact List.take_left' rfl
    simp only [Bool.false_eq_true, if_false, this]
    decide
  · have : (("\x1b[1;34mRESULT --- ".toList ++ t ++ "\x1b[0m".toList).take 18) = "\x1b[1;34mRESULT --- ".toList := by
      rw [List.append_assoc]; exact List.take_left' rfl
    simp only [if_true, this]

theorem kind_of_head {line : Str} (h : ∀ s, line ≠ '\x1b' :: '[' :: '1' :: ';' :: s) : kind line = none := by
  have hp : ∀ (p : Str), (∃ t, p = '\x1b' :: '[' :: '1' :: ';' :: t) → line.take 18 ≠ p := by
    rintro _ ⟨t, rfl⟩ e
    refine h (t ++ line.drop 18) ?_
    conv => lhs; rw [← List.take_append_drop 18 line, e]
    rfl
  unfold kind
  exact (if_neg (hp _ ⟨"34mRESULT --- ".toList, by decide⟩)).trans (if_neg (hp _ ⟨"32mRESULT --- ".toList, by decide⟩))

/-- A line that is no result changes nothing. -/
theorem reports_other (out line : Str) (hn : '\n' ∉ line) (hk : kind line = none) :
    reports (out ++ '\n' :: line) = reports out := by
  unfold reports
  rw [split_two, split_single hn, List.foldr_append]
  have : [line].foldr step ([], []) = ([], []) := by
    show step line ([], []) = _
    unfold step
    rw [hk]
  rw [this]

/-! ### The lines -/

theorem heading_line (n : Nat) (tr : Bool) (es : List Entry) (R : List Report) :
    step (lineOf tr ("Stats for epoch ".toList ++ digitsOf n ++ ":".toList)) (es, R) = ([], ⟨tr, some n, es⟩ :: R) := by
  unfold step
  rw [kind_lineOf, body_lineOf]
  dsimp only
  have h1 : (("Stats for epoch ".toList ++ digitsOf n ++ ":".toList).take 16) = "Stats for epoch ".toList := by
    rw [List.append_assoc]; exact List.take_left' rfl
  have h2 : (("Stats for epoch ".toList ++ digitsOf n ++ ":".toList).drop 16) = digitsOf n ++ ":".toList := by
    rw [List.append_assoc]; exact List.drop_left' rfl
  rw [if_pos h1, h2]
  have h3 : (digitsOf n ++ ":".toList).takeWhile (fun c => decide (c ≠ ':')) = digitsOf n := by
    rw [List.takeWhile_append_of_pos]
    · show digitsOf n ++ List.takeWhile (fun c => decide (c ≠ ':')) [':'] = _
      simp
    · intro c hc
      have := digitsOf_isDigit hc
      simp only [decide_eq_true_eq]
      rintro rfl
      exact absurd this (by decide)
  rw [h3, decimal_digitsOf]

theorem while_free {c : Char} {a b : Str} (h : c ∉ a) :
    (a ++ c :: b).takeWhile (fun x => decide (x ≠ c)) = a ∧ (a ++ c :: b).dropWhile (fun x => decide (x ≠ c)) = c :: b := by
  have ha : ∀ x ∈ a, decide (x ≠ c) = true := fun x hx => by
    simp only [decide_eq_true_eq]
    rintro rfl
    exact h hx
  rw [List.takeWhile_append_of_pos ha, List.dropWhile_append_of_pos ha]
  simp

theorem entry_statLine {e : Env S D} (hr : Readable e) {d : Str × Str} (hd : d ∈ e.descs) (v : D) :
    entry (statLine e d v) = ⟨d.1, e.real v, d.2⟩ := by
  have h1 : ReadReport.strip (statLine e d v) = d.1 ++ ':' :: (' ' :: (pad 24 (e.real v) ++ ' ' :: d.2)) := by
    unfold statLine pad
    simp only [List.append_assoc]
    rw [strip_blanks]
    · rfl
    · cases hq : d.1 with
      | nil => simp
      | cons c s =>
        have := hr.blank d hd
        rw [hq] at this
        simpa using this
  obtain ⟨w1, w2⟩ := while_free (b := ' ' :: (pad 24 (e.real v) ++ ' ' :: d.2)) (hr.colon d hd)
  have h2 : ReadReport.strip (((ReadReport.strip (statLine e d v)).dropWhile (fun x => decide (x ≠ ':'))).drop 2) = e.real v ++ ' ' :: d.2 := by
    rw [h1, w2]
    show ReadReport.strip (pad 24 (e.real v) ++ ' ' :: d.2) = _
    unfold pad
    rw [List.append_assoc, strip_blanks]
    cases hq : e.real v with
    | nil => exact absurd hq (hr.value v).1
    | cons c s =>
      have := (hr.value v).2.1
      rw [hq] at this
      simp only [List.cons_append, List.head?_cons, ne_eq, Option.some.injEq]
      rintro rfl
      exact this (by simp)
  obtain ⟨w3, w4⟩ := while_free (b := d.2) (hr.value v).2.1
  unfold entry
  dsimp only
  rw [h2, w3, w4, h1, w1]
  rfl

theorem statLine_heading {e : Env S D} (hr : Readable e) {d : Str × Str} (hd : d ∈ e.descs) (v : D) :
    (statLine e d v).take 16 ≠ "Stats for epoch ".toList := by
  intro h
  by_cases hl : d.1.length < 32
  · have : (statLine e d v).head? = some ' ' := by
      unfold statLine pad
      obtain ⟨k, hk⟩ : ∃ k, 32 - d.1.length = k + 1 := ⟨31 - d.1.length, by omega⟩
      rw [hk]
      rfl
    have h2 := congrArg List.head? h
    rw [List.head?_take, this] at h2
    exact absurd h2 (by decide)
  · have e1 : pad 32 d.1 = d.1 := by
      unfold pad
      rw [show 32 - d.1.length = 0 by omega]
      rfl
    have h3 : (statLine e d v).take 16 = d.1.take 16 := by
      unfold statLine
      rw [e1]
      simp only [List.append_assoc]
      rw [List.take_append_of_le_length (by omega)]
    exact hr.heading d hd (by rw [← h, h3]; exact List.take_prefix _ _)

theorem statLine_step {e : Env S D} (hr : Readable e) {d : Str × Str} (hd : d ∈ e.descs) (v : D) (tr : Bool)
    (es : List Entry) (R : List Report) :
    step (lineOf tr (statLine e d v)) (es, R) = (⟨d.1, e.real v, d.2⟩ :: es, R) := by
  unfold step
  rw [kind_lineOf, body_lineOf]
  dsimp only
  rw [if_neg (statLine_heading hr hd v), entry_statLine hr hd]

theorem statLine_clean {e : Env S D} (hr : Readable e) {d : Str × Str} (hd : d ∈ e.descs) (v : D) : '\n' ∉ statLine e d v := by
  unfold statLine pad
  obtain ⟨h1, h2⟩ := hr.line d hd
  have h3 := (hr.value v).2.2
  have h4 : ∀ k, '\n' ∉ List.replicate k ' ' := fun k h => absurd (List.eq_of_mem_replicate h) (by decide)
  simp only [List.mem_append, not_or]
  exact ⟨⟨⟨⟨⟨h4 _, h1⟩, by decide⟩, h4 _, h3⟩, by decide⟩, h2⟩

/-! ### Reports -/

/-- The lines below a heading. -/
def below (e : Env S D) (ps : List ((Str × Str) × S)) : List Str :=
  ps.filterMap fun p => (e.value p.2).map fun v => statLine e p.1 v

theorem process_loop (e : Env S D) (tr : Bool) (descs : List (Str × Str)) (stats : List S) (h : descs.length ≤ stats.length)
    (out : Str) :
    forLoop descs.length (fun s out =>
      (rd stats s).bind fun x =>
      match e.value x with
      | none => some out
      | some v => (rd descs s).map fun d => out ++ result tr (statLine e d v)) out =
      some (out ++ (below e (descs.zip stats)).flatMap (result tr)) := by
  have key : ∀ n, n ≤ descs.length → forLoop n (fun s out =>
      (rd stats s).bind fun x =>
      match e.value x with
      | none => some out
      | some v => (rd descs s).map fun d => out ++ result tr (statLine e d v)) out =
      some (out ++ (below e ((descs.zip stats).take n)).flatMap (result tr)) := by
    intro n
    induction n with
    | zero => intro _; simp [below]
    | succ n ih =>
      intro hn
      rw [forLoop_succ, ih (by omega)]
      have h1 : n < descs.length := by omega
      have h2 : n < stats.length := by omega
      have hz : n < (descs.zip stats).length := by rw [List.length_zip]; omega
      rw [List.take_succ_eq_append_getElem hz]
      simp only [Option.bind_some, rd, List.getElem?_eq_getElem h1, List.getElem?_eq_getElem h2, List.getElem_zip]
      unfold below
      rw [List.filterMap_append, List.flatMap_append]
      cases hv : e.value stats[n] with
      | none => simp [hv]
      | some v => simp [hv]
  have := key descs.length (Nat.le_refl _)
  rwa [List.take_of_length_le (by rw [List.length_zip]; omega)] at this

theorem below_clean {e : Env S D} (hr : Readable e) {descs : List (Str × Str)} (hs : ∀ d ∈ descs, d ∈ e.descs) (stats : List S) :
    ∀ l ∈ below e (descs.zip stats), '\n' ∉ l := by
  intro l hl
  obtain ⟨p, hp, he⟩ := List.mem_filterMap.1 hl
  obtain ⟨v, -, rfl⟩ := Option.map_eq_some_iff.1 he
  exact statLine_clean hr (hs _ (List.of_mem_zip hp).1) v

theorem below_step {e : Env S D} (hr : Readable e) (tr : Bool) (R : List Report) : ∀ (ps : List ((Str × Str) × S)),
    (∀ p ∈ ps, p.1 ∈ e.descs) →
    ((below e ps).map (lineOf tr)).foldr step ([], R) =
      (ps.filterMap fun p => (e.value p.2).map fun v => ⟨p.1.1, e.real v, p.1.2⟩, R)
  | [], _ => rfl
  | p :: ps, h => by
    have ih := below_step hr tr R ps fun q hq => h q (by simp [hq])
    unfold below at ih ⊢
    cases hv : e.value p.2 with
    | none => simpa [hv] using ih
    | some v =>
      simp only [List.filterMap_cons, hv, Option.map_some, List.map_cons, List.foldr_cons]
      rw [ih, statLine_step hr (h p (by simp))]

/-- **C101 (a report).**  Whatever stands on the console already: a call with at least as many statistics as descriptors adds
exactly one report; a reader of the console finds in it the epoch, the colour of training or testing, and for every statistic
that is not null its description, value and unit, in the order of registration. -/
theorem C101_report {e : Env S D} (hr : Readable e) {descs : List (Str × Str)} (hs : ∀ d ∈ descs, d ∈ e.descs) (out : Str)
    (hard : Hard) (stats : List S) (h : descs.length ≤ stats.length) :
    ∃ t, process e hard stats (descs, out) = some (descs, out ++ t) ∧
      reports (out ++ t) = reports out ++ [reportOf e descs hard stats] := by
  refine ⟨result hard.isTraining ("Stats for epoch ".toList ++ digitsOf hard.epoch ++ ":".toList) ++
    (below e (descs.zip stats)).flatMap (result hard.isTraining), ?_, ?_⟩
  · unfold process
    refine (congrArg (Option.map fun out => (descs, out)) (process_loop e hard.isTraining descs stats h _)).trans ?_
    rw [Option.map_some, List.append_assoc]
  · have hc : '\n' ∉ lineOf hard.isTraining ("Stats for epoch ".toList ++ digitsOf hard.epoch ++ ":".toList) := by
      apply lineOf_clean
      simp only [List.mem_append, not_or]
      exact ⟨⟨by decide, digitsOf_clean _⟩, by decide⟩
    have hsp := (split_lines hard.isTraining _ (below_clean hr hs stats)).2 _ hc
    unfold reports
    show ((split (out ++ '\n' :: (lineOf hard.isTraining ("Stats for epoch ".toList ++ digitsOf hard.epoch ++ ":".toList) ++
      (below e (descs.zip stats)).flatMap (result hard.isTraining)))).foldr step ([], [])).2 = _
    rw [split_two, hsp, List.foldr_append, List.foldr_cons,
      below_step hr _ _ _ fun p hp => hs _ (List.of_mem_zip hp).1, heading_line, foldr_step]
    rfl

theorem debug_reports {e : Env S D} (hr : Readable e) (out text : Str) (ht : '\n' ∉ text) :
    reports (out ++ debug e text) = reports out := by
  unfold debug
  split
  · rw [List.append_nil]
  · apply reports_other
    · simp only [List.mem_append, not_or]
      exact ⟨⟨⟨by decide, hr.places.1⟩, by decide⟩, ht⟩
    · apply kind_of_head
      intro s e
      exact absurd (List.cons.inj e).1 (by decide)

theorem info_reports {e : Env S D} (hr : Readable e) (out text : Str) (ht : '\n' ∉ text) :
    reports (out ++ info e text) = reports out := by
  unfold info
  split
  · rw [List.append_nil]
  · apply reports_other
    · simp only [List.mem_append, not_or]
      exact ⟨⟨⟨by decide, hr.places.2⟩, by decide⟩, ht⟩
    · apply kind_of_head
      intro s e
      have := (List.cons.inj (List.cons.inj (List.cons.inj (List.cons.inj e).2).2).2).1
      exact absurd this (by decide)

theorem register_reports {e : Env S D} (hr : Readable e) (n : Nat) (st : List (Str × Str) × Str) :
    reports (register e n st).2 = reports st.2 := by
  unfold register
  dsimp only
  have key : ∀ (ds : List (Str × Str)) (out : Str), (∀ d ∈ ds, d ∈ e.descs) →
      reports (out ++ ds.flatMap fun d => debug e (" - ".toList ++ d.1)) = reports out := by
    intro ds
    induction ds with
    | nil => intro out _; simp
    | cons d ds ih =>
      intro out h
      rw [List.flatMap_cons, ← List.append_assoc, ih _ fun x hx => h x (by simp [hx]), debug_reports hr]
      simp only [List.mem_append, not_or]
      exact ⟨by decide, (hr.line d (h d (by simp))).1⟩
  rw [key _ _ fun d hd => List.mem_of_mem_take hd, debug_reports hr _ _ (by decide)]

/-- The reports in a list of calls. -/
def told (e : Env S D) (descs : List (Str × Str)) (events : List (SinkEvent S)) : List Report :=
  events.filterMap fun
    | .process hard stats => some (reportOf e descs hard stats)
    | _ => none

/-- The calls after `Initialize`. -/
structure Calls (n : Nat) (events : List (SinkEvent S)) : Prop where
  noInit : ∀ k, .initialize k ∉ events
  names : ∀ name : String, .setExperiment name ∈ events → '\n' ∉ name.toList
  full : ∀ h o, .process h o ∈ events → n ≤ o.length

theorem Calls.tail {n : Nat} {x : SinkEvent S} {xs : List (SinkEvent S)} (h : Calls n (x :: xs)) : Calls n xs :=
  ⟨fun k hk => h.noInit k (by simp [hk]), fun k hk => h.names k (by simp [hk]), fun a b hk => h.full a b (by simp [hk])⟩

theorem run_reports {e : Env S D} (hr : Readable e) {descs : List (Str × Str)} (hs : ∀ d ∈ descs, d ∈ e.descs) :
    ∀ (events : List (SinkEvent S)) (out : Str), Calls descs.length events →
      ∃ out', sinkRun e events (descs, out) = some (descs, out') ∧ reports out' = reports out ++ told e descs events
  | [], out, _ => ⟨out, rfl, by simp [told]⟩
  | ev :: events, out, h => by
    have step (st : Str) (he : onEvent e (descs, out) ev = some (descs, st))
        (hst : reports st = reports out ++ told e descs [ev]) :
        ∃ out', sinkRun e (ev :: events) (descs, out) = some (descs, out') ∧
          reports out' = reports out ++ told e descs (ev :: events) := by
      obtain ⟨out', e1, e2⟩ := run_reports hr hs events st h.tail
      refine ⟨out', ?_, ?_⟩
      · show (onEvent e (descs, out) ev).bind _ = _
        rw [he]
        exact e1
      · rw [e2, hst, List.append_assoc]
        unfold told
        rw [← List.filterMap_append]
        rfl
    cases ev with
    | «initialize» k => exact absurd (List.mem_cons_self) (h.noInit k)
    | setExperiment name =>
      refine step _ rfl ?_
      have hn := h.names name List.mem_cons_self
      show reports (out ++ info e _) = _
      rw [info_reports hr]
      · simp [told]
      · simp only [List.mem_append, not_or]
        exact ⟨by decide, hn⟩
    | process hard stats =>
      obtain ⟨t, e1, e2⟩ := C101_report hr hs out hard stats (h.full hard stats List.mem_cons_self)
      exact step _ e1 e2

/-- **C101 (all reports).**  For every log level and every sequence of calls of the collector after `Initialize`, the console
shows exactly the reports of the calls of `Process`, in their order; announcements of experiments and debug output do not
disturb them. -/
theorem C101_reports {e : Env S D} (hr : Readable e) (out : Str) (n : Nat) (events : List (SinkEvent S))
    (hc : Calls (e.descs.take n).length events) :
    ∃ out', sinkRun e (.initialize n :: events) ([], out) = some (e.descs.take n, out') ∧
      reports out' = reports out ++ told e (e.descs.take n) events := by
  obtain ⟨out', e1, e2⟩ := run_reports hr (descs := e.descs.take n) (fun d hd => List.mem_of_mem_take hd) events
    (register e n ([], out)).2 hc
  refine ⟨out', e1, ?_⟩
  rw [e2, register_reports hr]

/-- **C101 (from the recorded values to the console).**  The sink was registered before the collector was initialised.  Then
after every sequence of calls the console can be read, and a call that reports (`Generate`, or `Snapshot` while recording) adds
one report, which shows for every statistic the output function applied to the values recorded since the last reset. -/
theorem C101_collector {e : Env S D} (hr : Readable e) (dflt : S) (b m : List (Op S V)) (r : Op S V)
    (hp : Proper .init (b ++ [.initialize] ++ m ++ [r]))
    (hf : ∀ d ∈ registered (b ++ [.initialize] ++ m ++ [r]), FixedInit d)
    (hb : (Spec.after b).phase = .init) (k : Nat) (hk : k < (b.filter isSink).length)
    (hd : e.descs.length = (registered b).length)
    (hn : ∀ name : String, .setCurrentExperiment name ∈ m → '\n' ∉ name.toList)
    (hrep : Reports (Spec.after (b ++ [.initialize] ++ m)).phase r) :
    ∃ a a' log log' out out' hard outputs,
      run dflt (b ++ [.initialize] ++ m) = some a ∧ a.sinks[k]? = some log ∧ sinkRun e log ([], []) = some (e.descs, out) ∧
      run dflt (b ++ [.initialize] ++ m ++ [r]) = some a' ∧ a'.sinks[k]? = some log' ∧
      sinkRun e log' ([], []) = some (e.descs, out') ∧
      reports out' = reports out ++ [⟨hard.isTraining, some hard.epoch, entriesOf e e.descs outputs⟩] ∧
      hard.isTraining = a.hard.isTraining ∧ hard.epoch = a.hard.epoch ∧ outputs.length = (registered b).length ∧
      ∀ (j : Nat) (d : Desc S V), (registered b)[j]? = some d → outputs[j]? = some (d.outputF hard
        (((Spec.after (b ++ [.initialize] ++ m)).recorded j).foldl d.updateF (d.initF dflt))) := by
  have rg := fun l m : List (Op S V) => registered_append l m
  simp only [rg, List.mem_append] at hf
  obtain ⟨q1, p3⟩ := proper_append _ [r] {} hp
  obtain ⟨q2, p2⟩ := proper_append _ m {} q1
  obtain ⟨a0, e0, i0, d0, l0⟩ := init_log (dflt := dflt) b q2 (fun d h => hf d (by simp only [h, true_or])) hb k hk
  have ne0 : (Spec.after (b ++ [.initialize])).phase ≠ .init := by
    unfold Spec.after at hb ⊢
    rw [List.foldl_append]
    simp [Spec.step, hb]
  obtain ⟨a1, v1, e1, i1, d1, l1, n1, s1, f1, -⟩ := ops_told m a0 _ i0 ne0 p2
    (fun d h => hf d (by simp only [h, true_or, or_true]))
  have st1 : m.foldl Spec.step (Spec.after (b ++ [.initialize])) = Spec.after (b ++ [.initialize] ++ m) := by
    rw [after_append _ m]
  rw [st1] at i1
  have ne1 : (Spec.after (b ++ [.initialize] ++ m)).phase ≠ .init := by
    rw [← st1]
    have : ∀ (l : List (Op S V)) (t : Spec V), t.phase ≠ .init → (l.foldl Spec.step t).phase ≠ .init := by
      intro l
      induction l with
      | nil => intro t h; exact h
      | cons x l ih => intro t h; exact ih _ (step_phase h x)
    exact this m _ ne0
  have adm : Admits (Spec.after (b ++ [.initialize] ++ m)).phase r := by
    cases r with
    | generate => exact ne1
    | registerStat d => exact absurd hrep (by simp [Reports])
    | _ => trivial
  obtain ⟨a2, e2, i2⟩ := exec_inv i1 r adm
  obtain ⟨-, x2, l2⟩ := exec_told i1 r adm e2
  obtain ⟨hard, htold, hh1, hh2⟩ : ∃ hard, toldOf dflt a1 (Spec.after (b ++ [.initialize] ++ m)) r =
      [.process hard (expectedOutputs dflt a1.descs hard (Spec.after (b ++ [.initialize] ++ m)))] ∧
      hard.isTraining = a1.hard.isTraining ∧ hard.epoch = a1.hard.epoch := by
    cases r with
    | generate => exact ⟨_, rfl, rfl, rfl⟩
    | snapshot t t' => exact ⟨_, if_pos hrep, rfl, rfl⟩
    | _ => exact absurd hrep (by simp [Reports])
  have d1' : a1.descs = registered b := d1.trans d0
  have log1 := l1 k _ l0
  have log2 : a2.sinks[k]? = some ([.initialize (registered b).length, .setExperiment "unnamed"] ++ v1 ++
      [.process hard (expectedOutputs dflt a1.descs hard (Spec.after (b ++ [.initialize] ++ m)))]) := by
    rw [l2, List.getElem?_append_left (by rw [List.length_map]; exact (List.getElem?_eq_some_iff.1 log1).1),
      List.getElem?_map, log1, htold]
    rfl
  generalize hout : expectedOutputs dflt a1.descs hard (Spec.after (b ++ [.initialize] ++ m)) = outputs at log2
  have hol : outputs.length = (registered b).length := by rw [← hout, d1']; simp [expectedOutputs]
  have htk : e.descs.take (registered b).length = e.descs := List.take_of_length_le (by omega)
  have hcalls : Calls (S := S) e.descs.length (.setExperiment "unnamed" :: v1) := by
    refine ⟨?_, ?_, ?_⟩
    · intro j hj
      rcases List.mem_cons.1 hj with hj | hj
      · simp at hj
      · exact n1 j hj
    · intro x hx
      rcases List.mem_cons.1 hx with hx | hx
      · obtain rfl := SinkEvent.setExperiment.inj hx
        decide
      · exact hn x (s1 x hx)
    · intro h o hx
      rcases List.mem_cons.1 hx with hx | hx
      · simp at hx
      · rw [f1 h o hx, d0, hd]
  obtain ⟨out, o1, o2⟩ := C101_reports hr [] (registered b).length (.setExperiment "unnamed" :: v1) (by rw [htk]; exact hcalls)
  rw [htk] at o1 o2
  obtain ⟨t, t1, t2⟩ := C101_report hr (descs := e.descs) (fun d hd => hd) out hard outputs (by omega)
  have hrun1 : run dflt (b ++ [.initialize] ++ m) = some a1 := by
    unfold run at e0 ⊢
    rw [List.foldlM_append, e0]
    exact e1
  refine ⟨a1, a2, _, _, out, out ++ t, hard, outputs, hrun1, log1, o1, ?_, log2, ?_, t2, hh1, hh2, hol, ?_⟩
  · unfold run at hrun1 ⊢
    rw [List.foldlM_append, hrun1]
    exact congrArg (Option.bind · _) e2 |>.trans rfl
  · have hs : ([.initialize (registered b).length, .setExperiment "unnamed"] ++ v1 ++ [.process hard outputs] :
        List (SinkEvent S)) = (.initialize (registered b).length :: .setExperiment "unnamed" :: v1) ++ [.process hard outputs] := by
      simp
    rw [hs]
    unfold sinkRun at o1 ⊢
    rw [List.foldlM_append, o1]
    exact congrArg (Option.bind · _) t1 |>.trans rfl
  · intro j d hj
    rw [← hout, d1']
    unfold expectedOutputs
    rw [List.getElem?_mapIdx, hj]
    rfl

/-- **C101 (too few statistics).**  A call with fewer statistics than descriptors reads behind their end. -/
theorem C101_too_few (e : Env S D) (descs : List (Str × Str)) (out : Str) (hard : Hard) (stats : List S)
    (h : stats.length < descs.length) : process e hard stats (descs, out) = none := by
  unfold process
  rw [Option.map_eq_none_iff]
  have key : ∀ (n : Nat) (o : Str), stats.length < n → forLoop n (fun s out =>
      (rd stats s).bind fun x =>
      match e.value x with
      | none => some out
      | some v => (rd descs s).map fun d => out ++ result hard.isTraining (statLine e d v)) o = none := by
    intro n
    induction n with
    | zero => intro o h; omega
    | succ n ih =>
      intro o hn
      rw [forLoop_succ]
      by_cases hlt : stats.length < n
      · rw [ih o hlt]; rfl
      · have : n = stats.length := by omega
        subst this
        cases forLoop stats.length _ o with
        | none => rfl
        | some o' => simp [rd]
  exact key _ _ h

/-! ### Examples -/

/-- Two statistics of the library and one of a user with a long description. -/
def demo : Env (Option Int) Int where
  level := 2
  initPlace := "ConsoleStatSink::Initialize(34)".toList
  experimentPlace := "ConsoleStatSink::SetCurrentExperiment(48)".toList
  descs := [("Average Aggregate Loss".toList, "1/pixel".toList), ("Frame Rate".toList, "frames/s".toList),
    ("A description that is longer than its column".toList, [])]
  real := fun v => (if v < 0 then "-" else "").toList ++ digitsOf v.natAbs
  value := id

example : Readable demo where
  colon := by decide
  blank := by decide
  heading := by decide
  line := by decide
  value := by
    intro v
    have h1 : ' ' ∉ digitsOf v.natAbs := fun h => absurd (digitsOf_isDigit h) (by decide)
    refine ⟨fun h => digitsOf_ne_nil _ (List.append_eq_nil_iff.1 h).2, ?_, ?_⟩
    · show ' ' ∉ (if v < 0 then "-" else "").toList ++ digitsOf v.natAbs
      rw [List.mem_append, not_or]
      exact ⟨by split <;> decide, h1⟩
    · show '\n' ∉ (if v < 0 then "-" else "").toList ++ digitsOf v.natAbs
      rw [List.mem_append, not_or]
      exact ⟨by split <;> decide, digitsOf_clean _⟩
  places := by decide

/-- The announcement and a report with one null statistic, as they stand on the console. -/
example : (sinkRun demo [.initialize 3, .setExperiment "exp",
      .process { epoch := 12, isTraining := true } [some (-7), none, some 5]] ([], [])).map (fun st => String.ofList st.2) =
    some ("\n\x1b[1mINF [ ConsoleStatSink::SetCurrentExperiment(48) ] \x1b[0mBeginning Experiment: exp" ++
      "\n\x1b[1;34mRESULT --- Stats for epoch 12:\x1b[0m" ++
      "\n\x1b[1;34mRESULT ---           Average Aggregate Loss:                       -7 1/pixel\x1b[0m" ++
      "\n\x1b[1;34mRESULT --- A description that is longer than its column:                        5 \x1b[0m") := by
  decide +kernel

example : (sinkRun demo [.initialize 3, .setExperiment "exp",
      .process { epoch := 12, isTraining := true } [some (-7), none, some 5]] ([], [])).map (fun st => reports st.2) =
    some [⟨true, some 12, [⟨"Average Aggregate Loss".toList, "-7".toList, "1/pixel".toList⟩,
      ⟨"A description that is longer than its column".toList, "5".toList, []⟩]⟩] := by
  decide +kernel

/-- A statistic that is null until it is updated, and otherwise the sum of its values. -/
def sums : Desc (Option Int) Int where
  initF := fun _ => none
  updateF := fun x v => some (x.getD 0 + v)
  outputF := fun _ x => x

/-- A history as in `C101_collector`: a report while recording and one afterwards. -/
example : let ops : List (Op (Option Int) Int) := [.registerStat sums, .registerSink, .registerStat sums, .registerStat sums,
      .initialize, .setCurrentExperiment "run 1", .startRecording 5, .update 0 4, .update 2 (-3), .update 0 3,
      .snapshot 8 9, .update 1 6, .stopRecording 12, .generate]
    Proper .init ops ∧ (∀ d ∈ registered ops, FixedInit d) ∧
    ∃ a log st, run none ops = some a ∧ a.sinks[0]? = some log ∧ sinkRun demo log ([], []) = some st ∧
      reports st.2 = [⟨false, some 0, [⟨"Average Aggregate Loss".toList, "7".toList, "1/pixel".toList⟩,
          ⟨"A description that is longer than its column".toList, "-3".toList, []⟩]⟩,
        ⟨false, some 0, [⟨"Frame Rate".toList, "6".toList, "frames/s".toList⟩]⟩] := by
  refine ⟨by simp [Proper, Spec.step], ?_, _, _, _, rfl, rfl, rfl, by decide +kernel⟩
  intro d hd
  simp only [registered, List.mem_cons, List.not_mem_nil, or_false, or_self] at hd
  subst hd
  intro x y
  rfl

end CN24.Console
