import Verif.Proof.CsvFiles
import Verif.Proof.ListStream

/-! C77: the CSV files of the experiments. -/

namespace CN24.Props
open CN24 CN24.Stats CN24.Csv
variable {S D V : Type _}

/-- The text of a file with the given lines. -/
def unlines (ls : List (List Char)) : List Char := ls.flatMap (· ++ ['\n'])

/-- The row of a record: the four fixed fields and one field per statistic. -/
def rowOf (e : Env S D) (r : Hard × List S) : List Char :=
  csvRow e.nat e.real r.1.isTraining r.1.epoch r.1.iterations (e.seconds r.1.secondsElapsed) (r.2.map e.value)

theorem rowLine_full (e : Env S D) {n : Nat} {h : Hard} {o : List S} (hn : o.length = n) :
    rowLine e n h o = some (rowOf e (h, o) ++ ['\n']) := by
  unfold rowLine rowOf
  rw [if_pos (by omega), List.take_of_length_le (by omega)]

theorem rows_text (e : Env S D) {n : Nat} {rows : List (Hard × List S)} (h : ∀ r ∈ rows, r.2.length = n) :
    (rows.flatMap fun r => (rowLine e n r.1 r.2).getD []) = unlines (rows.map (rowOf e)) := by
  unfold unlines
  rw [List.flatMap_map]
  refine List.flatMap_congr fun r hr => ?_
  rw [rowLine_full e (h r hr)]
  rfl

/-- Selecting an experiment and writing rows. -/
theorem select_rows {e : Env S D} (n : String) (rows : List (Hard × List S)) (s : Sink) (fs : Files)
    (ho : e.canOpen (csvPath n.toList) = true) (hl : ∀ r ∈ rows, r.2.length = s.descs.length) :
    ∃ fs', sinkRun e (.setExperiment n :: rows.map fun r => .process r.1 r.2) (s, fs) =
        some ({ s with stream := some (csvPath n.toList) }, fs') ∧
      fs' (csvPath n.toList) = some (unlines (csvHeader s.descs :: rows.map (rowOf e))) ∧
      ∀ p, p ≠ csvPath n.toList → fs' p = fs p := by
  obtain ⟨fs', e1, e2, e3⟩ := rows_run (e := e) rows { s with stream := some (csvPath n.toList) }
    (fs.set (csvPath n.toList) (csvHeader s.descs ++ ['\n'])) (csvHeader s.descs ++ ['\n']) rfl (if_pos rfl)
    (fun r hr => Nat.le_of_eq (hl r hr).symm)
  refine ⟨fs', ?_, ?_, ?_⟩
  · rw [sinkRun_cons]
    show (setExperiment e n.toList (s, fs)).bind _ = _
    unfold setExperiment
    rw [if_pos ho]
    exact e1
  · rw [e2, rows_text e hl]
    rfl
  · intro p hp
    rw [e3 p hp]
    exact if_neg hp

/-- The calls of a sink: well formed for `k` statistics. -/
structure Calls (e : Env S D) (k : Nat) (events : List (SinkEvent S)) : Prop where
  noInit : ∀ j, .initialize j ∉ events
  opens : ∀ name, .setExperiment name ∈ events → e.canOpen (csvPath name.toList) = true
  full : ∀ h o, .process h o ∈ events → o.length = k

theorem Calls.fine {e : Env S D} {k : Nat} {events : List (SinkEvent S)} (h : Calls e k events) : Fine e k events :=
  ⟨h.noInit, h.opens, fun a b hab => Nat.le_of_eq (h.full a b hab).symm⟩

/-- C77: whatever was selected and reported before, and whatever other experiments are selected afterwards, the file
of an experiment holds the header and exactly the rows reported between its last selection and the next one. -/
theorem C77_file (e : Env S D) (fs : Files) (n : String) (before after : List (SinkEvent S))
    (rows : List (Hard × List S))
    (hc : Calls e e.descriptions.length
      (before ++ (.setExperiment n :: rows.map fun r => .process r.1 r.2) ++ after))
    (ha : after = [] ∨ ∃ m l, after = .setExperiment m :: l) (hn : .setExperiment n ∉ after) :
    ∃ s fs', sinkRun e (.initialize e.descriptions.length ::
        (before ++ (.setExperiment n :: rows.map fun r => .process r.1 r.2) ++ after)) ({}, fs) = some (s, fs') ∧
      fs' (csvPath n.toList) = some (unlines (csvHeader e.descriptions :: rows.map (rowOf e))) := by
  have hfine := hc.fine
  rw [sinkRun_cons]
  show ∃ s fs', sinkRun e _ ({ descs := e.descriptions.take e.descriptions.length }, fs) = _ ∧ _
  rw [List.take_length, sinkRun_append, sinkRun_append]
  obtain ⟨s1, fs1, e1, d1⟩ := fine_run before ({ descs := e.descriptions } : Sink) fs
    (hfine.sub fun x hx => List.mem_append_left _ (List.mem_append_left _ hx))
  have hd : s1.descs = e.descriptions := d1
  rw [e1, Option.bind_some]
  obtain ⟨fs2, e2, t2, -⟩ := select_rows (e := e) n rows s1 fs1
    (hc.opens n (List.mem_append_left _ (List.mem_append_right _ List.mem_cons_self)))
    (fun r hr => by
      rw [hd]
      exact hc.full r.1 r.2 (List.mem_append_left _ (List.mem_append_right _
        (List.mem_cons_of_mem _ (List.mem_map.2 ⟨r, hr, rfl⟩)))))
  rw [e2, Option.bind_some]
  rw [hd] at t2
  rcases ha with rfl | ⟨m, l, rfl⟩
  · exact ⟨_, fs2, rfl, t2⟩
  · have hne : csvPath m.toList ≠ csvPath n.toList := by
      intro hq
      have := String.toList_inj.1 (csvPath_inj hq)
      subst this
      exact hn List.mem_cons_self
    rw [sinkRun_cons]
    show ∃ s' fs', (setExperiment e m.toList (_, fs2)).bind _ = _ ∧ _
    unfold setExperiment
    rw [if_pos (hc.opens m (List.mem_append_right _ List.mem_cons_self))]
    obtain ⟨s3, fs3, e3, -, t3, -⟩ := others_run (e := e) (n := n) l
      { descs := s1.descs, stream := some (csvPath m.toList) }
      (fs2.set (csvPath m.toList) (csvHeader s1.descs ++ ['\n']))
      (by
        rw [hd]
        exact hfine.sub fun x hx => List.mem_append_right _ (List.mem_cons_of_mem _ hx))
      (fun h => hn (List.mem_cons_of_mem _ h))
      (by rintro p hq; rw [← Option.some.inj hq]; exact hne)
    refine ⟨s3, fs3, e3, ?_⟩
    rw [t3]
    exact (if_neg fun hq => hne hq.symm).trans t2

/-- C77: the lines of that text are the header and the rows. -/
theorem C77_lines (e : Env S D) (rows : List (Hard × List S)) (h1 : ∀ n, '\n' ∉ e.nat n) (h2 : ∀ d, '\n' ∉ e.real d) :
    NetConfig.linesOf (unlines (csvHeader e.descriptions :: rows.map (rowOf e))) =
      (csvHeader e.descriptions :: rows.map (rowOf e)) ++ [[]] := by
  have hbody : ∀ l : List (List Char), (∀ x ∈ l, '\n' ∉ x) → '\n' ∉ csvBody l := by
    intro l hl hm
    unfold csvBody at hm
    obtain ⟨i, hi, hm⟩ := List.mem_flatMap.1 hm
    rcases List.mem_append.1 hm with hm | hm
    · have hi := List.mem_range.1 hi
      rw [List.getElem?_eq_getElem hi] at hm
      exact hl _ (List.getElem_mem hi) hm
    · split at hm
      · simp at hm
      · simp at hm
  refine ListStream.linesOf_unlines fun l hl => ?_
  rcases List.mem_cons.1 hl with rfl | hl
  · intro hm
    rcases List.mem_append.1 hm with hm | hm
    · revert hm; decide
    · refine hbody _ ?_ hm
      intro x hx
      obtain ⟨y, -, rfl⟩ := List.mem_map.1 hx
      intro hm
      have := (List.mem_filter.1 hm).2
      revert this; decide
  · obtain ⟨r, -, rfl⟩ := List.mem_map.1 hl
    have h3 : '\n' ∉ csvBody ((r.2.map e.value).map fun | some v => e.real v | none => []) := by
      refine hbody _ fun x hx => ?_
      obtain ⟨y, -, rfl⟩ := List.mem_map.1 hx
      cases y with
      | none => simp
      | some v => exact h2 v
    unfold rowOf csvRow
    simp only [List.mem_append, not_or]
    refine ⟨⟨⟨⟨⟨⟨⟨⟨?_, by decide⟩, h1 _⟩, by decide⟩, h1 _⟩, by decide⟩, h2 _⟩, by decide⟩, h3⟩
    split <;> decide

/-- C77, killed programs: if the program is killed during a later call that does not select the same experiment, the
header and all rows reported before are still in the file, followed at most by a part of one row. -/
theorem C77_crash (e : Env S D) (n : String) (rows : List (Hard × List S)) (s : Sink) (fs : Files)
    (ho : e.canOpen (csvPath n.toList) = true) (hl : ∀ r ∈ rows, r.2.length = s.descs.length) :
    ∃ st, sinkRun e (.setExperiment n :: rows.map fun r => .process r.1 r.2) (s, fs) = some st ∧
      ∀ ev left, ev ≠ .setExperiment n → LeftBy e st ev left →
        ∃ w, left (csvPath n.toList) = some (unlines (csvHeader s.descs :: rows.map (rowOf e)) ++ w) ∧
          (∀ h o, ev = .process h o → o.length = s.descs.length → w <+: rowOf e (h, o) ++ ['\n']) ∧
          ((∀ h o, ev ≠ .process h o) → w = []) := by
  obtain ⟨fs', e1, e2, -⟩ := select_rows (e := e) n rows s fs ho hl
  refine ⟨_, e1, fun ev left hev hleft => ?_⟩
  generalize hst : (({ s with stream := some (csvPath n.toList) } : Sink), fs') = st at hleft
  cases hleft with
  | same =>
    subst hst
    exact ⟨[], by rw [List.append_nil]; exact e2, fun _ _ _ _ => List.nil_prefix, fun _ => rfl⟩
  | row s' fs'' hard stats path l w hs hr hw =>
    obtain ⟨rfl, rfl⟩ := Prod.mk.inj hst
    obtain rfl := Option.some.inj hs
    refine ⟨w, ?_, ?_, fun h => absurd rfl (h hard stats)⟩
    · show (if csvPath n.toList = csvPath n.toList then _ else _) = _
      rw [if_pos rfl, e2]
      rfl
    · intro h o heq hlen
      obtain ⟨rfl, rfl⟩ := SinkEvent.process.inj heq
      have hr' := (rowLine_full e (h := hard) hlen).symm.trans hr
      rw [Option.some.inj hr']
      exact hw
  | header s' fs'' name w ho' hw =>
    obtain ⟨rfl, rfl⟩ := Prod.mk.inj hst
    have hne : csvPath n.toList ≠ csvPath name.toList := by
      intro hq
      exact hev (congrArg _ (String.toList_inj.1 (csvPath_inj hq)).symm)
    refine ⟨[], ?_, fun h o hh => by simp at hh, fun _ => rfl⟩
    show (if csvPath n.toList = csvPath name.toList then _ else _) = _
    rw [if_neg hne, e2, List.append_nil]

/-- C77, refuted: selecting an experiment empties its file, whatever it holds. -/
theorem C77_select_erases (e : Env S D) (n : String) (s : Sink) (fs : Files)
    (ho : e.canOpen (csvPath n.toList) = true) :
    ∃ s' fs', onEvent e (s, fs) (.setExperiment n) = some (s', fs') ∧
      fs' (csvPath n.toList) = some (csvHeader s.descs ++ ['\n']) := by
  refine ⟨_, _, if_pos ho, ?_⟩
  exact if_pos rfl

/-- A limit of the code (C14): as soon as an experiment is selected whose file cannot be opened, the behaviour is undefined, whatever
was called before and whatever is called afterwards. -/
theorem C14_unwritable_file_undefined (e : Env S D) (n : String) (before after : List (SinkEvent S)) (st : Sink × Files)
    (ho : e.canOpen (csvPath n.toList) = false) : sinkRun e (before ++ .setExperiment n :: after) st = none := by
  have h (st' : Sink × Files) : sinkRun e (.setExperiment n :: after) st' = none := by
    rw [sinkRun_cons]
    show (setExperiment e n.toList st').bind _ = none
    unfold setExperiment
    rw [if_neg (by simp [ho])]
    rfl
  rw [sinkRun_append]
  cases sinkRun e before st with
  | none => rfl
  | some st' => exact h st'

/-- Non-vacuity: the first experiment can be written, the second cannot. -/
example : let e : Env Int Int := ⟨fun p => p == "csv/a.csv".toList, [], fun n => n.repr.toList, fun d => d.repr.toList, id, some⟩
    (sinkRun e [.setExperiment "a"] ({}, fun _ => none)).isSome ∧
      sinkRun e ([.setExperiment "a"] ++ .setExperiment "b" :: []) ({}, fun _ => none) = none :=
  ⟨rfl, C14_unwritable_file_undefined _ _ _ _ _ (by decide)⟩

/-! ### Together with the collector -/

theorem after_append (l m : List (Op S V)) : Spec.after (l ++ m) = m.foldl Spec.step (Spec.after l) :=
  List.foldl_append

/-- The log of a sink that was registered before `Initialize`, when `Initialize` has been called. -/
theorem init_log {dflt : S} (b : List (Op S V)) (hp : Proper .init (b ++ [.initialize]))
    (hf : ∀ d ∈ registered b, FixedInit d) (hb : (Spec.after b).phase = .init) (k : Nat)
    (hk : k < (b.filter isSink).length) :
    ∃ a : Agg S V, run dflt (b ++ [.initialize]) = some a ∧ Inv dflt a (Spec.after (b ++ [.initialize])) ∧
      a.descs = registered b ∧
      a.sinks[k]? = some [.initialize (registered b).length, .setExperiment "unnamed"] := by
  obtain ⟨p1, p2⟩ := proper_append b [.initialize] {} hp
  obtain ⟨a0, e0, i0, x0, d0, l0, n0⟩ := ops_before (dflt := dflt) b {} {}
    ⟨rfl, by simp, fun _ => rfl, by simp, by simp⟩ rfl hb p1 hf (by simp)
  have d0' : a0.descs = registered b := by simpa using d0
  obtain ⟨a1, e1, i1⟩ := exec_inv i0 .initialize trivial
  obtain ⟨-, l, hl⟩ := exec_told i0 .initialize trivial e1
  refine ⟨a1, ?_, ?_, ?_, ?_⟩
  · unfold run
    rw [List.foldlM_append, e0]
    exact congrArg (Option.bind · _) e1 |>.trans rfl
  · unfold Spec.after
    rw [List.foldl_append]
    exact i1
  · rw [descs_exec e1, d0']; simp [registered]
  · have hk' : k < a0.sinks.length := by rw [n0]; simpa using hk
    rw [hl, List.getElem?_append_left (by simpa using hk'), List.getElem?_map, List.getElem?_eq_getElem hk',
      l0 _ (List.getElem_mem hk')]
    have : (b.foldl Spec.step {}).phase = .init := hb
    simp only [toldOf, this, if_true, d0', x0, Option.map_some, List.nil_append]

/-- C77, refuted: when the collector is initialised the file of the default experiment is emptied, so that rows of an
earlier run of the program are lost even if this run records under another name. -/
theorem C77_start_erases (e : Env S D) (dflt : S) (b : List (Op S V)) (hp : Proper .init (b ++ [.initialize]))
    (hf : ∀ d ∈ registered b, FixedInit d) (hb : (Spec.after b).phase = .init) (k : Nat)
    (hk : k < (b.filter isSink).length) (ho : e.canOpen "csv/unnamed.csv".toList = true)
    (hd : e.descriptions.length = (registered b).length) (fs : Files) :
    ∃ a log s fs', run dflt (b ++ [.initialize]) = some a ∧ a.sinks[k]? = some log ∧
      sinkRun e log ({}, fs) = some (s, fs') ∧
      fs' "csv/unnamed.csv".toList = some (unlines [csvHeader e.descriptions]) ∧
      ∀ p, p ≠ "csv/unnamed.csv".toList → fs' p = fs p := by
  obtain ⟨a, h1, -, -, h2⟩ := init_log (dflt := dflt) b hp hf hb k hk
  obtain ⟨fs', e1, e2, e3⟩ := select_rows (e := e) "unnamed" [] ({ descs := e.descriptions } : Sink) fs ho (by simp)
  refine ⟨a, _, { descs := e.descriptions, stream := some (csvPath "unnamed".toList) }, fs', h1, h2, ?_, e2, e3⟩
  rw [sinkRun_cons]
  show sinkRun e _ ({ descs := e.descriptions.take (registered b).length }, fs) = _
  rw [← hd, List.take_length]
  exact e1

/-- C77, refuted: if the file of the default experiment cannot be created (the directory `csv` does not exist),
initialising the collector is undefined behaviour. -/
theorem C77_missing_directory (e : Env S D) (dflt : S) (b : List (Op S V)) (hp : Proper .init (b ++ [.initialize]))
    (hf : ∀ d ∈ registered b, FixedInit d) (hb : (Spec.after b).phase = .init) (k : Nat)
    (hk : k < (b.filter isSink).length) (ho : e.canOpen "csv/unnamed.csv".toList = false) (fs : Files) :
    ∃ a log, run dflt (b ++ [.initialize]) = some a ∧ a.sinks[k]? = some log ∧ sinkRun e log ({}, fs) = none := by
  obtain ⟨a, h1, -, -, h2⟩ := init_log (dflt := dflt) b hp hf hb k hk
  refine ⟨a, _, h1, h2, ?_⟩
  rw [sinkRun_cons]
  show sinkRun e [.setExperiment "unnamed"] _ = none
  rw [sinkRun_cons]
  have : ∀ st : Sink × Files, onEvent e st (.setExperiment "unnamed") = none := by
    intro st
    show setExperiment e "unnamed".toList st = none
    unfold setExperiment
    rw [if_neg (by rw [show csvPath "unnamed".toList = "csv/unnamed.csv".toList from rfl, ho]; simp)]
  rw [this]
  rfl

/-- C77, the whole way from the recorded values to the file: an experiment is selected while nothing is recorded, and
no other one afterwards.  Then its file has one row per report (`Generate`, and `Snapshot` while recording), and the
row of a report has for every statistic its output function, applied to the values recorded since the last reset. -/
theorem C77_row (e : Env S D) (dflt : S) (fs : Files) (b0 b1 m1 m2 : List (Op S V)) (n : String) (r : Op S V)
    (hp : Proper .init (b0 ++ [.initialize] ++ b1 ++ [.setCurrentExperiment n] ++ m1 ++ [r] ++ m2))
    (hf : ∀ d ∈ registered (b0 ++ [.initialize] ++ b1 ++ [.setCurrentExperiment n] ++ m1 ++ [r] ++ m2), FixedInit d)
    (hb : (Spec.after b0).phase = .init) (k : Nat) (hk : k < (b0.filter isSink).length)
    (hd : e.descriptions.length = (registered b0).length)
    (hu : e.canOpen "csv/unnamed.csv".toList = true)
    (ho : ∀ x, .setCurrentExperiment x ∈ b1 ++ [.setCurrentExperiment n] → e.canOpen (csvPath x.toList) = true)
    (hstop : (Spec.after (b0 ++ [.initialize] ++ b1)).phase = .stopped)
    (hm : ∀ x, .setCurrentExperiment x ∉ m1 ++ [r] ++ m2)
    (hr : Reports (Spec.after (b0 ++ [.initialize] ++ b1 ++ [.setCurrentExperiment n] ++ m1)).phase r) :
    ∃ a a1 log s fs' lines hard outputs,
      run dflt (b0 ++ [.initialize] ++ b1 ++ [.setCurrentExperiment n] ++ m1 ++ [r] ++ m2) = some a ∧
      run dflt (b0 ++ [.initialize] ++ b1 ++ [.setCurrentExperiment n] ++ m1) = some a1 ∧
      a.sinks[k]? = some log ∧ sinkRun e log ({}, fs) = some (s, fs') ∧
      fs' (csvPath n.toList) = some (unlines (csvHeader e.descriptions :: lines)) ∧
      lines.length = reports (Spec.after (b0 ++ [.initialize] ++ b1)) (m1 ++ [r] ++ m2) ∧
      lines[reports (Spec.after (b0 ++ [.initialize] ++ b1)) m1]? = some (rowOf e (hard, outputs)) ∧
      (r = .generate → hard = a1.hard) ∧
      (∀ t t', r = .snapshot t t' →
        hard = { a1.hard with secondsElapsed := a1.hard.secondsElapsed + (t - a1.startTime) }) ∧
      outputs.length = (registered b0).length ∧
      ∀ (j : Nat) (d : Desc S V), (registered b0)[j]? = some d → outputs[j]? = some (d.outputF hard
        (((Spec.after (b0 ++ [.initialize] ++ b1 ++ [.setCurrentExperiment n] ++ m1)).recorded j).foldl
          d.updateF (d.initF dflt))) := by
  have rg := fun l m : List (Op S V) => registered_append l m
  simp only [rg, List.mem_append] at hf
  obtain ⟨q1, p6⟩ := proper_append _ m2 {} hp
  obtain ⟨q2, p5⟩ := proper_append _ [r] {} q1
  obtain ⟨q3, p4⟩ := proper_append _ m1 {} q2
  obtain ⟨q4, p3⟩ := proper_append _ [.setCurrentExperiment n] {} q3
  obtain ⟨q5, p2⟩ := proper_append _ b1 {} q4
  obtain ⟨a0, e0, i0, d0, l0⟩ := init_log (dflt := dflt) b0 q5
    (fun d h => hf d (by simp only [h, true_or])) hb k hk
  have ne0 : (Spec.after (b0 ++ [.initialize])).phase ≠ .init := by
    unfold Spec.after at hb ⊢
    rw [List.foldl_append]
    simp [Spec.step, hb]
  -- the calls up to the selection
  obtain ⟨a1, v1, e1, i1, d1, l1, n1, s1, f1, -⟩ := ops_told b1 a0 _ i0 ne0 p2
    (fun d h => hf d (by simp only [h, true_or, or_true]))
  have st1 : b1.foldl Spec.step (Spec.after (b0 ++ [.initialize])) = Spec.after (b0 ++ [.initialize] ++ b1) := by
    rw [after_append _ b1]
  rw [st1] at i1
  -- the selection
  obtain ⟨a2, e2, i2⟩ := exec_inv i1 (.setCurrentExperiment n) trivial
  obtain ⟨-, x2, l2⟩ := exec_told i1 (.setCurrentExperiment n) trivial e2
  have st2 : (Spec.after (b0 ++ [.initialize] ++ b1)).step (.setCurrentExperiment n : Op S V) =
    Spec.after (b0 ++ [.initialize] ++ b1) := rfl
  rw [st2] at i2
  have d2 : a2.descs = registered b0 := by rw [descs_exec e2, d1, d0]; simp [registered]
  have ne2 : (Spec.after (b0 ++ [.initialize] ++ b1)).phase ≠ .init := by rw [hstop]; simp
  have st2' : Spec.after (b0 ++ [.initialize] ++ b1 ++ [.setCurrentExperiment n]) =
      Spec.after (b0 ++ [.initialize] ++ b1) := by
    rw [after_append _ [Op.setCurrentExperiment n]]; rfl
  have p4' : Proper (Spec.after (b0 ++ [.initialize] ++ b1)).phase m1 := by
    rw [← st2']; exact p4
  -- the calls before the report
  obtain ⟨a3, v3, e3, i3, d3, l3, n3, s3, f3, c3⟩ := ops_told m1 a2 _ i2 ne2 p4'
    (fun d h => hf d (by simp only [h, true_or, or_true]))
  have c3 := c3 fun x hx => hm x (by simp [hx])
  have st3 : m1.foldl Spec.step (Spec.after (b0 ++ [.initialize] ++ b1)) =
      Spec.after (b0 ++ [.initialize] ++ b1 ++ [.setCurrentExperiment n] ++ m1) := by
    rw [after_append _ m1, st2']
  rw [st3] at i3
  have ne3 : (Spec.after (b0 ++ [.initialize] ++ b1 ++ [.setCurrentExperiment n] ++ m1)).phase ≠ .init := by
    rw [← st3]
    have : ∀ (l : List (Op S V)) (t : Spec V), t.phase ≠ .init → (l.foldl Spec.step t).phase ≠ .init := by
      intro l
      induction l with
      | nil => intro t h; exact h
      | cons x l ih => intro t h; exact ih _ (step_phase h x)
    exact this m1 _ ne2
  -- the report
  have adm : Admits (Spec.after (b0 ++ [.initialize] ++ b1 ++ [.setCurrentExperiment n] ++ m1)).phase r := by
    cases r with
    | generate => exact ne3
    | registerStat d => exact absurd hr (by simp [Reports])
    | _ => trivial
  obtain ⟨a4, e4, i4⟩ := exec_inv i3 r adm
  obtain ⟨-, x4, l4⟩ := exec_told i3 r adm e4
  obtain ⟨hard, hrec, hh1, hh2⟩ : ∃ hard, toldOf dflt a3 (Spec.after (b0 ++ [.initialize] ++ b1 ++
        [.setCurrentExperiment n] ++ m1)) r = [.process hard (expectedOutputs dflt a3.descs hard (Spec.after (b0 ++ [.initialize] ++ b1 ++
        [.setCurrentExperiment n] ++ m1)))] ∧ (r = .generate → hard = a3.hard) ∧ (∀ t t', r = .snapshot t t' →
        hard = { a3.hard with secondsElapsed := a3.hard.secondsElapsed + (t - a3.startTime) }) := by
    cases r with
    | generate => exact ⟨_, rfl, fun _ => rfl, by simp⟩
    | snapshot t t' =>
      refine ⟨_, if_pos hr, by simp, ?_⟩
      intro u u' h
      obtain ⟨rfl, -⟩ := Op.snapshot.inj h
      rfl
    | _ => exact absurd hr (by simp [Reports])
  -- the calls after it
  have p6' : Proper ((Spec.after (b0 ++ [.initialize] ++ b1 ++ [.setCurrentExperiment n] ++ m1)).step r).phase m2 := by
    have : (Spec.after (b0 ++ [.initialize] ++ b1 ++ [.setCurrentExperiment n] ++ m1)).step r =
        Spec.after (b0 ++ [.initialize] ++ b1 ++ [.setCurrentExperiment n] ++ m1 ++ [r]) := by
      rw [after_append _ [r]]; rfl
    rw [this]; exact p6
  obtain ⟨a5, v5, e5, i5, d5, l5, n5, s5, f5, c5⟩ := ops_told m2 a4 _ i4 (step_phase ne3 r) p6'
    (fun d h => hf d (by simp only [h, or_true]))
  have c5 := c5 fun x hx => hm x (by simp [hx])
  have d3' : a3.descs = registered b0 := d3.trans d2
  have d4 : a4.descs = registered b0 := by
    rw [descs_exec e4, d3']
    cases r with
    | registerStat d => exact absurd hr (by simp [Reports])
    | _ => simp [registered]
  -- the log
  have log2 : a2.sinks[k]? = some ([.initialize (registered b0).length, .setExperiment "unnamed"] ++ v1 ++
      [.setExperiment n]) := by
    have := l1 k _ l0
    rw [l2, List.getElem?_append_left (by rw [List.length_map]; exact (List.getElem?_eq_some_iff.1 this).1),
      List.getElem?_map, this, show toldOf dflt a1 (Spec.after (b0 ++ [.initialize] ++ b1))
        (.setCurrentExperiment n) = [.setExperiment n] from if_pos hstop]
    rfl
  have log3 := l3 k _ log2
  have log4 : a4.sinks[k]? = some ([.initialize (registered b0).length, .setExperiment "unnamed"] ++ v1 ++
      [.setExperiment n] ++ v3 ++ [.process hard (expectedOutputs dflt a3.descs hard (Spec.after (b0 ++ [.initialize] ++ b1 ++
        [.setCurrentExperiment n] ++ m1)))]) := by
    rw [l4, List.getElem?_append_left (by rw [List.length_map]; exact (List.getElem?_eq_some_iff.1 log3).1),
      List.getElem?_map, log3, hrec]
    rfl
  have log5 := l5 k _ log4
  generalize hout : expectedOutputs dflt a3.descs hard (Spec.after (b0 ++ [.initialize] ++ b1 ++
        [.setCurrentExperiment n] ++ m1)) = outputs at hrec log4 log5
  have hol : outputs.length = (registered b0).length := by rw [← hout, d3']; simp [expectedOutputs]
  -- the rows
  have only : ∀ (v : List (SinkEvent S)) (m : List (Op S V)), (∀ j, SinkEvent.initialize j ∉ v) →
      (∀ x, SinkEvent.setExperiment x ∈ v → Op.setCurrentExperiment x ∈ m) → (∀ x, Op.setCurrentExperiment x ∉ m) →
      ∃ rows : List (Hard × List S), v = rows.map fun r => .process r.1 r.2 := by
    intro v m h1 h2 h3
    refine rows_of fun x hx => ?_
    cases x with
    | «initialize» j => exact absurd hx (h1 j)
    | setExperiment y => exact absurd (h2 y hx) (h3 y)
    | process h o => exact ⟨h, o, rfl⟩
  obtain ⟨rows3, rfl⟩ := only v3 m1 n3 s3 fun x hx => hm x (by simp [hx])
  obtain ⟨rows5, rfl⟩ := only v5 m2 n5 s5 fun x hx => hm x (by simp [hx])
  have hlog : [SinkEvent.initialize (registered b0).length, .setExperiment "unnamed"] ++ v1 ++
      [.setExperiment n] ++ rows3.map (fun r => SinkEvent.process r.1 r.2) ++ [.process hard outputs] ++
      rows5.map (fun r => SinkEvent.process r.1 r.2) =
      .initialize e.descriptions.length :: ((.setExperiment "unnamed" :: v1) ++ (.setExperiment n ::
        (rows3 ++ (hard, outputs) :: rows5).map fun r => .process r.1 r.2) ++ []) := by
    rw [hd]; simp
  rw [hlog] at log5
  have hmemrows : ∀ h o, SinkEvent.process h o ∈ (rows3 ++ (hard, outputs) :: rows5).map
      (fun r => (SinkEvent.process r.1 r.2 : SinkEvent S)) → o.length = e.descriptions.length := by
    intro h o hx
    rw [hd]
    simp only [List.map_append, List.map_cons, List.mem_append, List.mem_cons] at hx
    rcases hx with hx | hx | hx
    · rw [f3 h o hx, d2]
    · rw [(SinkEvent.process.inj hx).2, hol]
    · rw [f5 h o hx, d4]
  obtain ⟨s, fs', g1, g2⟩ := C77_file e fs n (.setExperiment "unnamed" :: v1) []
    (rows3 ++ (hard, outputs) :: rows5) ⟨by
      intro j hj
      simp only [List.append_nil, List.mem_append, List.mem_cons] at hj
      rcases hj with (hj | hj) | (hj | hj)
      · simp at hj
      · exact n1 j hj
      · simp at hj
      · obtain ⟨x, -, hx⟩ := List.mem_map.1 hj
        simp at hx, by
      intro x hx
      simp only [List.append_nil, List.mem_append, List.mem_cons] at hx
      rcases hx with (hx | hx) | (hx | hx)
      · obtain rfl := SinkEvent.setExperiment.inj hx
        exact hu
      · exact ho x (List.mem_append_left _ (s1 x hx))
      · obtain rfl := SinkEvent.setExperiment.inj hx
        exact ho x (List.mem_append_right _ List.mem_cons_self)
      · obtain ⟨y, -, hy⟩ := List.mem_map.1 hx
        simp at hy, by
      intro h o hx
      simp only [List.append_nil, List.mem_append] at hx
      rcases hx with hx | hx
      · rcases List.mem_cons.1 hx with hx | hx
        · simp at hx
        · rw [f1 h o hx, d0, hd]
      · rcases List.mem_cons.1 hx with hx | hx
        · simp at hx
        · exact hmemrows h o hx⟩ (.inl rfl) (by simp)
  have hrun1 : run dflt (b0 ++ [.initialize] ++ b1 ++ [.setCurrentExperiment n] ++ m1) = some a3 := by
    unfold run at e0 ⊢
    rw [List.foldlM_append, List.foldlM_append, List.foldlM_append, e0]
    simp only [Option.bind_eq_bind, Option.bind_some, e1, List.foldlM_cons, e2, List.foldlM_nil, e3]
    simp [e3]
  have hrun2 : run dflt (b0 ++ [.initialize] ++ b1 ++ [.setCurrentExperiment n] ++ m1 ++ [r] ++ m2) = some a5 := by
    unfold run at hrun1 ⊢
    rw [List.foldlM_append, List.foldlM_append, hrun1]
    simp [e4, e5]
  refine ⟨a5, a3, _, s, fs', _, hard, outputs, hrun2, hrun1, log5, g1, g2, ?_, ?_, hh1, hh2, hol, ?_⟩
  · rw [List.length_map] at c3 c5
    have radd : ∀ (l m : List (Op S V)) (s : Spec V), reports s (l ++ m) = reports s l + reports (l.foldl Spec.step s) m := by
      intro l m
      induction l with
      | nil => intro s; simp [reports]
      | cons x l ih => intro s; simp only [List.cons_append, reports, ih, List.foldl_cons, Nat.add_assoc]
    rw [List.append_assoc m1, radd, st3, ← c3]
    show _ = rows3.length + ((if Reports _ r then 1 else 0) + reports _ m2)
    rw [if_pos hr, ← c5]
    simp
    omega
  · rw [List.length_map] at c3
    rw [← c3]
    simp
  · intro j d hj
    rw [← hout, d3']
    simp [expectedOutputs, List.getElem?_mapIdx, hj]

/-- Two reports for the experiment `test`. -/
example : ∃ a log s fs', run 0 [.registerSink, .registerStat sumDesc, .initialize, .setCurrentExperiment "test",
      .startRecording 0, .update 0 5, .update 0 7, .snapshot 10 10, .update 0 1, .stopRecording 20, .generate] =
        some a ∧ a.sinks[0]? = some log ∧
      sinkRun (D := Int) ⟨fun _ => true, ["Loss (sum)".toList], fun n => n.repr.toList, fun d => d.repr.toList, id,
        some⟩ log ({}, fun _ => none) = some (s, fs') ∧
      fs' "csv/test.csv".toList =
        some "IsTraining,Epoch,Iterations,SecondsElapsed,Losssum\n0,0,0,10,12\n0,0,0,10,1\n".toList :=
  ⟨_, _, _, _, rfl, rfl, rfl, by decide⟩

/-- C77, refuted: an experiment that is selected while recording is not selected. -/
theorem C77_late_selection (dflt : S) (ops more : List (Op S V)) (n : String) (a : Agg S V)
    (h : run dflt ops = some a) (hr : a.phase = .recording) :
    run dflt (ops ++ [.setCurrentExperiment n] ++ more) = run dflt (ops ++ more) := by
  unfold run at h ⊢
  rw [List.foldlM_append, List.foldlM_append, List.foldlM_append, h]
  have : exec dflt a (.setCurrentExperiment n) = some a := by
    show some (a.setCurrentExperiment n) = _
    unfold Agg.setCurrentExperiment
    rw [if_pos (by simp [hr])]
  simp [this]

end CN24.Props
