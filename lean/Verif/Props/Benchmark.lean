import Verif.Model.Benchmark
import Verif.Props.Stats
import Verif.Props.TrainSettings
import Mathlib.Algebra.Field.Rat
import Mathlib.Tactic.Ring
import Mathlib.Tactic.FieldSimp

/-!
C103: what the benchmark reports.
-/

namespace CN24.Benchmark
open CN24 CN24.Config CN24.Stats CN24.Props
open CN24.HMaxStats (Stat)
open CN24.TrainSettings (Settings initSettings)
variable {D : Type _} [Field D]

/-! ### What should be reported -/

/-- An observer with a stopwatch: the images that passed forward since the stopwatch was started, and the finished
measurements (images, time). -/
structure Watch where
  running : Option (Int × Nat) := none
  finished : List (Nat × Int) := []
  deriving DecidableEq, Repr

def Watch.step (w : Watch) : Event D → Watch
  | .forward n => { w with running := w.running.map fun r => (r.1, r.2 + n) }
  | .collector (.startRecording t) => { w with running := some (t, 0) }
  | .collector (.stopRecording t) =>
    match w.running with
    | some (t0, n) => ⟨none, w.finished ++ [(n, t - t0)]⟩
    | none => w
  | _ => w

/-- The measurements. -/
def measured (es : List (Event D)) : List (Nat × Int) := (es.foldl Watch.step {}).finished

/-- The calls of the collector. -/
def calls (es : List (Event D)) : List (Stats.Op (Stat D) D) :=
  es.filterMap fun
    | .collector op => some op
    | _ => none

/-- The value of the first statistic in each report that a sink got. -/
def firstValues (log : List (SinkEvent (Stat D))) : List (Option (Stat D)) :=
  log.filterMap fun
    | .process _ outputs => some outputs[0]?
    | _ => none

/-! ### The collector during the benchmark -/

/-- The collector as far as the throughput is concerned. -/
structure At (a : Agg (Stat D) D) (ph : Phase) (v : D) (start seconds : Int) (R : List (Option (Stat D))) : Prop where
  phase : a.phase = ph
  len : a.stats.length = a.descs.length
  fixed : ∀ d ∈ a.descs, FixedInit d
  desc : a.descs[0]? = some fps
  val : a.stats[0]? = some ⟨false, v⟩
  start : a.startTime = start
  seconds : a.hard.secondsElapsed = seconds
  sinks : ∃ log, a.sinks = [log] ∧ firstValues log = R

theorem firstValues_append (l m : List (SinkEvent (Stat D))) : firstValues (l ++ m) = firstValues l ++ firstValues m :=
  List.filterMap_append

theorem At.update {a : Agg (Stat D) D} {ph : Phase} {v : D} {t s : Int} {R : List (Option (Stat D))} (h : At a ph v t s R) (id : Nat) (x : D) :
    ∃ a', Stats.exec ⟨false, 0⟩ a (.update id x) = some a' ∧
      At a' ph (if ph = .recording ∧ id = 0 then v + x else v) t s R := by
  show ∃ a', a.update id x = some a' ∧ _
  unfold Agg.update
  by_cases hp : ph = .recording
  · rw [if_neg (by rw [h.phase, hp]; simp)]
    by_cases hid : id < a.descs.length
    · rw [if_pos hid]
      have hid' : id < a.stats.length := by rw [h.len]; exact hid
      rw [rd_eq_some hid, Option.bind_some, rd_eq_some hid', Option.bind_some, wr_of_lt hid', Option.map_some]
      refine ⟨_, rfl, h.phase, by simpa using h.len, h.fixed, h.desc, ?_, h.start, h.seconds, h.sinks⟩
      by_cases h0 : id = 0
      · subst h0
        have hd : a.descs[0] = fps := (List.getElem?_eq_some_iff.1 h.desc).2
        have hv : a.stats[0] = ⟨false, v⟩ := (List.getElem?_eq_some_iff.1 h.val).2
        show (a.stats.set 0 _)[0]? = _
        rw [List.getElem?_set_self hid', hd, hv, if_pos ⟨hp, rfl⟩]
        rfl
      · show (a.stats.set id _)[0]? = _
        rw [List.getElem?_set_ne h0, if_neg (fun hh => h0 hh.2)]
        exact h.val
    · rw [if_neg hid]
      have h0 : id ≠ 0 := by
        have := (List.getElem?_eq_some_iff.1 h.desc).1
        omega
      rw [if_neg (fun hh => h0 hh.2)]
      exact ⟨a, rfl, h⟩
  · rw [if_pos (by rw [h.phase]; exact hp), if_neg (fun hh => hp hh.1)]
    exact ⟨a, rfl, h⟩

/-- Updates of other statistics. -/
theorem At.updates {ph : Phase} {v : D} {t s : Int} {R : List (Option (Stat D))} : ∀ (us : List (Nat × D)) {a : Agg (Stat D) D},
    (∀ u ∈ us, u.1 ≠ 0) → At a ph v t s R →
    ∃ a', (us.map fun u => Stats.Op.update u.1 u.2).foldlM (Stats.exec ⟨false, 0⟩) a = some a' ∧ At a' ph v t s R
  | [], a, _, h => ⟨a, rfl, h⟩
  | u :: us, a, hu, h => by
    obtain ⟨a1, h1, h2⟩ := h.update u.1 u.2
    rw [if_neg (fun hh => hu u List.mem_cons_self hh.2)] at h2
    obtain ⟨a2, h3, h4⟩ := At.updates us (fun w hw => hu w (by simp [hw])) h2
    refine ⟨a2, ?_, h4⟩
    rw [List.map_cons, List.foldlM_cons, h1]
    exact h3

theorem At.starts {a : Agg (Stat D) D} {v : D} {t s : Int} {R : List (Option (Stat D))} (h : At a .stopped v t s R) (now : Int) :
    ∃ a', Stats.exec ⟨false, 0⟩ a (.startRecording now) = some a' ∧ At a' .recording v now s R := by
  refine ⟨{ a with startTime := now, phase := .recording }, ?_, rfl, h.len, h.fixed, h.desc, h.val, rfl, h.seconds, h.sinks⟩
  show some (a.startRecording now) = _
  unfold Agg.startRecording
  rw [if_neg (by simp [h.phase])]

theorem At.stops {a : Agg (Stat D) D} {v : D} {t s : Int} {R : List (Option (Stat D))} (h : At a .recording v t s R) (now : Int) :
    ∃ a', Stats.exec ⟨false, 0⟩ a (.stopRecording now) = some a' ∧ At a' .stopped v t (s + (now - t)) R := by
  refine ⟨{ a with hard := { a.hard with secondsElapsed := a.hard.secondsElapsed + (now - a.startTime) }, phase := .stopped }, ?_,
    rfl, h.len, h.fixed, h.desc, h.val, h.start, by show a.hard.secondsElapsed + _ = _; rw [h.seconds, h.start], h.sinks⟩
  show some (a.stopRecording now) = _
  unfold Agg.stopRecording
  rw [if_neg (by simp [h.phase])]

theorem At.resets {a : Agg (Stat D) D} {v : D} {t s : Int} {R : List (Option (Stat D))} (h : At a .stopped v t s R) :
    ∃ a', Stats.exec ⟨false, 0⟩ a .reset = some a' ∧ At a' .stopped 0 t 0 R := by
  obtain ⟨stats, h1, h2, h3⟩ := reset_spec (⟨false, 0⟩ : Stat D) a h.phase h.len h.fixed
  exact ⟨_, h1, h.phase, h2, h.fixed, h.desc, h3 0 _ h.desc, h.start, rfl, h.sinks⟩

theorem At.generates {a : Agg (Stat D) D} {ph : Phase} {v : D} {t s : Int} {R : List (Option (Stat D))} (h : At a ph v t s R) :
    ∃ a', Stats.exec ⟨false, 0⟩ a .generate = some a' ∧ At a' ph v t s (R ++ [some ⟨false, v / (s : D)⟩]) := by
  show ∃ a', a.generate = some a' ∧ _
  unfold Agg.generate
  obtain ⟨out, h1, h2⟩ := forLoop_inv (n := a.descs.length)
    (f := fun s out =>
      (rd a.descs s).bind fun d => (rd a.stats s).map fun x => out ++ [d.outputF a.hard x])
    (s := ([] : List (Stat D)))
    (fun i (out : List (Stat D)) => out.length = i ∧ (0 < i → out[0]? = some ⟨false, v / (s : D)⟩))
    ⟨rfl, fun hh => absurd hh (by simp)⟩
    (by
      rintro i out hlt ⟨hl, ho⟩
      have hlt' : i < a.stats.length := by rw [h.len]; exact hlt
      rw [rd_eq_some hlt, Option.bind_some, rd_eq_some hlt', Option.map_some]
      refine ⟨_, rfl, by simp [hl], fun _ => ?_⟩
      by_cases h0 : i = 0
      · subst h0
        have hd : a.descs[0] = fps := (List.getElem?_eq_some_iff.1 h.desc).2
        have hv : a.stats[0] = ⟨false, v⟩ := (List.getElem?_eq_some_iff.1 h.val).2
        rw [List.length_eq_zero_iff.1 hl, hd, hv]
        show some ({ isNull := false, value := v / (a.hard.secondsElapsed : D) } : Stat D) = _
        rw [h.seconds]
      · rw [List.getElem?_append_left (by omega)]
        exact ho (by omega))
  rw [h1, Option.map_some]
  have hpos : 0 < a.descs.length := (List.getElem?_eq_some_iff.1 h.desc).1
  obtain ⟨log, hl, hr⟩ := h.sinks
  refine ⟨_, rfl, h.phase, h.len, h.fixed, h.desc, h.val, h.start, h.seconds, log ++ [.process a.hard out], ?_, ?_⟩
  · show a.sinks.map _ = _
    rw [hl]
    rfl
  · rw [firstValues_append, hr]
    show R ++ [out[0]?] = _
    rw [h2.2 hpos]

theorem calls_append (l m : List (Event D)) : calls (l ++ m) = calls l ++ calls m := List.filterMap_append

theorem calls_forwardPass (m : Machine D) (images k : Nat) :
    calls (forwardPass m images k) = (m.notes k).map fun u => Stats.Op.update u.1 u.2 := by
  unfold calls forwardPass
  rw [List.filterMap_cons_none rfl, List.filterMap_map]
  exact (List.filterMap_eq_map (f := fun u : Nat × D => (Stats.Op.update u.1 u.2 : Stats.Op (Stat D) D))) ▸ rfl

/-- The benchmark loops. -/
theorem At.loop {t s : Int} {R : List (Option (Stat D))} (m : Machine D) (hm : ∀ k, ∀ u ∈ m.notes k, u.1 ≠ 0) (images : Nat) (c : D)
    (between : List (Event D)) (hb : calls between = []) (first : Nat) : ∀ (n : Nat) {a : Agg (Stat D) D} {v : D}, At a .recording v t s R →
    ∃ a', (calls ((List.range n).flatMap fun p => forwardPass m images (first + p) ++ (between ++ [.collector (.update 0 c)]))).foldlM
        (Stats.exec ⟨false, 0⟩) a = some a' ∧ At a' .recording (v + (n : D) * c) t s R
  | 0, a, v, h => ⟨a, rfl, by simpa using h⟩
  | n + 1, a, v, h => by
    obtain ⟨a1, h1, h2⟩ := At.loop m hm images c between hb first n h
    obtain ⟨a2, h3, h4⟩ := At.updates (m.notes (first + n)) (hm _) h2
    obtain ⟨a3, h5, h6⟩ := h4.update 0 c
    rw [if_pos ⟨rfl, rfl⟩] at h6
    refine ⟨a3, ?_, ?_⟩
    · rw [List.range_succ, List.flatMap_append, calls_append, List.foldlM_append, h1]
      show List.foldlM _ a1 (calls (List.flatMap _ [n])) = _
      rw [List.flatMap_singleton, calls_append, calls_append, hb, calls_forwardPass, List.nil_append, List.foldlM_append, h3]
      show ((Stats.exec ⟨false, 0⟩ a2 (.update 0 c)).bind _) = _
      rw [h5]
      rfl
    · have : v + (n : D) * c + c = v + ((n + 1 : Nat) : D) * c := by push_cast; ring
      rw [← this]
      exact h6

/-- Registration and `Initialize`. -/
theorem At.begin (ds : List (Desc (Stat D) D)) (hd : ∀ d ∈ ds, FixedInit d) :
    ∃ a', (([Stats.Op.registerSink, .registerStat fps] : List (Stats.Op (Stat D) D)) ++ ds.map Stats.Op.registerStat ++
      [Stats.Op.initialize]).foldlM (Stats.exec (⟨false, 0⟩ : Stat D)) {} = some a' ∧ At a' .stopped 0 0 0 [] := by
  have hreg : ∀ (ds : List (Desc (Stat D) D)) (a : Agg (Stat D) D),
      (ds.map Stats.Op.registerStat).foldlM (Stats.exec (⟨false, 0⟩ : Stat D)) a = some { a with descs := a.descs ++ ds } := by
    intro ds
    induction ds with
    | nil => intro a; simp
    | cons d ds ih =>
      intro a
      rw [List.map_cons, List.foldlM_cons]
      show List.foldlM _ (a.registerStat d).1 _ = _
      rw [ih]
      simp [Agg.registerStat]
  let b : Agg (Stat D) D := { descs := [fps] ++ ds, sinks := [[]] }
  have hb : (([Stats.Op.registerSink, .registerStat fps] : List (Stats.Op (Stat D) D)) ++ ds.map Stats.Op.registerStat ++
      [Stats.Op.initialize]).foldlM (Stats.exec (⟨false, 0⟩ : Stat D)) {} = b.initAll ⟨false, 0⟩ := by
    rw [List.foldlM_append, List.foldlM_append]
    show (((ds.map Stats.Op.registerStat).foldlM (Stats.exec (⟨false, 0⟩ : Stat D))
      ({ descs := [fps], sinks := [[]] } : Agg (Stat D) D)).bind
        fun a => (Stats.exec (⟨false, 0⟩ : Stat D) a .initialize).bind some) = _
    rw [hreg]
    show (b.initAll ⟨false, 0⟩).bind some = _
    cases b.initAll ⟨false, 0⟩ <;> rfl
  rw [hb]
  unfold Agg.initAll
  rw [if_neg (by simp [b])]
  have hfix : ∀ d ∈ b.descs, FixedInit d := by
    intro d h
    rcases List.mem_append.1 h with h | h
    · rw [List.mem_singleton.1 h]
      intro x y
      rfl
    · exact hd d h
  obtain ⟨stats, h1, h2, h3⟩ := reset_spec (⟨false, 0⟩ : Stat D)
    { b.tell (.initialize b.descs.length) with
      stats := (b.tell (.initialize b.descs.length)).stats ++ List.replicate (b.tell (.initialize b.descs.length)).descs.length ⟨false, 0⟩
      phase := .stopped } rfl (by simp [b, Agg.tell]) hfix
  dsimp only
  rw [h1, Option.map_some]
  refine ⟨_, rfl, rfl, ?_, ?_, ?_, ?_, ?_, ?_, ?_⟩
  all_goals (unfold Agg.setCurrentExperiment; rw [if_neg (by simp)])
  · exact h2
  · exact hfix
  · rfl
  · exact h3 0 fps rfl
  · rfl
  · rfl
  · exact ⟨_, rfl, rfl⟩

/-! ### The reports and the measurements -/

/-- Layers report to their own statistics, and reset them properly. -/
structure Clean (m : Machine D) : Prop where
  fixed : ∀ d ∈ m.stats, FixedInit d
  own : ∀ k, ∀ u ∈ m.notes k, u.1 ≠ 0

/-- The two reports. -/
theorem reported (m : Machine D) (hm : Clean m) (images counted : Nat) :
    ∃ a log, Stats.run ⟨false, 0⟩ (calls (events m images counted)) = some a ∧ a.sinks = [log] ∧
      firstValues log = [some ⟨false, 30 * (counted : D) / ((m.stop1 - m.start1 : Int) : D)⟩,
        some ⟨false, 15 * (counted : D) / ((m.stop2 - m.start2 : Int) : D)⟩] := by
  obtain ⟨a0, e0, h0⟩ := At.begin m.stats hm.fixed
  obtain ⟨a1, e1, h1⟩ := At.updates (m.notes 0) (hm.own 0) h0
  obtain ⟨a2, e2, h2⟩ := h1.starts m.start1
  obtain ⟨a3, e3, h3⟩ := At.loop m hm.own images (counted : D) [] rfl 1 30 h2
  obtain ⟨a4, e4, h4⟩ := h3.stops m.stop1
  obtain ⟨a5, e5, h5⟩ := h4.generates
  obtain ⟨a6, e6, h6⟩ := h5.resets
  obtain ⟨a7, e7, h7⟩ := h6.starts m.start2
  obtain ⟨a8, e8, h8⟩ := At.loop m hm.own images (counted : D) [.backward images] rfl 31 15 h7
  obtain ⟨a9, e9, h9⟩ := h8.stops m.stop2
  obtain ⟨a10, e10, h10⟩ := h9.generates
  obtain ⟨a11, e11, h11⟩ := h10.resets
  obtain ⟨log, hl, hr⟩ := h11.sinks
  refine ⟨a11, log, ?_, hl, ?_⟩
  · have hreg : calls (m.stats.map fun d => (Event.collector (.registerStat d) : Event D)) = m.stats.map Stats.Op.registerStat := by
      unfold calls
      rw [List.filterMap_map]
      exact (List.filterMap_eq_map (f := (Stats.Op.registerStat : Desc (Stat D) D → Stats.Op (Stat D) D))) ▸ rfl
    unfold Stats.run events
    simp only [calls_append, hreg, calls_forwardPass]
    rw [List.foldlM_append, List.foldlM_append, List.foldlM_append, List.foldlM_append, List.foldlM_append, List.foldlM_append,
      List.foldlM_append]
    have e0' : List.foldlM (Stats.exec (⟨false, 0⟩ : Stat D)) {} (calls [Event.collector .registerSink, .collector (.registerStat fps)] ++
        m.stats.map Stats.Op.registerStat ++ calls [Event.collector .initialize]) = some a0 := e0
    rw [e0']
    simp only [bind, Option.bind]
    rw [e1]
    dsimp only
    have k2 : List.foldlM (Stats.exec (⟨false, 0⟩ : Stat D)) a1 (calls [Event.backward images]) = some a1 := rfl
    rw [k2]
    dsimp only
    have k3 : List.foldlM (Stats.exec (⟨false, 0⟩ : Stat D)) a1 (calls [Event.collector (.startRecording m.start1)]) = some a2 := by
      show (Stats.exec (⟨false, 0⟩ : Stat D) a1 (.startRecording m.start1)).bind some = _
      rw [e2]; rfl
    rw [k3]
    dsimp only
    have e3' := e3
    simp only [List.nil_append] at e3'
    rw [e3']
    dsimp only
    have k4 : List.foldlM (Stats.exec (⟨false, 0⟩ : Stat D)) a3 (calls [Event.collector (.stopRecording m.stop1), .collector .generate,
        .collector .reset, .collector (.startRecording m.start2)]) = some a7 := by
      show (Stats.exec (⟨false, 0⟩ : Stat D) a3 (.stopRecording m.stop1)).bind (fun a => (Stats.exec ⟨false, 0⟩ a .generate).bind fun a =>
        (Stats.exec ⟨false, 0⟩ a .reset).bind fun a => (Stats.exec ⟨false, 0⟩ a (.startRecording m.start2)).bind some) = _
      rw [e4, Option.bind_some, e5, Option.bind_some, e6, Option.bind_some, e7]; rfl
    rw [k4]
    dsimp only
    have e8' : List.foldlM (Stats.exec (⟨false, 0⟩ : Stat D)) a7 (calls ((List.range 15).flatMap
      (fun p => forwardPass m images (31 + p) ++ [.backward images, .collector (.update 0 (counted : D))]))) = some a8 := e8
    rw [e8']
    dsimp only
    show (Stats.exec (⟨false, 0⟩ : Stat D) a8 (.stopRecording m.stop2)).bind (fun a => (Stats.exec ⟨false, 0⟩ a .generate).bind fun a =>
      (Stats.exec ⟨false, 0⟩ a .reset).bind some) = _
    rw [e9, Option.bind_some, e10, Option.bind_some, e11]; rfl
  · rw [hr]
    simp only [List.nil_append, List.cons_append, zero_add, Nat.cast_ofNat]

theorem watch_quiet (w : Watch) (us : List (Nat × D)) :
    (us.map fun u => (Event.collector (.update u.1 u.2) : Event D)).foldl Watch.step w = w := by
  induction us with
  | nil => rfl
  | cons u us ih => exact ih

theorem watch_pass (w : Watch) (m : Machine D) (images k : Nat) :
    (forwardPass m images k).foldl Watch.step w = { w with running := w.running.map fun r => (r.1, r.2 + images) } :=
  watch_quiet _ _

theorem watch_loop (m : Machine D) (images first : Nat) (t : Int) (F : List (Nat × Int)) (after : List (Event D))
    (ha : ∀ w, after.foldl Watch.step w = w) : ∀ (n k : Nat),
    ((List.range n).flatMap fun p => forwardPass m images (first + p) ++ after).foldl Watch.step ⟨some (t, k), F⟩ =
      ⟨some (t, k + n * images), F⟩
  | 0, k => by simp
  | n + 1, k => by
    rw [List.range_succ, List.flatMap_append, List.foldl_append, watch_loop m images first t F after ha n k, List.flatMap_singleton,
      List.foldl_append, watch_pass, ha]
    simp [Nat.add_mul, Nat.add_assoc]

/-- The two measurements. -/
theorem watched (m : Machine D) (images counted : Nat) :
    measured (events m images counted) = [(30 * images, m.stop1 - m.start1), (15 * images, m.stop2 - m.start2)] := by
  have hreg : ∀ (w : Watch) (ds : List (Desc (Stat D) D)),
      (ds.map fun d => (Event.collector (.registerStat d) : Event D)).foldl Watch.step w = w := by
    intro w ds
    induction ds with
    | nil => rfl
    | cons d ds ih => exact ih
  unfold measured events
  simp only [List.foldl_append, hreg, watch_pass]
  show (List.foldl Watch.step (List.foldl Watch.step (List.foldl Watch.step (List.foldl Watch.step ⟨some (m.start1, 0), []⟩ _) _) _) _).finished = _
  rw [watch_loop m images 1 m.start1 [] [.collector (.update 0 (counted : D))] (fun _ => rfl) 30 0]
  show (List.foldl Watch.step (List.foldl Watch.step ⟨some (m.start2, 0), [(0 + 30 * images, m.stop1 - m.start1)]⟩ _) _).finished = _
  rw [watch_loop m images 31 m.start2 _ [.backward images, .collector (.update 0 (counted : D))] (fun _ => rfl) 15 0]
  show [(0 + 30 * images, m.stop1 - m.start1)] ++ [(0 + 15 * images, m.stop2 - m.start2)] = _
  simp

/-- What `main` does when it ends properly. -/
theorem main_done {conv : Str → D} {initial : Settings D} {network : Str → Nat → Nat → Nat → Outcome (Machine D)} {files : Files}
    {arg : Option Str} {es : List (Event D)} (h : main conv initial network files arg = .done es) :
    ∃ p m s, plan files arg = .done p ∧ network p.description (initial.count .pbatchsize) p.width p.height = .done m ∧
      initSettings conv p.description initial = .done s ∧ es = events m (initial.count .pbatchsize) (s.count .pbatchsize) := by
  unfold main at h
  cases hp : plan files arg with
  | done p =>
    rw [hp, Outcome.bind_done] at h
    dsimp only at h
    cases hn : network p.description (initial.count .pbatchsize) p.width p.height with
    | done m =>
      rw [hn, Outcome.bind_done] at h
      cases hs : initSettings conv p.description initial with
      | done s =>
        rw [hs, Outcome.bind_done] at h
        exact ⟨p, m, s, rfl, hn, hs, (Outcome.done.inj h).symm⟩
      | fatal => rw [hs] at h; cases h
      | undefined => rw [hs] at h; cases h
    | fatal => rw [hn] at h; cases h
    | undefined => rw [hn] at h; cases h
  | fatal => rw [hp] at h; cases h
  | undefined => rw [hp] at h; cases h

/-- **C103 (the throughput, for descriptions that leave the size of a batch at its default).**  The two reports of the benchmark
are images per second: the images that passed through the network while the stopwatch ran, divided by the time. -/
theorem C103_throughput_partial {conv : Str → D} {initial : Settings D} {network : Str → Nat → Nat → Nat → Outcome (Machine D)}
    {files : Files} {arg : Option Str} {es : List (Event D)} (h : main conv initial network files arg = .done es)
    (hc : ∀ t i w hh m, network t i w hh = .done m → Clean m)
    (hsame : ∀ p s, plan files arg = .done p → initSettings conv p.description initial = .done s →
      s.count .pbatchsize = initial.count .pbatchsize) :
    ∃ a log, Stats.run ⟨false, 0⟩ (calls es) = some a ∧ a.sinks = [log] ∧ (measured es).length = 2 ∧
      firstValues log = (measured es).map fun r => some ⟨false, (r.1 : D) / (r.2 : D)⟩ := by
  obtain ⟨p, m, s, hp, hn, hs, rfl⟩ := main_done h
  obtain ⟨a, log, h1, h2, h3⟩ := reported m (hc _ _ _ _ _ hn) (initial.count .pbatchsize) (s.count .pbatchsize)
  refine ⟨a, log, h1, h2, by rw [watched]; rfl, ?_⟩
  rw [h3, watched, hsame p s hp hs]
  simp

/-- **C103, refuted: the throughput is overstated.**  The image is made before the settings are read.  It has one sample, but
every pass is counted as `pbatchsize` images: the reports are `pbatchsize` times what was measured. -/
theorem C103_overstated {conv : Str → D} {initial : Settings D} {network : Str → Nat → Nat → Nat → Outcome (Machine D)}
    {files : Files} {arg : Option Str} {es : List (Event D)} (h : main conv initial network files arg = .done es)
    (hc : ∀ t i w hh m, network t i w hh = .done m → Clean m) (h1 : initial.count .pbatchsize = 1)
    (p : Plan) (s : Settings D) (hp : plan files arg = .done p) (hs : initSettings conv p.description initial = .done s) :
    ∃ a log, Stats.run ⟨false, 0⟩ (calls es) = some a ∧ a.sinks = [log] ∧ (measured es).length = 2 ∧
      firstValues log = (measured es).map fun r => some ⟨false, (s.count .pbatchsize : D) * ((r.1 : D) / (r.2 : D))⟩ := by
  obtain ⟨p', m, s', hp', hn, hs', rfl⟩ := main_done h
  obtain rfl : p = p' := Outcome.done.inj (hp.symm.trans hp')
  obtain rfl : s = s' := Outcome.done.inj (hs.symm.trans hs')
  obtain ⟨a, log, k1, k2, k3⟩ := reported m (hc _ _ _ _ _ hn) (initial.count .pbatchsize) (s.count .pbatchsize)
  refine ⟨a, log, k1, k2, by rw [watched]; rfl, ?_⟩
  rw [k3, watched, h1]
  simp only [List.map_cons, List.map_nil, List.cons.injEq, Option.some.injEq, and_true, Stat.mk.injEq, true_and]
  constructor <;> (push_cast; ring)

/-- A line that is read and says nothing about the size of a batch. -/
def Keeps (conv : Str → D) (line : Str) : Prop :=
  ∀ s, ∃ s', TrainSettings.readLine conv line s = .done s' ∧ s'.count .pbatchsize = s.count .pbatchsize

theorem readLines_keeps (conv : Str → D) : ∀ (lines : List Str), (∀ l ∈ lines, Keeps conv l) → ∀ (rest : List Str) (s : Settings D),
    ∃ s', TrainSettings.readLines conv (lines ++ rest) s = TrainSettings.readLines conv rest s' ∧
      s'.count .pbatchsize = s.count .pbatchsize
  | [], _, rest, s => ⟨s, rfl, rfl⟩
  | l :: lines, h, rest, s => by
    obtain ⟨s1, h1, h2⟩ := h l List.mem_cons_self s
    obtain ⟨s2, h3, h4⟩ := readLines_keeps conv lines (fun l hl => h l (by simp [hl])) rest s1
    refine ⟨s2, ?_, h4.trans h2⟩
    rw [List.cons_append, TrainSettings.readLines, h1, Outcome.bind_done]
    exact h3

/-- The lines of the two networks before and after that of the size of a batch. -/
def beforeBatch : List Str :=
  ["# Sample CNN for LabelMeFacade Dataset ".toList, "#anual rfx=34 rfy=34 factorx=4 factory=4 ".toList, " ".toList,
    "# Network configuration ".toList, "?convolutional kernels=16 size=7x7 ".toList, "?maxpooling size=4x4 ".toList,
    "?tanh ".toList, " ".toList, "?convolutional kernels=12 size=5x5 ".toList, "?maxpooling size=2x2 ".toList,
    "?tanh ".toList, " ".toList, "?convolutional kernels=96 size=5x5 ".toList, "?tanh ".toList, " ".toList,
    "?fullyconnected neurons=512 ".toList, "?tanh ".toList, " ".toList, "?fullyconnected neurons=192 ".toList,
    "?tanh ".toList, " ".toList, "?fullyconnected neurons=(o) ".toList, "?output ".toList, " ".toList,
    "# Learning settings ".toList, "l1=0.000 ".toList, "l2=0.0008 ".toList, "lr=0.02 ".toList, "gamma=0.003 ".toList,
    "momentum=0.9 ".toList, "exponent=0.75 ".toList, "iterations=100 ".toList, "sbatchsize=24 ".toList]
def beforeBatchSmall : List Str :=
  ["# Sample CNN for LabelMeFacade Dataset ".toList, "#anual rfx=34 rfy=34 factorx=4 factory=4 ".toList, " ".toList,
    "# Network configuration ".toList, "?convolutional kernels=8 size=7x7 ".toList, "?maxpooling size=2x2 ".toList,
    " ".toList, "?convolutional kernels=4 size=5x5 ".toList, "?tanh ".toList, " ".toList,
    "?convolutional kernels=12 size=5x5 ".toList, "?tanh ".toList, " ".toList, "?fullyconnected neurons=64 ".toList,
    "?tanh ".toList, " ".toList, "?fullyconnected neurons=(o) ".toList, "?output ".toList, " ".toList,
    "# Learning settings ".toList, "l1=0.000 ".toList, "l2=0.0008 ".toList, "lr=0.02 ".toList, "gamma=0.003 ".toList,
    "momentum=0.9 ".toList, "exponent=0.75 ".toList, "iterations=100 ".toList, "sbatchsize=24 ".toList]
def afterBatch : List Str :=
  ["mu=1.75 ".toList, "eta=0.1 ".toList, "".toList]

theorem beforeBatch_keeps (conv : Str → D) : ∀ l ∈ beforeBatch, Keeps conv l := by
  unfold beforeBatch
  repeat (first | exact List.forall_mem_nil _ | refine List.forall_mem_cons.2 ⟨fun s => ⟨_, rfl, rfl⟩, ?_⟩)

theorem beforeBatchSmall_keeps (conv : Str → D) : ∀ l ∈ beforeBatchSmall, Keeps conv l := by
  unfold beforeBatchSmall
  repeat (first | exact List.forall_mem_nil _ | refine List.forall_mem_cons.2 ⟨fun s => ⟨_, rfl, rfl⟩, ?_⟩)

theorem afterBatch_keeps (conv : Str → D) : ∀ l ∈ afterBatch, Keeps conv l := by
  unfold afterBatch
  repeat (first | exact List.forall_mem_nil _ | refine List.forall_mem_cons.2 ⟨fun s => ⟨_, rfl, rfl⟩, ?_⟩)

theorem batch_of_two (conv : Str → D) (text : Str) (before : List Str) (hk : ∀ l ∈ before, Keeps conv l)
    (ht : NetConfig.linesOf text = before ++ "pbatchsize=2 ".toList :: (afterBatch ++ [])) (initial : Settings D) :
    ∃ s, initSettings conv text initial = .done s ∧ s.count .pbatchsize = 2 := by
  unfold initSettings
  rw [ht]
  obtain ⟨s1, h1, -⟩ := readLines_keeps conv before hk ("pbatchsize=2 ".toList :: (afterBatch ++ [])) initial
  rw [h1, TrainSettings.readLines, show TrainSettings.readLine conv "pbatchsize=2 ".toList s1 = .done (s1.setCount .pbatchsize 2) from rfl,
    Outcome.bind_done]
  obtain ⟨s2, h2, h3⟩ := readLines_keeps conv afterBatch (afterBatch_keeps conv) [] (s1.setCount .pbatchsize 2)
  exact ⟨s2, h2, h3⟩

/-- Both networks of the tool ask for batches of two, so that without an argument the throughput is reported twice too high. -/
theorem C103_built_in (conv : Str → D) (initial : Settings D) :
    (∃ s, initSettings conv builtIn initial = .done s ∧ s.count .pbatchsize = 2) ∧
    ∃ s, initSettings conv builtInSmall initial = .done s ∧ s.count .pbatchsize = 2 :=
  ⟨batch_of_two conv _ _ (beforeBatch_keeps conv) (by decide +kernel) initial,
    batch_of_two conv _ _ (beforeBatchSmall_keeps conv) (by decide +kernel) initial⟩

/-- C103: a file is used unless its name begins with `--ci`; a missing file ends the program. -/
theorem C103_network (files : Files) (name : Str) :
    (∀ text, files name = some text → ¬ "--ci".toList <+: name → plan files (some name) = .done ⟨text, 512, 512⟩) ∧
    (files name = none → ¬ "--ci".toList <+: name → plan files (some name) = .fatal) ∧
    ("--ci".toList <+: name → plan files (some name) = .done ⟨builtInSmall, 64, 64⟩) := by
  have hp : name.take 4 = "--ci".toList ↔ "--ci".toList <+: name := by
    rw [List.prefix_iff_eq_take]
    exact eq_comm
  refine ⟨fun text h hn => ?_, fun h hn => ?_, fun hn => ?_⟩
  · simp only [plan, hp, hn, if_false, h]
  · simp only [plan, hp, hn, if_false, h]
  · simp only [plan, hp, hn, if_true]

/-! ### Example -/

/-- A network with two further statistics. -/
def demo : Machine ℚ := ⟨[HMaxStats.desc, HMaxStats.desc], fun k => [(1, k), (2, 3)], 10, 20, 100, 130⟩

example : Clean demo := by
  constructor
  · intro d hd x y
    simp only [demo, List.mem_cons, List.not_mem_nil, or_false, or_self] at hd
    rw [hd]
    rfl
  · intro k u hu
    simp only [demo, List.mem_cons, List.not_mem_nil, or_false] at hu
    rcases hu with rfl | rfl <;> simp

/-- 30 images in 10 seconds and 15 in 30 seconds. -/
example : measured (events demo 1 2) = [(30, 10), (15, 30)] := by decide +kernel

/-- Reported as 6 and 1 images per second. -/
example : ((Stats.run ⟨false, 0⟩ (calls (events demo 1 2))).bind fun a => a.sinks[0]?).map firstValues =
    some [some ⟨false, 6⟩, some ⟨false, 1⟩] := by decide +kernel

/-- A network that does not mention the size of a batch. -/
example : let initial : Settings ℚ := ⟨fun _ => 0, fun _ => 1, false⟩
    let files : Files := fun n => if n = "net".toList then some "?tanh\nlr=0.5".toList else none
    (∃ es, main (fun _ => 0) initial (fun _ _ _ _ => .done demo) files (some "net".toList) = .done es) ∧
    ∀ p s, plan files (some "net".toList) = .done p → initSettings (fun _ => 0) p.description initial = .done s →
      s.count .pbatchsize = initial.count .pbatchsize := by
  refine ⟨⟨_, rfl⟩, fun p s hp hs => ?_⟩
  obtain rfl : _ = p := Outcome.done.inj hp
  obtain rfl : _ = s := Outcome.done.inj hs
  rfl

end CN24.Benchmark
