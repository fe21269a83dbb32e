import Verif.Proof.Progress
import Verif.Props.Trainer
import Mathlib.Algebra.Order.Field.Rat
import Mathlib.Tactic.FieldSimp
import Mathlib.Tactic.Linarith

/-
Property theorems about the statistics on QuickProp and on speed (C90).
-/

namespace CN24.Progress
open CN24 CN24.Session

variable {R τ B : Type _} [Field R] [LinearOrder R]

/-- The rows of `n` epochs with snapshots, and the session after them. -/
structure Rows (m : Machine R τ B) (n : Nat) (st st' : State R τ) (S : Nat → Trainer.State R) (ks : Nat → List Counts)
    (hard : Nat → Stats.Hard) (outs : Nat → List (Stat R)) : Prop where
  first : S 0 = st.opt
  steps : ∀ e, e < n → Steps m (ks e) (S e) (S (e + 1)) ∧ (ks e).length = m.iterations ∧
    (hard e).iterations = (ks e).length ∧ (hard e).weights = m.weightCount ∧ RowOf m (ks e) 1 (hard e) (outs e)
  last : S n = st'.opt

theorem snapshots_live {m : Machine R τ B} {S0 : List (List (Stats.SinkEvent (Stat R)))} (n : Nat) {st st' : State R τ}
    (h : Live m S0 [] 0 st.agg) (hd : forO n (fun _ => trainStep m true) st = .done st') :
    ∃ S ks hard outs, Rows m n st st' S ks hard outs ∧
      Live m (S0.map (· ++ (List.range n).map fun e => .process (hard e) (outs e))) [] 0 st'.agg := by
  induction n generalizing st' with
  | zero =>
    cases hd
    refine ⟨fun _ => st.opt, fun _ => [], fun _ => {}, fun _ => [], ⟨rfl, fun e he => by omega, rfl⟩, ?_⟩
    simpa using h
  | succ n ih =>
    obtain ⟨s1, p1, p2⟩ := bind_eq_done hd
    obtain ⟨S, ks, hard, outs, r, l⟩ := ih p1
    obtain ⟨ls, hd', out, k1, k2, k3, k4, k5, k6⟩ := snapshotStep_live l p2
    refine ⟨fun e => if e ≤ n then S e else st'.opt, fun e => if e < n then ks e else ls,
      fun e => if e < n then hard e else hd', fun e => if e < n then outs e else out, ⟨?_, ?_, ?_⟩, ?_⟩
    · show (if 0 ≤ n then _ else _) = _
      rw [if_pos (Nat.zero_le n)]; exact r.first
    · intro e he
      by_cases hlt : e < n
      · simp only [if_pos hlt, if_pos (Nat.le_of_lt hlt), if_pos (Nat.succ_le_of_lt hlt)]
        exact r.steps e hlt
      · have : e = n := by omega
        subst this
        simp only [if_neg (Nat.lt_irrefl e), if_pos (Nat.le_refl e), if_neg (Nat.not_succ_le_self e), r.last]
        exact ⟨k2, k1, k3, k4, k5⟩
    · show (if n + 1 ≤ n then _ else _) = _
      rw [if_neg (by omega)]
    · convert k6 using 1
      rw [List.map_map]
      apply List.map_congr_left
      intro s _
      simp only [Function.comp_apply, List.append_assoc]
      congr 1
      rw [List.range_succ, List.map_append]
      congr 1
      · apply List.map_congr_left
        intro e he
        rw [if_pos (List.mem_range.1 he), if_pos (List.mem_range.1 he)]
      · simp

theorem plain_live {m : Machine R τ B} {S0 : List (List (Stats.SinkEvent (Stat R)))} (n : Nat) {st st' : State R τ}
    (h : Live m S0 [] 0 st.agg) (hd : forO n (fun _ => trainStep m false) st = .done st') :
    ∃ ks, ks.length = n * m.iterations ∧ Steps m ks st.opt st'.opt ∧ Live m S0 ks n st'.agg := by
  induction n generalizing st' with
  | zero =>
    cases hd
    exact ⟨[], by simp, Steps.nil _, h⟩
  | succ n ih =>
    obtain ⟨s1, p1, p2⟩ := bind_eq_done hd
    obtain ⟨ks, h1, h2, h3⟩ := ih p1
    obtain ⟨ls, k1, k2, k3⟩ := plainStep_live h3 p2
    exact ⟨ks ++ ls, by rw [List.length_append, h1, k1, Nat.succ_mul], h2.trans k2, k3⟩

/-- The numbers of a row in words. -/
def Row (m : Machine R τ B) (ks : List Counts) (epochs : Nat) (hard : Stats.Hard) (outs : List (Stat R)) : Prop :=
  (if m.cfg.method = .quickprop ∧ ks ≠ [] ∧ 0 < m.weightCount then Percentages m ks outs else NoPercentages m outs) ∧
  (if epochs = 0 then outs[m.pixelsId]? = some none ∧ outs[m.framesId]? = some none
    else Speed m (epochs * (m.cfg.sampleCount * m.iterations * m.cfg.sbatchsize))
      (epochs * (m.batch * m.iterations * m.cfg.sbatchsize)) hard outs)

theorem RowOf.row {m : Machine R τ B} {ks : List Counts} {e : Nat} {hard : Stats.Hard} {outs : List (Stat R)}
    (h : RowOf m ks e hard outs) (hi : hard.iterations = ks.length) (hw : hard.weights = m.weightCount) :
    Row m ks e hard outs := by
  obtain ⟨hA, hB, hC, hM, hP, hF⟩ := h
  constructor
  · by_cases hq : m.cfg.method = .quickprop ∧ ks ≠ [] ∧ 0 < m.weightCount
    · rw [if_pos hq]
      obtain ⟨q1, q2, q3⟩ := hq
      have hpos : 0 < hard.iterations ∧ 0 < hard.weights := by
        rw [hi, hw]; exact ⟨List.length_pos_iff.2 q2, q3⟩
      have key : ∀ f : Counts → Nat, caseDesc.outputF hard (caseVal m f ks) =
          some (100 * ((ks.map f).sum : R) / ((ks.length : R) * (m.weightCount : R))) := by
        intro f
        unfold caseDesc caseVal
        dsimp only
        rw [if_pos hpos, q1]
        dsimp only
        rw [if_neg q2, hi, hw]
        rfl
      refine ⟨by rw [hA, key], by rw [hB, key], by rw [hC, key], ?_⟩
      rw [hM, key]
      simp
    · rw [if_neg hq]
      have key : ∀ f : Counts → Nat, caseDesc.outputF hard (caseVal m f ks) = none := by
        intro f
        unfold caseDesc caseVal
        dsimp only
        split
        · rename_i hp
          cases hm : m.cfg.method
          · rfl
          · dsimp only
            rw [if_pos]
            · rfl
            · by_contra hne
              exact hq ⟨hm, hne, by rw [← hw]; exact hp.2⟩
        · rfl
      exact ⟨by rw [hA, key], by rw [hB, key], by rw [hC, key], by rw [hM, key]⟩
  · by_cases he : e = 0
    · rw [if_pos he]
      subst he
      rw [hP, hF]
      simp [speedVal, speedDesc]
    · rw [if_neg he]
      intro _
      rw [hP, hF]
      unfold speedVal speedDesc epochPixels epochFrames
      simp [he]

/-! ## Commands keep the session ready -/

theorem train_ready {m : Machine R τ B} {n : Nat} {b : Bool} {st st' : State R τ} (h : Ready m st)
    (hd : exec m (.train n b) st = .done st') : Ready m st' := by
  obtain ⟨s1, p1, p2⟩ := bind_eq_done hd
  have key : ∃ S ks e ls, Live m S ks e s1.agg ∧ Steps m ls st.opt s1.opt := by
    cases b
    · obtain ⟨ks, -, k2, k3⟩ := plain_live n (begin_live h) p1
      exact ⟨_, _, _, ks, k3, k2⟩
    · obtain ⟨S, ks, hard, outs, r, l⟩ := snapshots_live n (begin_live h) p1
      have : ∀ e, e ≤ n → ∃ ls, Steps m ls st.opt (S e) := by
        intro e
        induction e with
        | zero => exact fun _ => ⟨[], by rw [r.first]; exact Steps.nil _⟩
        | succ e ih =>
          intro he
          obtain ⟨ls, hl⟩ := ih (by omega)
          exact ⟨_, hl.trans (r.steps e (by omega)).1⟩
      obtain ⟨ls, hl⟩ := this n (Nat.le_refl n)
      rw [r.last] at hl
      exact ⟨_, _, _, ls, l, hl⟩
  obtain ⟨S, ks, e, ls, k1, k2⟩ := key
  have hs : syncEpoch m.toMachine s1 = _ := syncEpoch_cases m.toMachine s1
  have reg : Registered m (syncEpoch m.toMachine s1).agg := by rw [hs]; exact k1.reg
  have ph : (syncEpoch m.toMachine s1).agg.phase = .recording := by rw [hs]; exact k1.phase
  obtain ⟨a1, a2, a3, a4, a5, -, -⟩ := finish_live _ reg ph p2
  refine ⟨a1, a2, a3, a4, ?_⟩
  rw [a5, hs]
  show weightCount (if m.hybrid then s1.opt else Trainer.reset s1.opt).weights = _
  have : (if m.hybrid then s1.opt else Trainer.reset s1.opt).weights = s1.opt.weights := by
    split <;> rfl
  rw [this, k2.total.1, h.weights]

/-- A test. -/
theorem test_row {m : Machine R τ B} {st st' : State R τ} (h : Ready m st) (hd : exec m .test st = .done st') :
    Ready m st' ∧ ∃ hard outs, st'.agg.sinks = st.agg.sinks.map (· ++ [.process hard outs]) ∧ NoPercentages m outs ∧
      Speed m ((if m.hybrid then m.testSampleCount else m.cfg.sampleCount) * m.testIterations)
        ((if m.hybrid then m.testBatch else m.batch) * m.testIterations) hard outs := by
  obtain ⟨s1, p1, p2⟩ := bind_eq_done hd
  obtain ⟨s0, p3, p4⟩ := bind_eq_done p1
  have hs : syncEpoch m.toMachine (startRecording m.toMachine st) = _ := syncEpoch_cases m.toMachine _
  have e0 := startRecording_agg m.toMachine st h.stopped
  have ag : (syncEpoch m.toMachine (startRecording m.toMachine st)).agg =
      { st.agg with startTime := m.clock st.ticks, phase := .recording } := by rw [hs]; exact e0
  obtain ⟨q, o, w⟩ := test_quiet (m := m) (by rw [ag]; exact h.registered.ok) (by rw [ag]) p3
  rw [ag] at q
  have reg0 : Registered m s0.agg := h.registered.of_descs q.ok q.descs
  obtain ⟨stats, rfl, e2, e3⟩ := updates_done reg0.ok q.phase p4
  have nulls : ∀ id ∈ ids m, s0.agg.stats[id]? = some none := by
    intro id hid
    rw [q.stats id (h.registered.ids_ne hid)]
    exact h.null id hid
  obtain ⟨a1, a2, a3, a4, a5, -, a7⟩ := finish_live true (m := m)
    (st := { s0 with agg := { s0.agg with stats := stats } }) (reg0.of_descs e2 rfl) q.phase p2
  refine ⟨⟨a1, a2, a3, a4, ?_⟩, ?_⟩
  · rw [a5]
    show weightCount s0.opt.weights = _
    rw [o, hs]
    show weightCount (if m.hybrid then st.opt else Trainer.reset st.opt).weights = _
    have : (if m.hybrid then st.opt else Trainer.reset st.opt).weights = st.opt.weights := by
      split <;> rfl
    rw [this, h.weights]
  · obtain ⟨hard, outs, -, -, b3, b4⟩ := a7 rfl
    have hdis := h.registered.distinct
    simp only [ids, List.nodup_cons, List.mem_cons, List.not_mem_nil, or_false, not_or] at hdis
    obtain ⟨-, ⟨a1, a2, a3, a4, a5⟩, ⟨b1, b2, b3', b4'⟩, ⟨c1, c2, c3⟩, ⟨d1, d2⟩, f1, -⟩ := hdis
    have val : ∀ id d, id ∈ ids m → s0.agg.descs[id]? = some d → d.updateF = (fun s v => some (s.getD 0 + v)) →
        outs[id]? = some (d.outputF hard (added none id (testUpdates m))) := by
      intro id d hid hd hu
      exact b4 id d _ hd (e3 id d none hd hu (nulls id hid))
    refine ⟨hard, outs, ?_, ⟨?_, ?_, ?_, ?_⟩, ?_⟩
    · rw [b3]
      show s0.agg.sinks.map _ = _
      rw [q.sinks]
    · rw [val m.idA _ (by simp [ids]) reg0.descA rfl, testUpdates, added, added, added, if_neg (Ne.symm a4),
        if_neg (Ne.symm a5)]
      simp [caseDesc]
    · rw [val m.idB _ (by simp [ids]) reg0.descB rfl, testUpdates, added, added, added, if_neg (Ne.symm b3'),
        if_neg (Ne.symm b4')]
      simp [caseDesc]
    · rw [val m.idC _ (by simp [ids]) reg0.descC rfl, testUpdates, added, added, added, if_neg (Ne.symm c2),
        if_neg (Ne.symm c3)]
      simp [caseDesc]
    · rw [val m.idM _ (by simp [ids]) reg0.descM rfl, testUpdates, added, added, added, if_neg (Ne.symm d1),
        if_neg (Ne.symm d2)]
      simp [caseDesc]
    · intro _
      rw [val m.pixelsId _ (by simp [ids]) reg0.descP rfl, val m.framesId _ (by simp [ids]) reg0.descF rfl, testUpdates,
        added, added, added, added, added, added, if_pos rfl, if_neg (Ne.symm f1), if_neg f1, if_pos rfl]
      simp [speedDesc]

theorem exec_ready {m : Machine R τ B} {c : Command R} {st st' : State R τ} (h : Ready m st) (hc : Fits m c)
    (hd : exec m c st = .done st') : Ready m st' := by
  cases c with
  | train n b => exact train_ready h hd
  | test => exact (test_row h hd).1
  | setEpoch e =>
    cases hd
    have hs := syncEpoch_cases m.toMachine { st with epoch := e, opt := Trainer.reset st.opt }
    rw [hs]
    refine ⟨h.registered, h.stopped, h.null, h.iterations, ?_⟩
    show weightCount (Trainer.reset (if m.hybrid then Trainer.reset st.opt else Trainer.reset (Trainer.reset st.opt))).weights
      = _
    have : (Trainer.reset (if m.hybrid then Trainer.reset st.opt else Trainer.reset (Trainer.reset st.opt))).weights =
        st.opt.weights := by split <;> rfl
    rw [this, h.weights]
  | reset w => cases hd; exact ⟨h.registered, h.stopped, h.null, h.iterations, hc⟩
  | load w => cases hd; exact ⟨h.registered, h.stopped, h.null, h.iterations, hc⟩

theorem run_ready {m : Machine R τ B} : ∀ {cs : List (Command R)} {st st' : State R τ}, Ready m st →
    (∀ c ∈ cs, Fits m c) → run m cs st = .done st' → Ready m st'
  | [], st, st', h, _, hd => by cases hd; exact h
  | c :: cs, st, st', h, hf, hd => by
    obtain ⟨s1, p1, p2⟩ := bind_eq_done hd
    exact run_ready (exec_ready h (hf c (by simp)) p1) (fun c hc => hf c (by simp [hc])) p2

/-! ## The rows of a session -/

/-- C90: training `n` epochs with snapshots after any session: every sink gets `n` rows.  Row `e` has the percentages of
the steps of epoch `e` (null unless QuickProp is used), and pixels and images of that epoch per second. -/
theorem C90_training (m : Machine R τ B) (cs : List (Command R)) (st0 st st' : State R τ) (h : Ready m st0)
    (hf : ∀ c ∈ cs, Fits m c) (hrun : run m cs st0 = .done st) (n : Nat) (hd : exec m (.train n true) st = .done st') :
    ∃ (S : Nat → Trainer.State R) (ks : Nat → List Counts) (hard : Nat → Stats.Hard) (outs : Nat → List (Stat R)),
      S 0 = st.opt ∧
      (∀ e, e < n → Steps m (ks e) (S e) (S (e + 1)) ∧ (ks e).length = m.iterations ∧ Row m (ks e) 1 (hard e) (outs e)) ∧
      st'.agg.sinks = st.agg.sinks.map (· ++ (List.range n).map fun e => .process (hard e) (outs e)) := by
  have hr := run_ready h hf hrun
  obtain ⟨s1, p1, p2⟩ := bind_eq_done hd
  obtain ⟨S, ks, hard, outs, r, l⟩ := snapshots_live n (begin_live hr) p1
  have hs : syncEpoch m.toMachine s1 = _ := syncEpoch_cases m.toMachine s1
  obtain ⟨-, -, -, -, -, a6, -⟩ := finish_live _ (m := m) (st := syncEpoch m.toMachine s1) (by rw [hs]; exact l.reg)
    (by rw [hs]; exact l.phase) p2
  refine ⟨S, ks, hard, outs, r.first, fun e he => ?_, ?_⟩
  · obtain ⟨b1, b2, b3, b4, b5⟩ := r.steps e he
    exact ⟨b1, b2, b5.row b3 b4⟩
  · rw [a6 rfl, hs]
    exact l.sinks

/-- C90: training `n` epochs without snapshots: one row for all of them. -/
theorem C90_no_snapshots (m : Machine R τ B) (cs : List (Command R)) (st0 st st' : State R τ) (h : Ready m st0)
    (hf : ∀ c ∈ cs, Fits m c) (hrun : run m cs st0 = .done st) (n : Nat) (hd : exec m (.train n false) st = .done st') :
    ∃ (q : Trainer.State R) (ks : List Counts) (hard : Stats.Hard) (outs : List (Stat R)),
      Steps m ks st.opt q ∧ ks.length = n * m.iterations ∧ Row m ks n hard outs ∧
      st'.agg.sinks = st.agg.sinks.map (· ++ [.process hard outs]) := by
  have hr := run_ready h hf hrun
  obtain ⟨s1, p1, p2⟩ := bind_eq_done hd
  obtain ⟨ks, k1, k2, l⟩ := plain_live n (begin_live hr) p1
  have hs : syncEpoch m.toMachine s1 = _ := syncEpoch_cases m.toMachine s1
  have ag : (syncEpoch m.toMachine s1).agg = s1.agg := by rw [hs]
  obtain ⟨-, -, -, -, -, -, a7⟩ := finish_live _ (m := m) (st := syncEpoch m.toMachine s1) (by rw [hs]; exact l.reg)
    (by rw [hs]; exact l.phase) p2
  obtain ⟨hard, outs, b1, b2, b3, b4⟩ := a7 rfl
  rw [ag] at b1 b2 b3 b4
  refine ⟨s1.opt, ks, hard, outs, k2, k1, ?_, by rw [b3, l.sinks]⟩
  refine RowOf.row ⟨b4 _ _ _ l.reg.descA l.valA, b4 _ _ _ l.reg.descB l.valB, b4 _ _ _ l.reg.descC l.valC,
    b4 _ _ _ l.reg.descM l.valM, b4 _ _ _ l.reg.descP l.valP, b4 _ _ _ l.reg.descF l.valF⟩ (b1.trans l.iterations)
    (b2.trans l.weights)

/-- C90: a test after any session: one row without percentages; its speed counts the images of all batches, the
repeated ones that fill up the last batch among them. -/
theorem C90_test (m : Machine R τ B) (cs : List (Command R)) (st0 st st' : State R τ) (h : Ready m st0)
    (hf : ∀ c ∈ cs, Fits m c) (hrun : run m cs st0 = .done st) (hd : exec m .test st = .done st') :
    ∃ hard outs, st'.agg.sinks = st.agg.sinks.map (· ++ [.process hard outs]) ∧ NoPercentages m outs ∧
      Speed m ((if m.hybrid then m.testSampleCount else m.cfg.sampleCount) * m.testIterations)
        ((if m.hybrid then m.testBatch else m.batch) * m.testIterations) hard outs :=
  (test_row (run_ready h hf hrun) hd).2

theorem total_sum (ks : List Counts) :
    (ks.map Counts.total).sum = (ks.map (·.a)).sum + (ks.map (·.b)).sum + (ks.map (·.c)).sum := by
  induction ks with
  | nil => rfl
  | cons k ks ih =>
    simp only [List.map_cons, List.sum_cons, ih, Counts.total]
    omega

section
open scoped Classical

/-- C90: what a step of QuickProp counts: for all weights in order, without the first one if this is the first step, the
weights whose slope is flat, those for which the vertex of the parabola is within reach, and the others.  The step that
is taken, and the state afterwards, are those of the optimiser (C26). -/
theorem C90_counts (cfg : Trainer.Settings R) (hq : cfg.method = .quickprop) (lr : R) (localLr : List R)
    (st : Trainer.State R) (h : Trainer.Aligned localLr st) :
    ∃ st' k, applyCounting cfg lr localLr st = some (st', k) ∧ Trainer.applyGradients cfg lr localLr st = some st' ∧
      k.c = (counted st.firstIteration (Trainer.cells (Trainer.sizes st.weights))).countP
        (fun c => decide (Flat cfg localLr st c)) ∧
      k.b = (counted st.firstIteration (Trainer.cells (Trainer.sizes st.weights))).countP
        (fun c => decide (¬ Flat cfg localLr st c ∧ Reaches cfg localLr st c)) ∧
      k.a = (counted st.firstIteration (Trainer.cells (Trainer.sizes st.weights))).countP
        (fun c => decide (¬ Flat cfg localLr st c ∧ ¬ Reaches cfg localLr st c)) ∧
      ∀ c ∈ counted st.firstIteration (Trainer.cells (Trainer.sizes st.weights)),
        Trainer.at2 st'.lastDeltas c.flat c.elem = some (
          if Flat cfg localLr st c then - slope cfg localLr st c * lr
          else (if Reaches cfg localLr st c then
              lastStep st c * slope cfg localLr st c / (lastSlope st c - slope cfg localLr st c)
            else cfg.mu * lastStep st c) -
            (if SignType.sign (slope cfg localLr st c) = SignType.sign (lastSlope st c) then lr * slope cfg localLr st c
              else 0)) := by
  obtain ⟨st', h1, h2⟩ := fold_count hq (lr := lr) st (Trainer.cells (Trainer.sizes st.weights)) (st, {})
    (Trainer.cells_apart _) (fun c hc => h.readable hc) (fun c _ => ⟨rfl, rfl, rfl⟩) rfl
  have hap : Trainer.applyGradients cfg lr localLr st = some st' := by
    rw [Trainer.applyGradients, Trainer.visit_eq]; exact h2
  have hk : ∀ c, kind cfg localLr st c = if Flat cfg localLr st c then some .C
      else if Reaches cfg localLr st c then some .B else some .A := by
    intro c
    unfold kind caseOf
    rw [if_neg (by simp)]
    by_cases hF : Flat cfg localLr st c
    · rw [if_pos hF]
      unfold Flat at hF
      rw [if_pos hF]
    · rw [if_neg hF]
      unfold Flat at hF
      rw [if_neg hF]
      by_cases hR : Reaches cfg localLr st c
      · rw [if_pos hR]
        unfold Reaches at hR
        rw [← sgn_ne_iff] at hR
        rw [if_pos hR]
      · rw [if_neg hR]
        unfold Reaches at hR
        rw [← sgn_ne_iff] at hR
        rw [if_neg hR]
  obtain ⟨f1, f2, f3⟩ := fold_add (kind cfg localLr st)
    (counted st.firstIteration (Trainer.cells (Trainer.sizes st.weights))) {}
  refine ⟨st', _, by rw [applyCounting_eq]; exact h1, hap, ?_, ?_, ?_, ?_⟩
  · rw [f3]
    show 0 + _ = _
    rw [Nat.zero_add]
    congr 1
    funext c
    rw [hk]
    by_cases hF : Flat cfg localLr st c <;> by_cases hR : Reaches cfg localLr st c <;> simp [hF, hR]
  · rw [f2]
    show 0 + _ = _
    rw [Nat.zero_add]
    congr 1
    funext c
    rw [hk]
    by_cases hF : Flat cfg localLr st c <;> by_cases hR : Reaches cfg localLr st c <;> simp [hF, hR]
  · rw [f1]
    show 0 + _ = _
    rw [Nat.zero_add]
    congr 1
    funext c
    rw [hk]
    by_cases hF : Flat cfg localLr st c <;> by_cases hR : Reaches cfg localLr st c <;> simp [hF, hR]
  · intro c hc
    obtain ⟨st'', a1, -, -, -, -, a6⟩ := Trainer.applyGradients_spec (cfg := cfg) lr h
    rw [hap] at a1
    cases a1
    have hmem : c ∈ Trainer.cells (Trainer.sizes st.weights) := List.mem_of_mem_drop hc
    obtain ⟨r1, r2, r3, r4, r5⟩ := h.readable hmem
    obtain ⟨b1, k1⟩ := Option.isSome_iff_exists.1 r1
    obtain ⟨b2, k2⟩ := Option.isSome_iff_exists.1 r2
    obtain ⟨b3, k3⟩ := Option.isSome_iff_exists.1 r3
    obtain ⟨b4, k4⟩ := Option.isSome_iff_exists.1 r4
    obtain ⟨b5, k5⟩ := Option.isSome_iff_exists.1 r5
    obtain ⟨f, e1, -, e2, -⟩ := a6 c hmem b1 b2 b3 b4 b5 k1 k2 k3 k4 k5
    have hf : f = false := by
      rw [e1, Trainer.flagAfter, hq]
      dsimp only
      split
      · rename_i hh
        cases hfi : st.firstIteration
        · rfl
        · exfalso
          rw [hfi] at hc
          have nd := Trainer.cells_nodup (Trainer.sizes st.weights)
          generalize Trainer.cells (Trainer.sizes st.weights) = l at *
          cases l with
          | nil => cases hh
          | cons d l =>
            simp only [List.head?_cons, Option.some.injEq] at hh
            subst hh
            simp only [counted, if_true, List.drop_succ_cons, List.drop_zero] at hc
            exact (List.nodup_cons.1 nd).1 hc
      · rfl
    have es : slope cfg localLr st c = Trainer.direction cfg b1 b3 b2 := by
      unfold slope; rw [k1, k2, k3]; rfl
    have el : lastSlope st c = b5 := by unfold lastSlope; rw [k5]; rfl
    have ed : lastStep st c = b4 := by unfold lastStep; rw [k4]; rfl
    rw [e2, Trainer.after, hq, hf]
    dsimp only
    rw [← es, ← el, ← ed]
    unfold Trainer.quickStep
    rw [if_neg (by simp)]
    congr 1
    by_cases hF : Flat cfg localLr st c
    · rw [if_pos hF]
      unfold Flat at hF
      rw [if_pos hF]
    · rw [if_neg hF]
      unfold Flat at hF
      rw [if_neg hF]
      dsimp only
      have hR : (|slope cfg localLr st c| < |cfg.mu * (lastSlope st c - slope cfg localLr st c)| ∧
          Trainer.sgn (lastStep st c) ≠ Trainer.sgn (lastSlope st c - slope cfg localLr st c)) ↔
          Reaches cfg localLr st c := by
        unfold Reaches
        rw [sgn_ne_iff]
      have hS : (Trainer.sgn (slope cfg localLr st c) = Trainer.sgn (lastSlope st c)) ↔
          SignType.sign (slope cfg localLr st c) = SignType.sign (lastSlope st c) :=
        not_iff_not.1 (sgn_ne_iff _ _)
      simp only [hR, hS]
      by_cases h1 : SignType.sign (slope cfg localLr st c) = SignType.sign (lastSlope st c) <;>
        by_cases h2 : Reaches cfg localLr st c <;> simp [h1, h2]

end

/-- C90: the percentages of a row are not negative and add up to 100, but for the first weight of the first step after
the construction or a reset of the trainer, for which nothing is counted. -/
theorem C90_hundred_partial [IsStrictOrderedRing R] (m : Machine R τ B) (ks : List Counts) (p q : Trainer.State R)
    (hs : Steps m ks p q) (hq : m.cfg.method = .quickprop) (hk : ks ≠ []) (hw : 0 < m.weightCount)
    (hp : weightCount p.weights = m.weightCount) (outs : List (Stat R)) (h : Percentages m ks outs) :
    ∃ a b c : R, outs[m.idA]? = some (some a) ∧ outs[m.idB]? = some (some b) ∧ outs[m.idC]? = some (some c) ∧
      0 ≤ a ∧ 0 ≤ b ∧ 0 ≤ c ∧
      a + b + c = 100 - (if p.firstIteration then 100 / ((ks.length : R) * (m.weightCount : R)) else 0) := by
  obtain ⟨h1, h2, h3, -⟩ := h
  have hl : 0 < ks.length := List.length_pos_iff.2 hk
  have hN : (0 : R) < (ks.length : R) * (m.weightCount : R) := mul_pos (Nat.cast_pos.2 hl) (Nat.cast_pos.2 hw)
  refine ⟨_, _, _, h1, h2, h3, ?_, ?_, ?_, ?_⟩
  · positivity
  · positivity
  · positivity
  · have t := (hs.total.2 hq).1
    rw [total_sum, hp] at t
    have t' : (((ks.map (·.a)).sum : Nat) : R) + (((ks.map (·.b)).sum : Nat) : R) + (((ks.map (·.c)).sum : Nat) : R) =
        (ks.length : R) * (m.weightCount : R) - (if p.firstIteration then 1 else 0) := by
      have e : (if p.firstIteration = true ∧ m.weightCount ≠ 0 ∧ ks ≠ [] then 1 else 0) =
          (if p.firstIteration then 1 else 0 : Nat) := by
        simp [hk, Nat.pos_iff_ne_zero.1 hw]
      rw [e] at t
      have := congrArg (Nat.cast (R := R)) t
      push_cast at this
      push_cast
      linarith
    rw [← add_div, ← add_div, ← mul_add, ← mul_add, t']
    cases p.firstIteration
    · simp only [Bool.false_eq_true, if_false, sub_zero]
      rw [mul_div_assoc, div_self hN.ne', mul_one]
    · simp only [if_true]
      rw [mul_sub, sub_div, mul_one, mul_div_assoc, div_self hN.ne', mul_one]

/-- C90: in a command with snapshots the percentages of every row but the first add up to 100. -/
theorem C90_later_rows [IsStrictOrderedRing R] (m : Machine R τ B) (cs : List (Command R)) (st0 st st' : State R τ)
    (h : Ready m st0) (hf : ∀ c ∈ cs, Fits m c) (hrun : run m cs st0 = .done st) (n : Nat)
    (hd : exec m (.train n true) st = .done st') (hq : m.cfg.method = .quickprop) (hi : 0 < m.iterations)
    (hw : 0 < m.weightCount) :
    ∃ (hard : Nat → Stats.Hard) (outs : Nat → List (Stat R)),
      st'.agg.sinks = st.agg.sinks.map (· ++ (List.range n).map fun e => .process (hard e) (outs e)) ∧
      ∀ e, e < n → ∃ a b c : R, (outs e)[m.idA]? = some (some a) ∧ (outs e)[m.idB]? = some (some b) ∧
        (outs e)[m.idC]? = some (some c) ∧ 0 ≤ a ∧ 0 ≤ b ∧ 0 ≤ c ∧
        a + b + c = 100 - (if e = 0 ∧ st.opt.firstIteration then 100 / ((m.iterations : R) * (m.weightCount : R)) else 0) := by
  obtain ⟨S, ks, hard, outs, h1, h2, h3⟩ := C90_training m cs st0 st st' h hf hrun n hd
  have hr := run_ready h hf hrun
  have inv : ∀ e, e ≤ n → weightCount (S e).weights = m.weightCount ∧
      (S e).firstIteration = (st.opt.firstIteration && decide (e = 0)) := by
    intro e
    induction e with
    | zero => intro _; rw [h1]; exact ⟨hr.weights, by simp⟩
    | succ e ih =>
      intro he
      obtain ⟨i1, i2⟩ := ih (by omega)
      obtain ⟨t1, t2⟩ := (h2 e (by omega)).1.total
      refine ⟨t1.trans i1, ?_⟩
      rw [(t2 hq).2, i1]
      have hne : (ks e).isEmpty = false := by
        rw [Bool.eq_false_iff]
        intro hh
        have := (h2 e (by omega)).2.1
        rw [List.isEmpty_iff.1 hh] at this
        simp at this
        omega
      rw [hne]
      simp [Nat.pos_iff_ne_zero.1 hw]
  refine ⟨hard, outs, h3, fun e he => ?_⟩
  obtain ⟨s1, s2, s3⟩ := h2 e he
  have hk : ks e ≠ [] := by
    intro hh
    rw [hh] at s2
    simp at s2
    omega
  have hP : Percentages m (ks e) (outs e) := by
    have := s3.1
    rwa [if_pos ⟨hq, hk, hw⟩] at this
  obtain ⟨a, b, c, r1, r2, r3, r4, r5, r6, r7⟩ := C90_hundred_partial m (ks e) _ _ s1 hq hk hw (inv e (by omega)).1 _ hP
  refine ⟨a, b, c, r1, r2, r3, r4, r5, r6, ?_⟩
  rw [r7, s2, (inv e (by omega)).2]
  congr 1
  simp only [Bool.and_eq_true, decide_eq_true_eq, and_comm]

/-- C90: a test of `samples` images in batches of `batch` counts more images than there are, at most one batch more: the
frame rate is too high. -/
theorem C90_frames_exceed (samples batch : Nat) (hb : 0 < batch) :
    samples < batch * (samples / batch + 1) ∧ batch * (samples / batch + 1) ≤ samples + batch := by
  have h1 := Nat.div_add_mod samples batch
  have h2 := Nat.mod_lt samples hb
  rw [Nat.mul_add, Nat.mul_one]
  omega

/-! ## Where the property fails, and examples -/

/-- A network with three parameters: the slope of the first is its value, that of the second is always 1, that of the
third always 0.  Batches of two images of five pixels; three images for testing; every reading of the clock is one second
after the last one. -/
def threeWeights (hybrid : Bool) (method : Trainer.Method) : Machine ℚ Unit Unit where
  hybrid := hybrid
  cfg := ⟨0, 0, 0, 7 / 4, method, 1, 10, 1⟩
  rate := fun _ => 1
  localLr := [10]
  iterations := 2
  testIterations := 2
  weightCount := 3
  source := ⟨fun _ t => t, fun t => .done ((), t)⟩
  testSource := ⟨fun _ t => t, fun t => .done ((), t)⟩
  testSampleCount := 10
  gradients := fun _ w _ => [[[(Trainer.at3 w 0 0 0).getD 0, 1, 0]]]
  loss := fun _ _ _ => 1
  testLoss := fun _ _ _ => 1
  lossId := 0
  clock := fun n => n
  idA := 1
  idB := 2
  idC := 3
  idM := 4
  pixelsId := 5
  framesId := 6
  batch := 2
  testBatch := 2

def threeState : Session.State ℚ Unit where
  opt := Trainer.construct [[[1, 1, 1]]]
  epoch := 0
  testEpoch := 0
  src := ()
  testSrc := ()
  isTesting := false
  agg := { phase := .stopped, stats := List.replicate 7 none,
           descs := [lossDesc, caseDesc, caseDesc, caseDesc, caseDesc, speedDesc, speedDesc], sinks := [[]] }
  ticks := 0

/-- Elapsed seconds and statistics of the rows of the first sink after a session. -/
def rowsAfter {R τ : Type _} : Outcome (Session.State R τ) → Option (List (Int × List (Stat R)))
  | .done st => st.agg.sinks.head?.map fun l => l.filterMap fun
    | .process h outs => some (h.secondsElapsed, outs.drop 1)
    | _ => none
  | _ => none

/-- Non-vacuity of `C90_training`, `C90_no_snapshots`, `C90_test` and `C90_later_rows`. -/
example (b : Bool) (method : Trainer.Method) : Ready (threeWeights b method) threeState ∧
    0 < (threeWeights b method).iterations ∧ 0 < (threeWeights b method).weightCount ∧
    Fits (threeWeights b method) (.load [[[0, 0]], [[0]]]) := by
  refine ⟨⟨⟨rfl, ?_, rfl, rfl, rfl, rfl, rfl, rfl⟩, rfl, ?_, rfl, rfl⟩, by simp [threeWeights], by simp [threeWeights], rfl⟩
  · show [0, 1, 2, 3, 4, 5, 6].Nodup
    decide
  · intro id hid
    have : id ∈ [1, 2, 3, 4, 5, 6] := hid
    simp only [List.mem_cons, List.not_mem_nil, or_false] at this
    rcases this with rfl | rfl | rfl | rfl | rfl | rfl <;> rfl

/-- Non-vacuity of `C90_counts`. -/
example : Trainer.Aligned [10] threeState.opt := (Props.C25_construct_fits [[[(1 : ℚ), 1, 1]]] [10] rfl).1

/-- The percentages of the first row after the construction or a reset of the trainer do not add up to 100: the first
weight of the first step is missing. -/
theorem C90_first_row_short :
    rowsAfter (run (threeWeights false .quickprop) [.train 2 true, .train 1 true] threeState) = some
      [(1, [some (100 / 3), some (50 / 3), some (100 / 3), some 0, some 20, some 4]),
       (1, [some (100 / 3), some (50 / 3), some 50, some 0, some 20, some 4]),
       (1, [some (50 / 3), some (50 / 3), some 50, some 0, some 20, some 4])] := by
  decide +kernel

/-- A test of three images in one second reports four images per second. -/
theorem C90_test_too_fast :
    rowsAfter (run (threeWeights true .quickprop) [.train 2 false, .test, .train 1 true] threeState) = some
      [(1, [some (100 / 3), some (50 / 3), some (125 / 3), some 0, some 40, some 8]),
       (1, [none, none, none, none, some 20, some 4]),
       (1, [some (100 / 3), some 0, some (200 / 3), some 0, some 20, some 4])] := by
  decide +kernel

/-- With gradient descent there are no percentages. -/
example : rowsAfter (run (threeWeights false .gradientDescent) [.train 1 true, .train 0 false] threeState) = some
    [(1, [none, none, none, none, some 20, some 4]), (1, [none, none, none, none, none, none])] := by
  decide +kernel

end CN24.Progress
