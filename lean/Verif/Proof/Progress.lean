import Verif.Spec.Progress
import Verif.Proof.Rates

/-! Lemmas about the statistics on QuickProp and on speed. -/

namespace CN24.Progress
open CN24 CN24.Session

variable {R τ B : Type _} [Field R] [LinearOrder R]

/-! ### Counting -/

/-- All counts. -/
def Counts.total (k : Counts) : Nat := k.a + k.b + k.c

theorem updateWeight_keeps {cfg : Trainer.Settings R} {lr : R} {localLr : List R} {c : Trainer.Cell}
    {st st' : Trainer.State R} (h : Trainer.updateWeight cfg lr localLr c st = some st') :
    Trainer.sizes st'.weights = Trainer.sizes st.weights ∧
      st'.firstIteration = Trainer.flagAfter cfg st.firstIteration := by
  unfold Trainer.updateWeight at h
  simp only [Option.bind_eq_some_iff] at h
  obtain ⟨layerLr, -, weight, -, g, -, s, -, h⟩ := h
  unfold Trainer.flagAfter
  cases hm : cfg.method
  · rw [hm] at h
    simp only [Option.bind_eq_some_iff, Option.map_eq_some_iff] at h
    obtain ⟨ws, e1, ld, e2, rfl⟩ := h
    exact ⟨Trainer.set3_sizes e1, rfl⟩
  · rw [hm] at h
    simp only [Option.bind_eq_some_iff, Option.map_eq_some_iff] at h
    obtain ⟨q, -, ws, e1, ld, e2, lg, e3, rfl⟩ := h
    exact ⟨Trainer.set3_sizes e1, rfl⟩

/-- One weight of `applyCounting`. -/
def countWeight (cfg : Trainer.Settings R) (lr : R) (localLr : List R) (x : Trainer.State R × Counts) (c : Trainer.Cell) :
    Option (Trainer.State R × Counts) :=
  (cellCase cfg localLr c x.1).bind fun o =>
    (Trainer.updateWeight cfg lr localLr c x.1).map fun s => (s, x.2.add o)

theorem applyCounting_eq (cfg : Trainer.Settings R) (lr : R) (localLr : List R) (st : Trainer.State R) :
    applyCounting cfg lr localLr st =
      (Trainer.cells (Trainer.sizes st.weights)).foldlM (countWeight cfg lr localLr) (st, {}) := by
  unfold applyCounting
  rw [Trainer.visit_eq]
  rfl

theorem caseOf_none {mu cur last step : R} : caseOf mu true cur last step = none := by simp [caseOf]

theorem caseOf_some {mu cur last step : R} : ∃ k, caseOf mu false cur last step = some k := by
  unfold caseOf
  simp only [Bool.false_eq_true, if_false]
  split
  · exact ⟨_, rfl⟩
  split
  · exact ⟨_, rfl⟩
  · exact ⟨_, rfl⟩

theorem total_add (k : Counts) (o : Option Case) : (k.add o).total = k.total + (if o.isSome then 1 else 0) := by
  rcases o with - | - | - | - <;> simp [Counts.add, Counts.total] <;> omega

theorem cellCase_isSome {cfg : Trainer.Settings R} (hq : cfg.method = .quickprop) {localLr : List R} {c : Trainer.Cell}
    {st : Trainer.State R} {o : Option Case} (h : cellCase cfg localLr c st = some o) :
    o.isSome = !st.firstIteration := by
  unfold cellCase at h
  rw [hq] at h
  simp only [Option.bind_eq_some_iff, Option.map_eq_some_iff] at h
  obtain ⟨_, -, _, -, _, -, _, -, _, -, rfl⟩ := h
  cases st.firstIteration
  · obtain ⟨k, e⟩ := caseOf_some (R := R)
    rw [e]; rfl
  · rw [caseOf_none]; rfl

theorem fold_total {cfg : Trainer.Settings R} (hq : cfg.method = .quickprop) {lr : R} {localLr : List R} :
    ∀ {cs : List Trainer.Cell} {x x' : Trainer.State R × Counts},
      cs.foldlM (countWeight cfg lr localLr) x = some x' →
      Trainer.sizes x'.1.weights = Trainer.sizes x.1.weights ∧
      x'.2.total + (if x.1.firstIteration ∧ cs ≠ [] then 1 else 0) = x.2.total + cs.length ∧
      x'.1.firstIteration = (x.1.firstIteration && cs.isEmpty)
  | [], x, x', h => by cases h; simp
  | c :: cs, x, x', h => by
    rw [List.foldlM_cons] at h
    obtain ⟨x1, h1, h2⟩ := Option.bind_eq_some_iff.1 h
    obtain ⟨o, e1, e2⟩ := Option.bind_eq_some_iff.1 h1
    obtain ⟨s, e3, rfl⟩ := Option.map_eq_some_iff.1 e2
    obtain ⟨k1, k2⟩ := updateWeight_keeps e3
    have k3 : s.firstIteration = false := by rw [k2, Trainer.flagAfter, hq]
    obtain ⟨i1, i2, i3⟩ := fold_total hq h2
    dsimp only at i1 i2 i3
    refine ⟨i1.trans k1, ?_, by rw [i3, k3]; simp⟩
    rw [k3, total_add, cellCase_isSome hq e1] at i2
    simp only [Bool.false_eq_true, false_and, if_false, Nat.add_zero] at i2
    rw [i2, List.length_cons]
    cases hf : x.1.firstIteration <;> simp [hf] <;> omega

theorem fold_none {cfg : Trainer.Settings R} (hq : cfg.method = .gradientDescent) {lr : R} {localLr : List R} :
    ∀ {cs : List Trainer.Cell} {x x' : Trainer.State R × Counts},
      cs.foldlM (countWeight cfg lr localLr) x = some x' →
      Trainer.sizes x'.1.weights = Trainer.sizes x.1.weights ∧ x'.2 = x.2
  | [], x, x', h => by cases h; simp
  | c :: cs, x, x', h => by
    rw [List.foldlM_cons] at h
    obtain ⟨x1, h1, h2⟩ := Option.bind_eq_some_iff.1 h
    obtain ⟨o, e1, e2⟩ := Option.bind_eq_some_iff.1 h1
    obtain ⟨s, e3, rfl⟩ := Option.map_eq_some_iff.1 e2
    obtain ⟨i1, i2⟩ := fold_none hq h2
    unfold cellCase at e1
    rw [hq] at e1
    cases e1
    exact ⟨i1.trans (updateWeight_keeps e3).1, i2⟩

theorem sum_getD {A : Type _} (f : A → Nat) (d : A) (l : List A) :
    ((List.range l.length).map fun i => f (l.getD i d)).sum = (l.map f).sum := by
  induction l with
  | nil => rfl
  | cons a l ih =>
    rw [List.length_cons, List.range_succ_eq_map, List.map_cons, List.map_map, List.sum_cons, List.map_cons,
      List.sum_cons, ← ih]
    rfl

theorem cells_length (ws : Weights R) : (Trainer.cells (Trainer.sizes ws)).length = weightCount ws := by
  unfold Trainer.cells weightCount
  simp only [List.length_flatMap, List.length_map, List.length_range]
  have e : ∀ ps : List Nat, ((List.range ps.length).map fun p => ps.getD p 0).sum = ps.sum := fun ps => by
    have := sum_getD id 0 ps
    simpa using this
  simp only [e]
  rw [sum_getD List.sum []]
  unfold Trainer.sizes
  rw [List.map_map, List.map_flatten, List.sum_flatten, List.map_map]

/-- What a step counts. -/
theorem applyCounting_total {cfg : Trainer.Settings R} {lr : R} {localLr : List R} {st st' : Trainer.State R} {k : Counts}
    (h : applyCounting cfg lr localLr st = some (st', k)) :
    weightCount st'.weights = weightCount st.weights ∧
    (cfg.method = .quickprop →
      k.total + (if st.firstIteration ∧ weightCount st.weights ≠ 0 then 1 else 0) = weightCount st.weights ∧
      st'.firstIteration = (st.firstIteration && decide (weightCount st.weights = 0))) := by
  rw [applyCounting_eq] at h
  cases hm : cfg.method
  · obtain ⟨h1, -⟩ := fold_none hm h
    refine ⟨?_, fun e => by cases e⟩
    rw [← cells_length, ← cells_length]
    dsimp only at h1
    rw [h1]
  · obtain ⟨h1, h2, h3⟩ := fold_total hm h
    have h0 : (Trainer.cells (Trainer.sizes st.weights) = []) ↔ weightCount st.weights = 0 := by
      rw [← List.length_eq_zero_iff, cells_length]
    dsimp only at h1 h2 h3
    refine ⟨by rw [← cells_length, ← cells_length, h1], fun _ => ⟨?_, ?_⟩⟩
    · rw [cells_length] at h2
      simp only [ne_eq, h0] at h2
      rw [h2]
      show 0 + 0 + 0 + _ = _
      omega
    · rw [h3]
      congr 1
      rw [Bool.eq_iff_iff, List.isEmpty_iff, h0, decide_eq_true_iff]

theorem Steps.total {m : Machine R τ B} {ks : List Counts} {p q : Trainer.State R} (h : Steps m ks p q) :
    weightCount q.weights = weightCount p.weights ∧
    (m.cfg.method = .quickprop →
      (ks.map Counts.total).sum + (if p.firstIteration ∧ weightCount p.weights ≠ 0 ∧ ks ≠ [] then 1 else 0) =
        ks.length * weightCount p.weights ∧
      q.firstIteration = (p.firstIteration && (decide (weightCount p.weights = 0) || ks.isEmpty))) := by
  induction h with
  | nil p => simp
  | @snoc ks p q r k acc lr h1 h2 ih =>
    obtain ⟨i1, i2⟩ := ih
    obtain ⟨j1, j2⟩ := applyCounting_total h2
    dsimp only at j1 j2
    refine ⟨j1.trans i1, fun hq => ?_⟩
    obtain ⟨a1, a2⟩ := i2 hq
    obtain ⟨b1, b2⟩ := j2 hq
    rw [i1] at b1 b2
    rw [List.map_append, List.sum_append, List.length_append, Nat.add_mul]
    simp only [List.map_cons, List.map_nil, List.sum_cons, List.sum_nil, Nat.add_zero, List.length_cons, List.length_nil,
      Nat.zero_add, Nat.one_mul]
    rw [b2, a2]
    rw [a2] at b1
    cases hf : p.firstIteration
    · simp [hf] at a1 b1 ⊢
      omega
    · by_cases hw : weightCount p.weights = 0
      · simp [hf, hw] at a1 b1 ⊢
        exact ⟨a1, b1⟩
      · cases ks with
        | nil => simp [hf, hw] at a1 b1 ⊢; omega
        | cons c cs => simp [hf, hw] at a1 b1 ⊢; omega

theorem Steps.trans {m : Machine R τ B} {ks ls : List Counts} {p q r : Trainer.State R} (h : Steps m ks p q)
    (h' : Steps m ls q r) : Steps m (ks ++ ls) p r := by
  induction h' with
  | nil => simpa using h
  | snoc acc lr _ e ih => rw [← List.append_assoc]; exact Steps.snoc acc lr (ih h) e

/-! ### What is counted -/

theorem sgn_ne_iff (a b : R) : Trainer.sgn a ≠ Trainer.sgn b ↔ SignType.sign a ≠ SignType.sign b := by
  have e : ∀ x : R, Trainer.sgn x = ((SignType.sign x : SignType) : Int) := by
    intro x
    unfold Trainer.sgn
    rcases lt_trichotomy x 0 with h | h | h
    · rw [if_neg (not_lt.2 h.le), if_pos h, sign_neg h]; rfl
    · subst h; simp
    · rw [if_pos h, if_neg (not_lt.2 h.le), sign_pos h]; rfl
  rw [e, e]
  constructor
  · intro h h'; exact h (by rw [h'])
  · intro h h'
    apply h
    generalize SignType.sign a = x at *
    generalize SignType.sign b = y at *
    cases x <;> cases y <;> first | rfl | (exact absurd h' (by decide))

/-- The counter of a weight after the first one. -/
def kind (cfg : Trainer.Settings R) (localLr : List R) (st : Trainer.State R) (c : Trainer.Cell) : Option Case :=
  caseOf cfg.mu false (slope cfg localLr st c) (lastSlope st c) (lastStep st c)

/-- The weights of which something is counted. -/
def counted (first : Bool) (cs : List Trainer.Cell) : List Trainer.Cell := cs.drop (if first then 1 else 0)

theorem fold_count {cfg : Trainer.Settings R} (hq : cfg.method = .quickprop) {lr : R} {localLr : List R}
    (st : Trainer.State R) :
    ∀ (cs : List Trainer.Cell) (x : Trainer.State R × Counts), cs.Pairwise Trainer.Apart →
      (∀ c ∈ cs, Trainer.Readable localLr x.1 c) →
      (∀ c ∈ cs, Trainer.at3 x.1.weights c.node c.param c.elem = Trainer.at3 st.weights c.node c.param c.elem ∧
        Trainer.at2 x.1.lastDeltas c.flat c.elem = Trainer.at2 st.lastDeltas c.flat c.elem ∧
        Trainer.at2 x.1.lastGradients c.flat c.elem = Trainer.at2 st.lastGradients c.flat c.elem) →
      x.1.accumulated = st.accumulated →
      ∃ st', cs.foldlM (countWeight cfg lr localLr) x =
          some (st', (counted x.1.firstIteration cs).foldl (fun k c => k.add (kind cfg localLr st c)) x.2) ∧
        cs.foldlM (fun s c => Trainer.updateWeight cfg lr localLr c s) x.1 = some st'
  | [], x, _, _, _, _ => by
    refine ⟨x.1, ?_, rfl⟩
    rw [show counted x.1.firstIteration [] = [] by simp [counted]]
    rfl
  | c :: cs, x, hap, hrd, hsame, hacc => by
    obtain ⟨hc, hcs⟩ := List.pairwise_cons.1 hap
    obtain ⟨r1, r2, r3, r4, r5⟩ := hrd c (by simp)
    obtain ⟨a1, k1⟩ := Option.isSome_iff_exists.1 r1
    obtain ⟨a2, k2⟩ := Option.isSome_iff_exists.1 r2
    obtain ⟨a3, k3⟩ := Option.isSome_iff_exists.1 r3
    obtain ⟨a4, k4⟩ := Option.isSome_iff_exists.1 r4
    obtain ⟨a5, k5⟩ := Option.isSome_iff_exists.1 r5
    obtain ⟨s1, u1, u2, u3, u4, -, -, -, u8⟩ := Trainer.updateWeight_spec (cfg := cfg) (lr := lr) k1 k2 k3 k4 k5
    have u4' : s1.firstIteration = false := by rw [u4, Trainer.flagAfter, hq]
    have hcase : cellCase cfg localLr c x.1 =
        some (caseOf cfg.mu x.1.firstIteration (Trainer.direction cfg a1 a3 a2) a5 a4) := by
      unfold cellCase
      rw [hq]
      dsimp only
      rw [k1, Option.bind_some, k2, Option.bind_some, k3, Option.bind_some, k4, Option.bind_some, k5]
      rfl
    have hstep : countWeight cfg lr localLr x c =
        some (s1, x.2.add (caseOf cfg.mu x.1.firstIteration (Trainer.direction cfg a1 a3 a2) a5 a4)) := by
      unfold countWeight
      rw [hcase, Option.bind_some, u1]
      rfl
    obtain ⟨st', i1, i2⟩ := fold_count hq st cs
      (s1, x.2.add (caseOf cfg.mu x.1.firstIteration (Trainer.direction cfg a1 a3 a2) a5 a4)) hcs (by
        intro d hd
        obtain ⟨t1, t2, t3, t4, t5⟩ := hrd d (List.mem_cons_of_mem _ hd)
        obtain ⟨e1, e2, e3⟩ := u8 d (hc d hd)
        exact ⟨t1, by rw [e1]; exact t2, by rw [u3]; exact t3, by rw [e2]; exact t4, by rw [e3]; exact t5⟩) (by
        intro d hd
        obtain ⟨e1, e2, e3⟩ := u8 d (hc d hd)
        obtain ⟨g1, g2, g3⟩ := hsame d (List.mem_cons_of_mem _ hd)
        exact ⟨e1.trans g1, e2.trans g2, e3.trans g3⟩) (u3.trans hacc)
    refine ⟨st', ?_, ?_⟩
    · rw [List.foldlM_cons, hstep]
      refine i1.trans ?_
      dsimp only
      rw [u4']
      have hcs' : counted false cs = cs := by simp [counted]
      rw [hcs']
      cases hf : x.1.firstIteration
      · have hk : kind cfg localLr st c = caseOf cfg.mu false (Trainer.direction cfg a1 a3 a2) a5 a4 := by
          obtain ⟨g1, g2, g3⟩ := hsame c (by simp)
          unfold kind slope lastSlope lastStep
          rw [← hacc, ← g1, ← g2, ← g3, k1, k2, k3, k4, k5]
          rfl
        rw [show counted false (c :: cs) = c :: cs by simp [counted], List.foldl_cons, hk]
      · rw [show counted true (c :: cs) = cs by simp [counted], caseOf_none]
        rfl
    · rw [List.foldlM_cons, u1]
      exact i2

theorem fold_add (o : Trainer.Cell → Option Case) : ∀ (cs : List Trainer.Cell) (k : Counts),
    (cs.foldl (fun k c => k.add (o c)) k).a = k.a + cs.countP (fun c => decide (o c = some .A)) ∧
    (cs.foldl (fun k c => k.add (o c)) k).b = k.b + cs.countP (fun c => decide (o c = some .B)) ∧
    (cs.foldl (fun k c => k.add (o c)) k).c = k.c + cs.countP (fun c => decide (o c = some .C))
  | [], k => by simp
  | c :: cs, k => by
    obtain ⟨h1, h2, h3⟩ := fold_add o cs (k.add (o c))
    rw [List.foldl_cons, h1, h2, h3]
    simp only [List.countP_cons]
    rcases o c with - | - | - | - <;> simp [Counts.add] <;> omega

/-! ### Updates -/

/-- The value of a sum after calls of `Update`. -/
def added (x : Stat R) (id : Nat) : List (Nat × R) → Stat R
  | [] => x
  | u :: l => added (if u.1 = id then some (x.getD 0 + u.2) else x) id l

theorem fold_updates {l : List (Nat × R)} : ∀ {a a' : Stats.Agg (Stat R) R}, AggOk a → a.phase = .recording →
    l.foldlM (fun a u => a.update u.1 u.2) a = some a' →
    ∃ stats, a' = { a with stats := stats } ∧ stats.length = a.descs.length ∧
      ∀ id d x, a.descs[id]? = some d → d.updateF = (fun s v => some (s.getD 0 + v)) → a.stats[id]? = some x →
        stats[id]? = some (added x id l) := by
  induction l with
  | nil =>
    intro a a' h hp e
    cases e
    exact ⟨a.stats, rfl, h, fun id d x _ _ hx => hx⟩
  | cons u l ih =>
    intro a a' h hp e
    rw [List.foldlM_cons] at e
    obtain ⟨stats, e1, e2, e3, e4⟩ := Rates.update_frame h hp u.1 u.2
    rw [e1] at e
    obtain ⟨stats', f1, f2, f3⟩ := ih (a := { a with stats := stats }) e2 hp e
    refine ⟨stats', f1, f2, fun id d x hd hu hx => ?_⟩
    refine f3 id d _ hd hu ?_
    by_cases hid : u.1 = id
    · subst hid
      rw [if_pos rfl, e4 d x hd hx, hu]
    · rw [if_neg hid, e3 id (fun e => hid e.symm), hx]

theorem updates_done {l : List (Nat × R)} {st st' : State R τ} (h : AggOk st.agg) (hp : st.agg.phase = .recording)
    (hd : updates l st = .done st') :
    ∃ stats, st' = { st with agg := { st.agg with stats := stats } } ∧ stats.length = st.agg.descs.length ∧
      ∀ id d x, st.agg.descs[id]? = some d → d.updateF = (fun s v => some (s.getD 0 + v)) → st.agg.stats[id]? = some x →
        stats[id]? = some (added x id l) := by
  obtain ⟨agg, p1, p2⟩ := bind_eq_done hd
  cases p2
  obtain ⟨stats, rfl, e2, e3⟩ := fold_updates h hp (Outcome.ofOption_eq_done.1 p1)
  exact ⟨stats, rfl, e2, e3⟩

/-! ### A row in the making -/

/-- The value of a counter after steps. -/
def caseVal (m : Machine R τ B) (f : Counts → Nat) (ks : List Counts) : Stat R :=
  match m.cfg.method with
  | .gradientDescent => none
  | .quickprop => if ks = [] then none else some ((ks.map f).sum : R)

/-- The value of a speed after epochs. -/
def speedVal (e : Nat) (x : R) : Stat R := if e = 0 then none else some ((e : R) * x)

/-- What an epoch adds. -/
def epochPixels (m : Machine R τ B) : R := (m.cfg.sampleCount : R) * (m.iterations : R) * (m.cfg.sbatchsize : R)

@[inherit_doc epochPixels] def epochFrames (m : Machine R τ B) : R :=
  (m.batch : R) * (m.iterations : R) * (m.cfg.sbatchsize : R)

/-- While recording: after the steps `ks` and `e` epochs. -/
structure Live (m : Machine R τ B) (S : List (List (Stats.SinkEvent (Stat R)))) (ks : List Counts) (e : Nat)
    (a : Stats.Agg (Stat R) R) : Prop where
  reg : Registered m a
  phase : a.phase = .recording
  sinks : a.sinks = S
  iterations : a.hard.iterations = ks.length
  weights : a.hard.weights = m.weightCount
  valA : a.stats[m.idA]? = some (caseVal m (·.a) ks)
  valB : a.stats[m.idB]? = some (caseVal m (·.b) ks)
  valC : a.stats[m.idC]? = some (caseVal m (·.c) ks)
  valM : a.stats[m.idM]? = some (caseVal m (fun _ => 0) ks)
  valP : a.stats[m.pixelsId]? = some (speedVal e (epochPixels m))
  valF : a.stats[m.framesId]? = some (speedVal e (epochFrames m))

theorem Registered.ids_ne {m : Machine R τ B} {a : Stats.Agg (Stat R) R} (h : Registered m a) {id : Nat} (hid : id ∈ ids m) :
    id ≠ m.lossId := by
  rintro rfl
  exact (List.nodup_cons.1 h.distinct).1 hid

theorem Registered.of_descs {m : Machine R τ B} {a a' : Stats.Agg (Stat R) R} (h : Registered m a) (hok : AggOk a')
    (hd : a'.descs = a.descs) : Registered m a' :=
  ⟨hok, h.distinct, by rw [hd]; exact h.descA, by rw [hd]; exact h.descB, by rw [hd]; exact h.descC,
    by rw [hd]; exact h.descM, by rw [hd]; exact h.descP, by rw [hd]; exact h.descF⟩

theorem caseVal_snoc {m : Machine R τ B} (hq : m.cfg.method = .quickprop) (f : Counts → Nat) (ks : List Counts) (k : Counts) :
    some ((caseVal m f ks).getD 0 + (f k : R)) = caseVal m f (ks ++ [k]) := by
  unfold caseVal
  rw [hq]
  dsimp only
  by_cases h : ks = []
  · subst h; simp
  · rw [if_neg h, if_neg (by simp)]; simp

theorem added_cases (m : Machine R τ B) (hd : (m.lossId :: ids m).Nodup) (ks : List Counts) (k : Counts) :
    added (caseVal m (·.a) ks) m.idA (caseUpdates m k) = caseVal m (·.a) (ks ++ [k]) ∧
    added (caseVal m (·.b) ks) m.idB (caseUpdates m k) = caseVal m (·.b) (ks ++ [k]) ∧
    added (caseVal m (·.c) ks) m.idC (caseUpdates m k) = caseVal m (·.c) (ks ++ [k]) ∧
    added (caseVal m (fun _ => 0) ks) m.idM (caseUpdates m k) = caseVal m (fun _ => 0) (ks ++ [k]) ∧
    (∀ x, added x m.pixelsId (caseUpdates m k) = x) ∧ ∀ x, added x m.framesId (caseUpdates m k) = x := by
  simp only [ids, List.nodup_cons, List.mem_cons, List.not_mem_nil, or_false, not_or] at hd
  obtain ⟨-, ⟨a1, a2, a3, a4, a5⟩, ⟨b1, b2, b3, b4⟩, ⟨c1, c2, c3⟩, ⟨d1, d2⟩, -⟩ := hd
  cases hq : m.cfg.method
  · simp [caseUpdates, hq, added, caseVal]
  · simp only [caseUpdates, hq, added]
    refine ⟨?_, ?_, ?_, ?_, ?_, ?_⟩
    · rw [if_pos trivial, if_neg (Ne.symm a1), if_neg (Ne.symm a2), if_neg (Ne.symm a3)]
      exact caseVal_snoc hq (·.a) ks k
    · rw [if_neg a1, if_pos trivial, if_neg (Ne.symm b1), if_neg (Ne.symm b2)]
      exact caseVal_snoc hq (·.b) ks k
    · rw [if_neg a2, if_neg b1, if_pos trivial, if_neg (Ne.symm c1)]
      exact caseVal_snoc hq (·.c) ks k
    · rw [if_neg a3, if_neg b2, if_neg c1, if_pos trivial]
      have := caseVal_snoc hq (fun _ => 0) ks k
      rwa [Nat.cast_zero] at this
    · intro x
      rw [if_neg a4, if_neg b3, if_neg c2, if_neg d1]
    · intro x
      rw [if_neg a5, if_neg b4, if_neg c3, if_neg d2]

theorem iteration_live {m : Machine R τ B} {S : List (List (Stats.SinkEvent (Stat R)))} {ks : List Counts} {e i : Nat}
    {st st' : State R τ} (h : Live m S ks e st.agg) (hd : iteration m i st = .done st') :
    ∃ k acc, applyCounting m.cfg (m.rate (Trainer.lrIndex st.epoch m.iterations i)) m.localLr
        { st.opt with accumulated := acc } = some (st'.opt, k) ∧
      Live m S (ks ++ [k]) e st'.agg ∧ st'.epoch = st.epoch := by
  obtain ⟨x, p1, p2⟩ := bind_eq_done hd
  obtain ⟨⟨opt, k⟩, p3, p4⟩ := bind_eq_done p2
  obtain ⟨s1, p5, p6⟩ := bind_eq_done p4
  have p3 := Outcome.ofOption_eq_done.1 p3
  dsimp only at p5
  obtain ⟨stats, rfl, e2, e3⟩ := updates_done (st := { st with src := x.1, opt := opt }) h.reg.ok h.phase p5
  dsimp only at e2 e3 p6
  have reg1 : Registered m { st.agg with stats := stats } := h.reg.of_descs e2 rfl
  obtain ⟨q, agg, rfl⟩ := Rates.report_quiet
    (st := { st with src := x.1, opt := opt, agg := { st.agg with stats := stats } }) e2 h.phase p6
  obtain ⟨g, -, -⟩ := report_grown
    (st := { st with src := x.1, opt := opt, agg := { st.agg with stats := stats } }) e2 h.phase p6
  obtain ⟨vA, vB, vC, vM, vP, vF⟩ := added_cases m h.reg.distinct ks k
  refine ⟨k, x.2.1, p3, ?_, rfl⟩
  have val : ∀ id d v, id ∈ ids m → st.agg.descs[id]? = some d → d.updateF = (fun s v => some (s.getD 0 + v)) →
      st.agg.stats[id]? = some v → agg.stats[id]? = some (added v id (caseUpdates m k)) := by
    intro id d v hid hd hu hv
    rw [q.stats id (h.reg.ids_ne hid)]
    exact e3 id d v hd hu hv
  refine ⟨reg1.of_descs q.ok q.descs, q.phase, q.sinks.trans h.sinks, ?_, ?_, ?_, ?_, ?_, ?_, ?_, ?_⟩
  · rw [g.hard]; show st.agg.hard.iterations + 1 = _; rw [h.iterations]; simp
  · rw [g.hard]; exact h.weights
  · rw [val m.idA _ _ (by simp [ids]) h.reg.descA rfl h.valA, vA]
  · rw [val m.idB _ _ (by simp [ids]) h.reg.descB rfl h.valB, vB]
  · rw [val m.idC _ _ (by simp [ids]) h.reg.descC rfl h.valC, vC]
  · rw [val m.idM _ _ (by simp [ids]) h.reg.descM rfl h.valM, vM]
  · rw [val m.pixelsId _ _ (by simp [ids]) h.reg.descP rfl h.valP, vP]
  · rw [val m.framesId _ _ (by simp [ids]) h.reg.descF rfl h.valF, vF]

theorem speedVal_succ (e : Nat) (x : R) : some ((speedVal e x).getD 0 + x) = speedVal (e + 1) x := by
  unfold speedVal
  by_cases h : e = 0
  · subst h; simp
  · rw [if_neg h, if_neg (Nat.succ_ne_zero e)]
    simp only [Option.getD_some]
    congr 1
    push_cast
    ring

/-- An epoch: its steps. -/
theorem epoch_live {m : Machine R τ B} {S : List (List (Stats.SinkEvent (Stat R)))} {ks : List Counts} {e : Nat}
    {st st' : State R τ} (h : Live m S ks e st.agg) (hd : epoch m st = .done st') :
    ∃ ls, ls.length = m.iterations ∧ Steps m ls st.opt st'.opt ∧ Live m S (ks ++ ls) (e + 1) st'.agg := by
  obtain ⟨s1, p1, p2⟩ := bind_eq_done hd
  have key := fun hp h0 => forO_keep (P := fun k (s : State R τ) =>
      ∃ ls, ls.length = k ∧ Steps m ls st.opt s.opt ∧ Live m S (ks ++ ls) e s.agg)
    (f := iteration m) (n := m.iterations) hp h0 p1
  obtain ⟨ls, k1, k2, k3⟩ := key (by
    rintro i _ s s' ⟨ls, a1, a2, a3⟩ hs
    obtain ⟨k, acc, b1, b2, -⟩ := iteration_live a3 hs
    exact ⟨ls ++ [k], by simp [a1], Steps.snoc acc _ a2 b1, by rw [← List.append_assoc]; exact b2⟩)
    ⟨[], rfl, Steps.nil _, by
      rw [List.append_nil]
      exact ⟨h.reg.of_descs h.reg.ok rfl, h.phase, h.sinks, h.iterations, h.weights, h.valA, h.valB, h.valC, h.valM, h.valP,
        h.valF⟩⟩
  obtain ⟨s2, p3, p4⟩ := bind_eq_done p2
  cases p4
  obtain ⟨stats, rfl, e2, e3⟩ := updates_done k3.reg.ok k3.phase p3
  refine ⟨ls, k1, k2, ?_⟩
  have hd := k3.reg.distinct
  simp only [ids, List.nodup_cons, List.mem_cons, List.not_mem_nil, or_false, not_or] at hd
  obtain ⟨-, ⟨a1, a2, a3, a4, a5⟩, ⟨b1, b2, b3, b4⟩, ⟨c1, c2, c3⟩, ⟨d1, d2⟩, f1, -⟩ := hd
  refine ⟨k3.reg.of_descs e2 rfl, k3.phase, k3.sinks, k3.iterations, k3.weights, ?_, ?_, ?_, ?_, ?_, ?_⟩
  · show stats[m.idA]? = _
    rw [e3 _ _ _ k3.reg.descA rfl k3.valA, added, added, added, if_neg (Ne.symm a4), if_neg (Ne.symm a5)]
  · show stats[m.idB]? = _
    rw [e3 _ _ _ k3.reg.descB rfl k3.valB, added, added, added, if_neg (Ne.symm b3), if_neg (Ne.symm b4)]
  · show stats[m.idC]? = _
    rw [e3 _ _ _ k3.reg.descC rfl k3.valC, added, added, added, if_neg (Ne.symm c2), if_neg (Ne.symm c3)]
  · show stats[m.idM]? = _
    rw [e3 _ _ _ k3.reg.descM rfl k3.valM, added, added, added, if_neg (Ne.symm d1), if_neg (Ne.symm d2)]
  · show stats[m.pixelsId]? = _
    rw [e3 _ _ _ k3.reg.descP rfl k3.valP, added, added, added, if_pos rfl, if_neg (Ne.symm f1)]
    exact congrArg some (speedVal_succ e (epochPixels m))
  · show stats[m.framesId]? = _
    rw [e3 _ _ _ k3.reg.descF rfl k3.valF, added, added, added, if_neg f1, if_pos rfl]
    exact congrArg some (speedVal_succ e (epochFrames m))

/-- What a row says after steps and epochs. -/
def RowOf (m : Machine R τ B) (ks : List Counts) (e : Nat) (hard : Stats.Hard) (outs : List (Stat R)) : Prop :=
  outs[m.idA]? = some (caseDesc.outputF hard (caseVal m (·.a) ks)) ∧
  outs[m.idB]? = some (caseDesc.outputF hard (caseVal m (·.b) ks)) ∧
  outs[m.idC]? = some (caseDesc.outputF hard (caseVal m (·.c) ks)) ∧
  outs[m.idM]? = some (caseDesc.outputF hard (caseVal m (fun _ => 0) ks)) ∧
  outs[m.pixelsId]? = some (speedDesc.outputF hard (speedVal e (epochPixels m))) ∧
  outs[m.framesId]? = some (speedDesc.outputF hard (speedVal e (epochFrames m)))

theorem caseVal_nil (m : Machine R τ B) (f : Counts → Nat) : caseVal m f [] = none := by
  unfold caseVal
  cases m.cfg.method <;> simp

/-- An epoch with a snapshot. -/
theorem snapshotStep_live {m : Machine R τ B} {S : List (List (Stats.SinkEvent (Stat R)))}
    {st st' : State R τ} (h : Live m S [] 0 st.agg) (hd : trainStep m true st = .done st') :
    ∃ ls hard outs, ls.length = m.iterations ∧ Steps m ls st.opt st'.opt ∧ hard.iterations = ls.length ∧
      hard.weights = m.weightCount ∧ RowOf m ls 1 hard outs ∧
      Live m (S.map (· ++ [.process hard outs])) [] 0 st'.agg := by
  obtain ⟨s1, p1, p2⟩ := bind_eq_done hd
  obtain ⟨ls, h1, h2, h3⟩ := epoch_live h p1
  rw [List.nil_append] at h3
  obtain ⟨s2, q1, q2⟩ := bind_eq_done p2
  cases q2
  obtain ⟨a', outs, sec, k1, k2, k3, k4, k5, k6, k7⟩ :=
    snapshot_ok h3.reg.ok h3.phase (m.clock s1.ticks) (m.clock (s1.ticks + 1))
  unfold snapshot at q1
  rw [k1, Outcome.ofOption_some, Outcome.bind_done] at q1
  cases q1
  have reg : Registered m a' := h3.reg.of_descs k2 k4
  refine ⟨ls, { s1.agg.hard with secondsElapsed := sec }, outs, h1, h2, h3.iterations, h3.weights, ⟨(k7 _ _ _ h3.reg.descA h3.valA).1,
    (k7 _ _ _ h3.reg.descB h3.valB).1, (k7 _ _ _ h3.reg.descC h3.valC).1, (k7 _ _ _ h3.reg.descM h3.valM).1,
    (k7 _ _ _ h3.reg.descP h3.valP).1, (k7 _ _ _ h3.reg.descF h3.valF).1⟩, ?_⟩
  refine ⟨reg.of_descs k2 rfl, k3, ?_, ?_, rfl, ?_, ?_, ?_, ?_, ?_, ?_⟩
  · show a'.sinks = _
    rw [k6, h3.sinks]
  · show a'.hard.iterations = _
    rw [k5]; rfl
  · rw [caseVal_nil]; exact (k7 _ _ _ h3.reg.descA h3.valA).2
  · rw [caseVal_nil]; exact (k7 _ _ _ h3.reg.descB h3.valB).2
  · rw [caseVal_nil]; exact (k7 _ _ _ h3.reg.descC h3.valC).2
  · rw [caseVal_nil]; exact (k7 _ _ _ h3.reg.descM h3.valM).2
  · exact (k7 _ _ _ h3.reg.descP h3.valP).2
  · exact (k7 _ _ _ h3.reg.descF h3.valF).2


/-- Without snapshots. -/
theorem plainStep_live {m : Machine R τ B} {S : List (List (Stats.SinkEvent (Stat R)))} {ks : List Counts} {e : Nat}
    {st st' : State R τ} (h : Live m S ks e st.agg) (hd : trainStep m false st = .done st') :
    ∃ ls, ls.length = m.iterations ∧ Steps m ls st.opt st'.opt ∧ Live m S (ks ++ ls) (e + 1) st'.agg := by
  obtain ⟨s1, p1, p2⟩ := bind_eq_done hd
  cases p2
  exact epoch_live h p1

/-- The start of a training command. -/
theorem begin_live {m : Machine R τ B} {st : State R τ} (h : Ready m st) :
    Live m st.agg.sinks [] 0 (setIsTesting false (setHard (fun h => { h with weights := m.weightCount })
      (startRecording m.toMachine st))).agg := by
  have e := startRecording_agg m.toMachine st h.stopped
  have k : (setIsTesting false (setHard (fun h => { h with weights := m.weightCount })
      (startRecording m.toMachine st))).agg = { st.agg with
        startTime := m.clock st.ticks, phase := .recording,
        hard := { st.agg.hard with weights := m.weightCount, isTraining := true } } := by
    unfold setIsTesting setHard
    dsimp only
    rw [e]
    rfl
  rw [k]
  refine ⟨h.registered.of_descs h.registered.ok rfl, rfl, rfl, h.iterations, rfl, ?_, ?_, ?_, ?_, ?_, ?_⟩
  all_goals first | rw [caseVal_nil] | rw [speedVal, if_pos rfl]
  all_goals exact h.null _ (by simp [ids])

/-- The end of a command: the row, if any, and the statistics afterwards. -/
theorem finish_live {m : Machine R τ B} (b : Bool) {st st' : State R τ} (h : Registered m st.agg)
    (hp : st.agg.phase = .recording)
    (hd : (generateIf b (stopRecording m.toMachine st)).bind (onAgg Stats.Agg.reset) = .done st') :
    Registered m st'.agg ∧ st'.agg.phase = .stopped ∧ (∀ id ∈ ids m, st'.agg.stats[id]? = some none) ∧
      st'.agg.hard.iterations = 0 ∧ st'.opt = st.opt ∧
      (b = false → st'.agg.sinks = st.agg.sinks) ∧
      (b = true → ∃ hard outs, hard.iterations = st.agg.hard.iterations ∧ hard.weights = st.agg.hard.weights ∧
        st'.agg.sinks = st.agg.sinks.map (· ++ [.process hard outs]) ∧
        ∀ (k : Nat) d x, st.agg.descs[k]? = some d → st.agg.stats[k]? = some x →
          outs[k]? = some (d.outputF hard x)) := by
  have a0 : (stopRecording m.toMachine st).agg = { st.agg with
      hard := { st.agg.hard with secondsElapsed := st.agg.hard.secondsElapsed + (m.clock st.ticks - st.agg.startTime) },
      phase := .stopped } := by
    show st.agg.stopRecording (m.clock st.ticks) = _
    unfold Stats.Agg.stopRecording
    rw [if_neg (by simp [hp])]
  have a1 : AggOk (stopRecording m.toMachine st).agg := by rw [a0]; exact h.ok
  have a2 : (stopRecording m.toMachine st).agg.phase = .stopped := by rw [a0]
  have a3 : (stopRecording m.toMachine st).agg.descs = st.agg.descs := by rw [a0]
  have a4 : (stopRecording m.toMachine st).agg.stats = st.agg.stats := by rw [a0]
  have null : ∀ stats : List (Stat R), (∀ (k : Nat) d x, st.agg.descs[k]? = some d → st.agg.stats[k]? = some x →
      stats[k]? = some (d.initF x)) → ∀ id ∈ ids m, stats[id]? = some none := by
    intro stats hs id hid
    have key : ∀ d, st.agg.descs[id]? = some d → (∀ x, d.initF x = none) → stats[id]? = some none := by
      intro d hd hi
      have hlt : id < st.agg.stats.length := by
        rw [h.ok]
        exact (List.getElem?_eq_some_iff.1 hd).1
      rw [hs id d _ hd (List.getElem?_eq_getElem hlt), hi]
    simp only [ids, List.mem_cons, List.not_mem_nil, or_false] at hid
    rcases hid with rfl | rfl | rfl | rfl | rfl | rfl
    · exact key _ h.descA fun _ => rfl
    · exact key _ h.descB fun _ => rfl
    · exact key _ h.descC fun _ => rfl
    · exact key _ h.descM fun _ => rfl
    · exact key _ h.descP fun _ => rfl
    · exact key _ h.descF fun _ => rfl
  obtain ⟨s1, p1, p2⟩ := bind_eq_done hd
  cases b
  · cases p1
    obtain ⟨stats, r1, r2, r3⟩ := reset_ok a1 a2
    unfold onAgg at p2
    rw [r1, Outcome.ofOption_some, Outcome.bind_done] at p2
    cases p2
    rw [a3, a4] at r3
    exact ⟨h.of_descs r2 a3, a2, null stats r3, rfl, rfl,
      fun _ => by show (stopRecording m.toMachine st).agg.sinks = _; rw [a0], fun e => by cases e⟩
  · obtain ⟨outs, g1, g2⟩ := generate_ok a1
    have p1' : onAgg Stats.Agg.generate (stopRecording m.toMachine st) = .done s1 := p1
    unfold onAgg at p1' p2
    rw [g1, Outcome.ofOption_some, Outcome.bind_done] at p1'
    cases p1'
    obtain ⟨stats, r1, r2, r3⟩ := reset_ok
      (a := (stopRecording m.toMachine st).agg.tell (.process (stopRecording m.toMachine st).agg.hard outs)) a1 a2
    rw [r1, Outcome.ofOption_some, Outcome.bind_done] at p2
    cases p2
    have r3' : ∀ (k : Nat) d x, st.agg.descs[k]? = some d → st.agg.stats[k]? = some x → stats[k]? = some (d.initF x) := by
      intro k d x q1 q2
      exact r3 k d x (by show (stopRecording m.toMachine st).agg.descs[k]? = _; rw [a3]; exact q1)
        (by show (stopRecording m.toMachine st).agg.stats[k]? = _; rw [a4]; exact q2)
    refine ⟨h.of_descs r2 a3, a2, null stats r3', rfl, rfl, ?_, ?_⟩
    · intro e; cases e
    intro _
    refine ⟨(stopRecording m.toMachine st).agg.hard, outs, ?_, ?_, ?_, ?_⟩
    · rw [a0]
    · rw [a0]
    · show ((stopRecording m.toMachine st).agg.tell (.process (stopRecording m.toMachine st).agg.hard outs)).sinks = _
      rw [a0]; rfl
    · intro k d x q1 q2
      exact g2 k d x (by rw [a3]; exact q1) (by rw [a4]; exact q2)

/-- A test leaves these statistics alone. -/
theorem test_quiet {m : Machine R τ B} {st st' : State R τ} (h : AggOk st.agg) (hp : st.agg.phase = .recording)
    (hd : Session.test m.toMachine st = .done st') :
    Rates.Quiet m.lossId st.agg st'.agg ∧ st'.opt = st.opt ∧ st'.agg.hard.weights = m.weightCount := by
  unfold Session.test at hd
  dsimp only at hd
  cases hh : m.hybrid
  · rw [hh, if_neg (by simp)] at hd
    obtain ⟨s1, p1, p2⟩ := bind_eq_done hd
    cases p2
    have key := fun hp h0 => forO_keep (P := fun _ (s : State R τ) =>
        Rates.Quiet m.lossId st.agg s.agg ∧ s.opt = st.opt ∧ s.agg.hard.weights = m.weightCount)
      (f := fun _ => testIteration m.toMachine) (n := m.testIterations) hp h0 p1
    exact key (by
      rintro i _ s s' ⟨a1, a2, a3⟩ hs
      obtain ⟨b, b1, b2⟩ := bind_eq_done hs
      obtain ⟨g, -, -⟩ := report_grown (st := { s with src := b.2 }) a1.ok a1.phase b2
      obtain ⟨q, agg, rfl⟩ := Rates.report_quiet (st := { s with src := b.2 }) a1.ok a1.phase b2
      refine ⟨a1.trans q, a2, ?_⟩
      rw [g.hard]; exact a3)
      ⟨⟨h, hp, rfl, rfl, fun _ _ => rfl⟩, rfl, rfl⟩
  · rw [hh, if_pos rfl] at hd
    obtain ⟨s1, p1, p2⟩ := bind_eq_done hd
    cases p2
    have key := fun hp h0 => forO_keep (P := fun _ (s : State R τ) =>
        Rates.Quiet m.lossId st.agg s.agg ∧ s.opt = st.opt ∧ s.agg.hard.weights = m.weightCount)
      (f := fun _ => hybridIteration m.toMachine) (n := m.testIterations) hp h0 p1
    exact key (by
      rintro i _ s s' ⟨a1, a2, a3⟩ hs
      obtain ⟨b, b1, b2⟩ := bind_eq_done hs
      obtain ⟨g, -, -⟩ := report_grown (st := { s with testSrc := b.2 }) a1.ok a1.phase b2
      obtain ⟨q, agg, rfl⟩ := Rates.report_quiet (st := { s with testSrc := b.2 }) a1.ok a1.phase b2
      refine ⟨a1.trans q, a2, ?_⟩
      rw [g.hard]; exact a3)
      ⟨⟨h, hp, rfl, rfl, fun _ _ => rfl⟩, rfl, rfl⟩

end CN24.Progress
