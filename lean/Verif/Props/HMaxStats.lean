import Verif.Model.HMaxStats
import Verif.Props.CsvFiles
import Mathlib.Algebra.Field.Rat

/-!
C102: the statistics of the sparsity layer.
-/

namespace CN24.HMaxStats
open CN24 CN24.Stats CN24.Props
open CN24.Csv (proper_append registered_append)
variable {D : Type _} [Field D]

/-! ### What should be recorded -/

/-- What a user expects the collector to have heard from the layers since the last reset: the parameters of every forward pass
of every layer while recording. -/
structure Heard (D : Type _) where
  phase : Phase := .init
  as : List D := []
  bs : List D := []

/-- The effect of one step. -/
def Heard.step (h : Heard D) : Op D → Heard D
  | .forward _ a b => if h.phase = .recording then { h with as := h.as ++ [a], bs := h.bs ++ [b] } else h
  | .collector .initialize => if h.phase = .init then ⟨.stopped, [], []⟩ else h
  | .collector (.startRecording _) => if h.phase = .stopped then { h with phase := .recording } else h
  | .collector (.stopRecording _) => if h.phase = .recording then { h with phase := .stopped } else h
  | .collector .reset => if h.phase = .stopped then { h with as := [], bs := [] } else h
  | .collector (.snapshot _ _) => if h.phase = .recording then { h with as := [], bs := [] } else h
  | _ => h

/-- What should have been heard. -/
def heard (ops : List (Op D)) : Heard D := ops.foldl Heard.step {}

/-- The statistics registered by a history, counted, and the position of those of the layers. -/
structure Place where
  count : Nat := 0
  first : Option Nat := none
  deriving DecidableEq, Repr

def Place.step (p : Place) : Op D → Place
  | .construct true => if p.first = none then ⟨p.count + 2, some p.count⟩ else p
  | .collector (.registerStat _) => { p with count := p.count + 1 }
  | _ => p

def place (ops : List (Op D)) : Place := ops.foldl Place.step {}

/-- The calls of the collector that a step amounts to. -/
def calls (p : Place) : Op D → List (Stats.Op (Stat D) D)
  | .construct true => if p.first = none then [.registerStat desc, .registerStat desc] else []
  | .forward _ a b => match p.first with
    | some k => [.update k a, .update (k + 1) b]
    | none => []
  | .collector op => [op]
  | _ => []

def allCalls : Place → List (Op D) → List (Stats.Op (Stat D) D)
  | _, [] => []
  | p, op :: ops => calls p op ++ allCalls (p.step op) ops

/-- Layers that are run exist. -/
def Exists : Nat → List (Op D) → Prop
  | _, [] => True
  | n, .construct _ :: ops => Exists (n + 1) ops
  | n, .forward l _ _ :: ops => l < n ∧ Exists n ops
  | n, _ :: ops => Exists n ops

/-! ### The layers as calls of the collector -/

/-- The identifiers in the code. -/
def Ids (w : World D) : Option Nat → Prop
  | none => w.idA = -1 ∧ w.idB = -1
  | some k => w.idA = k ∧ w.idB = (k + 1 : Nat) ∧ k + 1 < w.agg.descs.length

structure Sane (w : World D) (p : Place) (layers : Nat) : Prop where
  count : w.agg.descs.length = p.count
  owners : w.owners.length = p.count
  own : ∀ l, some l ∈ w.owners → l < layers
  alive : w.alive = List.replicate layers true
  ids : Ids w p.first

theorem Sane.live {w : World D} {p : Place} {n : Nat} (h : Sane w p n) (k : Nat) : w.live k = true := by
  unfold World.live
  split
  · rename_i l hl
    have := h.own l (List.mem_of_getElem? hl)
    rw [h.alive, List.getElem?_replicate, if_pos this]
    rfl
  · rfl

theorem Sane.safe {w : World D} {p : Place} {n : Nat} (h : Sane w p n) (op : Stats.Op (Stat D) D) : w.safe op = true := by
  have ha : w.allLive = true := List.all_eq_true.2 fun k _ => h.live k
  cases op <;> simp [World.safe, ha, h.live]

theorem Sane.call {w : World D} {p : Place} {n : Nat} (h : Sane w p n) (op : Stats.Op (Stat D) D) :
    (w.call op).map (·.agg) = Stats.exec ⟨false, 0⟩ w.agg op ∧
      ∀ w', w.call op = some w' → Sane w' (p.step (.collector op)) n := by
  unfold World.call
  rw [if_pos (h.safe op)]
  refine ⟨by rw [Option.map_map]; exact Option.map_id' .. , ?_⟩
  intro w' hw
  obtain ⟨a, ha, rfl⟩ := Option.map_eq_some_iff.1 hw
  have hd := descs_exec ha
  have hlen : a.descs.length = (p.step (.collector op)).count := by
    rw [hd, List.length_append, h.count]
    cases op <;> simp [registered, Place.step]
  have hids : Ids { w with agg := a, owners := match op with
          | .registerStat _ => w.owners ++ [none]
          | _ => w.owners } (p.step (.collector op)).first := by
    have hf : (p.step (.collector op)).first = p.first := by cases op <;> rfl
    rw [hf]
    have hi := h.ids
    cases hp : p.first with
    | none => rw [hp] at hi; exact hi
    | some k =>
      rw [hp] at hi
      refine ⟨hi.1, hi.2.1, ?_⟩
      show k + 1 < a.descs.length
      rw [hd, List.length_append]
      exact Nat.lt_of_lt_of_le hi.2.2 (Nat.le_add_right _ _)
  refine ⟨hlen, ?_, ?_, h.alive, hids⟩
  · cases op <;> simp [Place.step, h.owners]
  · intro l hl
    cases op <;> first | exact h.own l hl | (simp only [List.mem_append, List.mem_singleton] at hl; rcases hl with hl | hl; exact h.own l hl; cases hl)

/-- An identifier outside the registered ones is ignored. -/
theorem update_outside (a : Agg (Stat D) D) (id : Nat) (v : D) (h : a.descs.length ≤ id) :
    Stats.exec ⟨false, 0⟩ a (.update id v) = some a := by
  show a.update id v = _
  unfold Agg.update
  split
  · rfl
  · rw [if_neg (by omega)]

theorem place_count (p : Place) (op : Op D) : (p.step op).count ≤ p.count + 2 := by
  cases op with
  | construct b => cases b <;> simp only [Place.step] <;> (try split) <;> simp
  | collector op => cases op <;> simp [Place.step]
  | _ => simp [Place.step]

/-- **C102 (the layers are users of the collector).**  As long as no layer is destroyed, constructing layers and running them
is, for the collector, the registration of two statistics by the first layer built from numbers, and the calls of `Update`
with the parameters; before such a layer exists, layers report nothing. -/
theorem C102_refines : ∀ (ops : List (Op D)) (w : World D) (p : Place) (n : Nat), Sane w p n → (∀ l, Op.destroy l ∉ ops) →
    Exists n ops → p.count + 2 * ops.length < 2 ^ 31 →
    (ops.foldlM exec w).map (·.agg) = (allCalls p ops).foldlM (Stats.exec ⟨false, 0⟩) w.agg
  | [], w, p, n, _, _, _, _ => rfl
  | op :: ops, w, p, n, hs, hk, he, hc => by
    have hk' : ∀ l, Op.destroy l ∉ ops := fun l hl => hk l (by simp [hl])
    have hlen : p.count + 2 + 2 * ops.length < 2 ^ 31 := by simp only [List.length_cons] at hc; omega
    have hc' : (p.step op).count + 2 * ops.length < 2 ^ 31 := by have := place_count p op; omega
    have one (w' : World D) (m : Nat) (hw : exec w op = some w') (hagg : (calls p op).foldlM (Stats.exec ⟨false, 0⟩) w.agg = some w'.agg)
        (hs' : Sane w' (p.step op) m) (he' : Exists m ops) :
        ((op :: ops).foldlM exec w).map (·.agg) = (allCalls p (op :: ops)).foldlM (Stats.exec ⟨false, 0⟩) w.agg := by
      have ih := C102_refines ops w' (p.step op) m hs' hk' he' hc'
      rw [List.foldlM_cons, allCalls, List.foldlM_append, hagg]
      show ((exec w op).bind fun w' => ops.foldlM exec w').map _ = _
      rw [hw]
      exact ih
    cases op with
    | construct b =>
      cases b with
      | false =>
        refine one _ (n + 1) rfl rfl ⟨hs.count, hs.owners, fun l hl => Nat.lt_succ_of_lt (hs.own l hl), ?_, hs.ids⟩ he
        show w.alive ++ [true] = _
        rw [hs.alive, List.replicate_succ']
      | true =>
        cases hp : p.first with
        | some k =>
          have hi := hs.ids
          rw [hp] at hi
          have hge : w.idA ≥ 0 := by rw [hi.1]; omega
          have e1 : w.constructNumbers = { w with alive := w.alive ++ [true] } := if_pos hge
          have e2 : p.step (.construct true : Op D) = p := if_neg (by simp [hp])
          refine one _ (n + 1) rfl ?_ ?_ he
          · show (if p.first = none then _ else _ : List (Stats.Op (Stat D) D)).foldlM _ _ = _
            rw [if_neg (by simp [hp]), e1]
            rfl
          · rw [e2, e1]
            refine ⟨hs.count, hs.owners, fun l hl => Nat.lt_succ_of_lt (hs.own l hl), ?_, hs.ids⟩
            show w.alive ++ [true] = _
            rw [hs.alive, List.replicate_succ']
        | none =>
          have hi := hs.ids
          rw [hp] at hi
          have hge : ¬ w.idA ≥ 0 := by rw [hi.1]; omega
          have e2 : p.step (.construct true : Op D) = ⟨p.count + 2, some p.count⟩ := if_pos hp
          have e1 : w.constructNumbers =
              { w with
                agg := ((w.agg.registerStat desc).1.registerStat desc).1
                alive := w.alive ++ [true]
                owners := w.owners ++ [some w.alive.length, some w.alive.length]
                idA := (w.agg.registerStat desc).2
                idB := ((w.agg.registerStat (desc (D := D))).1.registerStat desc).2 } := if_neg hge
          refine one _ (n + 1) rfl ?_ ?_ he
          · show (if p.first = none then _ else _ : List (Stats.Op (Stat D) D)).foldlM _ _ = _
            rw [if_pos hp, e1]
            rfl
          · rw [e2, e1]
            refine ⟨?_, ?_, ?_, ?_, ?_, ?_, ?_⟩
            · simp [Agg.registerStat, hs.count]
            · simp [hs.owners]
            · intro l hl
              rcases List.mem_append.1 hl with hl | hl
              · exact Nat.lt_succ_of_lt (hs.own l hl)
              · simp only [List.mem_cons, Option.some.injEq, List.not_mem_nil, or_false, or_self] at hl
                rw [hl, hs.alive, List.length_replicate]
                omega
            · show w.alive ++ [true] = _
              rw [hs.alive, List.replicate_succ']
            · show ((w.agg.descs.length : Nat) : Int) = _
              rw [hs.count]
            · show (((w.agg.descs ++ [desc]).length : Nat) : Int) = _
              rw [List.length_append, hs.count]
              rfl
            · show p.count + 1 < ((w.agg.descs ++ [desc]) ++ [desc]).length
              simp [hs.count]
    | destroy l => exact absurd List.mem_cons_self (hk l)
    | forward l a b =>
      obtain ⟨hl, he⟩ := he
      have hal : w.alive[l]? = some true := by rw [hs.alive, List.getElem?_replicate, if_pos hl]
      have e0 : exec w (.forward l a b) =
          (w.call (.update (index w.idA) a)).bind fun w => w.call (.update (index w.idB) b) := if_pos hal
      -- both calls
      have two (i j : Nat) (hA : index w.idA = i) (hB : index w.idB = j) :
          (exec w (.forward l a b)).map (·.agg) =
            [Stats.Op.update i a, .update j b].foldlM (Stats.exec ⟨false, 0⟩) w.agg ∧
          ∀ w', exec w (.forward l a b) = some w' → Sane w' p n := by
        obtain ⟨c1, c2⟩ := hs.call (.update i a)
        rw [e0, hA]
        have hidB : ∀ w1, w.call (.update i a) = some w1 → w1.idB = w.idB := by
          intro w1 h1
          unfold World.call at h1
          rw [if_pos (hs.safe _)] at h1
          obtain ⟨_, _, rfl⟩ := Option.map_eq_some_iff.1 h1
          rfl
        cases h1 : w.call (.update i a) with
        | none =>
          rw [h1] at c1
          refine ⟨?_, by simp⟩
          rw [List.foldlM_cons, ← c1]
          rfl
        | some w1 =>
          rw [h1] at c1
          have hs1 := c2 w1 h1
          obtain ⟨d1, d2⟩ := hs1.call (.update j b)
          simp only [Option.bind_some, hidB w1 h1, hB]
          refine ⟨?_, fun w' hw' => d2 w' hw'⟩
          rw [d1, List.foldlM_cons, ← c1]
          show Stats.exec _ w1.agg _ = (Stats.exec _ w1.agg _).bind fun a => some a
          simp
      have main (i j : Nat) (hA : index w.idA = i) (hB : index w.idB = j)
          (hcalls : (calls p (.forward l a b)).foldlM (Stats.exec ⟨false, 0⟩) w.agg =
            [Stats.Op.update i a, .update j b].foldlM (Stats.exec ⟨false, 0⟩) w.agg) :
          ((Op.forward l a b :: ops).foldlM exec w).map (·.agg) =
            (allCalls p (Op.forward l a b :: ops)).foldlM (Stats.exec ⟨false, 0⟩) w.agg := by
        obtain ⟨t1, t2⟩ := two i j hA hB
        cases hx : exec w (.forward l a b) with
        | none =>
          rw [hx] at t1
          rw [List.foldlM_cons, allCalls, List.foldlM_append, hcalls, ← t1]
          show ((exec w (.forward l a b)).bind fun w' => ops.foldlM exec w').map _ = _
          rw [hx]
          rfl
        | some w' =>
          rw [hx] at t1
          exact one w' n hx (hcalls.trans t1.symm) (t2 w' hx) he
      cases hp : p.first with
      | some k =>
        have hi := hs.ids
        rw [hp] at hi
        have hkc : k + 1 < p.count := by rw [← hs.count]; exact hi.2.2
        refine main k (k + 1) (by unfold index; rw [hi.1]; omega) (by unfold index; rw [hi.2.1]; omega) ?_
        simp only [calls, hp]
      | none =>
        have hi := hs.ids
        rw [hp] at hi
        have hout : w.agg.descs.length ≤ 2 ^ 32 - 1 := by rw [hs.count]; omega
        refine main (2 ^ 32 - 1) (2 ^ 32 - 1) (by unfold index; rw [hi.1]; decide) (by unfold index; rw [hi.2]; decide) ?_
        simp only [calls, hp]
        rw [List.foldlM_cons, update_outside _ _ _ hout]
        show _ = (Stats.exec _ w.agg _).bind fun a => some a
        rw [update_outside _ _ _ hout]
        rfl
    | collector c =>
      obtain ⟨c1, c2⟩ := hs.call c
      have he' : Exists n ops := by cases c <;> exact he
      cases hx : w.call c with
      | none =>
        rw [hx] at c1
        rw [List.foldlM_cons, allCalls]
        show ((w.call c).bind fun w' => ops.foldlM exec w').map _ = (calls p (.collector c) ++ _).foldlM _ _
        rw [hx]
        show none = (Stats.exec _ w.agg c).bind fun a => _
        rw [← c1]
        rfl
      | some w' =>
        rw [hx] at c1
        refine one w' n hx ?_ (c2 w' hx) he'
        show ((Stats.exec _ w.agg c).bind fun a => some a) = _
        rw [← c1]
        rfl

/-! ### What is recorded -/

/-- The model of the collector and the expectation agree. -/
structure Agrees (s : Spec D) (h : Heard D) (p : Place) : Prop where
  phase : s.phase = h.phase
  fresh : h.phase = .init → h.as = [] ∧ h.bs = [] ∧ ∀ j, s.recorded j = []
  vals : ∀ k, p.first = some k → s.recorded k = h.as ∧ s.recorded (k + 1) = h.bs

/-- Users leave the two statistics alone. -/
def Untouched (k : Nat) (ops : List (Op D)) : Prop :=
  ∀ id v, Op.collector (.update id v) ∈ ops → id ≠ k ∧ id ≠ k + 1

theorem first_stays (op : Op D) (p : Place) {k : Nat} (h : p.first = some k) : (p.step op).first = some k := by
  cases op with
  | construct b => cases b <;> simp [Place.step, h]
  | collector c => cases c <;> simp [Place.step, h]
  | _ => simp [Place.step, h]

theorem first_stays_all : ∀ (ops : List (Op D)) (p : Place) {k : Nat}, p.first = some k →
    (ops.foldl Place.step p).first = some k
  | [], _, _, h => h
  | op :: ops, p, _, h => first_stays_all ops (p.step op) (first_stays op p h)

theorem agrees_run : ∀ (ops : List (Op D)) (s : Spec D) (h : Heard D) (p : Place) (k : Nat), Agrees s h p →
    Proper s.phase (allCalls p ops) → (ops.foldl Place.step p).first = some k → Untouched k ops →
    Agrees ((allCalls p ops).foldl Spec.step s) (ops.foldl Heard.step h) (ops.foldl Place.step p)
  | [], s, h, p, k, ha, _, _, _ => ha
  | op :: ops, s, h, p, k, ha, hp, hk, hu => by
    rw [allCalls] at hp ⊢
    obtain ⟨-, hp2⟩ := proper_append _ _ s hp
    rw [List.foldl_append]
    refine agrees_run ops _ _ _ k ?_ hp2 hk fun id v hm => hu id v (by simp [hm])
    obtain ⟨h1, h2, h3⟩ := ha
    have hfirst : ∀ j, p.first = some j → j = k := fun j hj => by
      have := first_stays_all (op :: ops) p hj
      rw [hk] at this
      exact (Option.some.inj this).symm
    cases op with
    | construct b =>
      cases b with
      | false => exact ⟨h1, h2, h3⟩
      | true =>
        by_cases hpf : p.first = none
        · have e1 : calls p (.construct true : Op D) = [.registerStat desc, .registerStat desc] := if_pos hpf
          have e2 : p.step (.construct true : Op D) = ⟨p.count + 2, some p.count⟩ := if_pos hpf
          rw [e1] at hp ⊢
          have hinit : s.phase = .init := hp.1
          refine ⟨h1, h2, fun j hj => ?_⟩
          obtain ⟨a1, a2, a3⟩ := h2 (h1 ▸ hinit)
          exact ⟨(a3 j).trans a1.symm, (a3 (j + 1)).trans a2.symm⟩
        · have e1 : calls p (.construct true : Op D) = [] := if_neg hpf
          have e2 : p.step (.construct true : Op D) = p := if_neg hpf
          rw [e1, e2]
          exact ⟨h1, h2, h3⟩
    | destroy l => exact ⟨h1, h2, h3⟩
    | forward l a b =>
      cases hpf : p.first with
      | none =>
        have e1 : calls p (.forward l a b : Op D) = [] := by simp only [calls, hpf]
        rw [e1]
        by_cases hr : h.phase = .recording
        · -- the layer that registers comes too late
          exfalso
          have never : ∀ (ops : List (Op D)) (q : Place) (t : Spec D), q.first = none → t.phase ≠ .init →
              Proper t.phase (allCalls q ops) → (ops.foldl Place.step q).first = none := by
            intro ops
            induction ops with
            | nil => intro q t hq _ _; exact hq
            | cons o ops ih =>
              intro q t hq ht hpr
              rw [allCalls] at hpr
              obtain ⟨q1, q2⟩ := proper_append _ _ t hpr
              have hne : ∀ (l : List (Stats.Op (Stat D) D)) (u : Spec D), u.phase ≠ .init → (l.foldl Spec.step u).phase ≠ .init := by
                intro l
                induction l with
                | nil => intro u h; exact h
                | cons x l ih => intro u h; exact ih _ (CN24.Csv.step_phase h x)
              refine ih _ _ ?_ (hne _ _ ht) q2
              cases o with
              | construct b =>
                cases b with
                | false => exact hq
                | true =>
                  have e1 : calls q (.construct true : Op D) = [.registerStat desc, .registerStat desc] := if_pos hq
                  rw [e1] at q1
                  exact absurd q1.1 ht
              | collector c => cases c <;> exact hq
              | _ => exact hq
          have hn := never ops p s hpf (by rw [h1, hr]; simp) (by
            have := hp2
            rw [e1] at this
            exact this)
          have hk' : (ops.foldl Place.step p).first = some k := hk
          rw [hn] at hk'
          cases hk'
        · show Agrees s (Heard.step h (.forward l a b)) p
          have : Heard.step h (.forward l a b) = h := if_neg hr
          rw [this]
          exact ⟨h1, h2, h3⟩
      | some j =>
        have e1 : calls p (.forward l a b : Op D) = [.update j a, .update (j + 1) b] := by simp only [calls, hpf]
        rw [e1]
        show Agrees ((s.step (.update j a : Stats.Op (Stat D) D)).step (.update (j + 1) b : Stats.Op (Stat D) D))
          (Heard.step h (.forward l a b)) p
        by_cases hr : h.phase = .recording
        · have hs : s.phase = .recording := h1.trans hr
          have eh : Heard.step h (.forward l a b) = { h with as := h.as ++ [a], bs := h.bs ++ [b] } := if_pos hr
          rw [eh]
          obtain ⟨v1, v2⟩ := h3 j hpf
          simp only [Spec.step, hs, if_true]
          refine ⟨hr.symm, fun hi => absurd (hr.symm.trans hi) (by simp), ?_⟩
          intro i hi
          rw [hpf] at hi
          obtain rfl := Option.some.inj hi
          refine ⟨?_, ?_⟩
          · show (if j = j + 1 then _ else if j = j then _ else _) = _
            rw [if_neg (by omega), if_pos rfl, v1]
          · show (if j + 1 = j + 1 then _ else _) = _
            rw [if_pos rfl, if_neg (by omega), v2]
        · have hs : s.phase ≠ .recording := fun e => hr (h1.symm.trans e)
          have eh : Heard.step h (.forward l a b) = h := if_neg hr
          rw [eh]
          simp only [Spec.step, hs, if_false]
          exact ⟨h1, h2, h3⟩
    | collector c =>
      have hstep : (p.step (.collector c : Op D)).first = p.first := by cases c <;> rfl
      show Agrees (s.step c) (Heard.step h (.collector c)) (p.step (.collector c : Op D))
      cases c with
      | «initialize» =>
        simp only [Spec.step, Heard.step]
        by_cases hi : h.phase = .init
        · rw [if_pos (h1.trans hi), if_pos hi]
          exact ⟨rfl, by simp, fun _ _ => ⟨rfl, rfl⟩⟩
        · rw [if_neg fun e => hi (h1.symm.trans e), if_neg hi]
          exact ⟨h1, h2, h3⟩
      | startRecording t =>
        simp only [Spec.step, Heard.step]
        by_cases hi : h.phase = .stopped
        · rw [if_pos (h1.trans hi), if_pos hi]
          exact ⟨rfl, by simp, h3⟩
        · rw [if_neg fun e => hi (h1.symm.trans e), if_neg hi]
          exact ⟨h1, h2, h3⟩
      | stopRecording t =>
        simp only [Spec.step, Heard.step]
        by_cases hi : h.phase = .recording
        · rw [if_pos (h1.trans hi), if_pos hi]
          exact ⟨rfl, by simp, h3⟩
        · rw [if_neg fun e => hi (h1.symm.trans e), if_neg hi]
          exact ⟨h1, h2, h3⟩
      | reset =>
        simp only [Spec.step, Heard.step]
        by_cases hi : h.phase = .stopped
        · rw [if_pos (h1.trans hi), if_pos hi]
          exact ⟨h1, fun _ => ⟨rfl, rfl, fun _ => rfl⟩, fun _ _ => ⟨rfl, rfl⟩⟩
        · rw [if_neg fun e => hi (h1.symm.trans e), if_neg hi]
          exact ⟨h1, h2, h3⟩
      | snapshot t t' =>
        simp only [Spec.step, Heard.step]
        by_cases hi : h.phase = .recording
        · rw [if_pos (h1.trans hi), if_pos hi]
          exact ⟨h1, fun _ => ⟨rfl, rfl, fun _ => rfl⟩, fun _ _ => ⟨rfl, rfl⟩⟩
        · rw [if_neg fun e => hi (h1.symm.trans e), if_neg hi]
          exact ⟨h1, h2, h3⟩
      | update id v =>
        obtain ⟨u1, u2⟩ := hu id v List.mem_cons_self
        simp only [Spec.step, Heard.step]
        split
        · rename_i hr
          refine ⟨h1, fun hi => absurd (h1.trans hi) (by rw [hr]; simp), ?_⟩
          intro j hj
          have hjk := hfirst j hj
          subst hjk
          obtain ⟨v1, v2⟩ := h3 j hj
          refine ⟨?_, ?_⟩
          · show (if j = id then _ else _) = _
            rw [if_neg fun e => u1 e.symm, v1]
          · show (if j + 1 = id then _ else _) = _
            rw [if_neg fun e => u2 e.symm, v2]
        · exact ⟨h1, h2, h3⟩
      | _ => exact ⟨h1, h2, h3⟩

theorem fold_desc (l : List D) (x : Stat D) :
    (l.foldl desc.updateF x).value = x.value + l.sum ∧ (l.foldl desc.updateF x).isNull = (l.isEmpty && x.isNull) := by
  induction l generalizing x with
  | nil => simp
  | cons a l ih =>
    rw [List.foldl_cons]
    obtain ⟨i1, i2⟩ := ih (desc.updateF x a)
    refine ⟨?_, ?_⟩
    · rw [i1, List.sum_cons, ← add_assoc]
      rfl
    · rw [i2]
      show (l.isEmpty && false) = _
      simp

theorem registered_desc : ∀ (ops : List (Op D)) (p : Place) (ds : List (Desc (Stat D) D)), ds.length = p.count →
    (∀ k, p.first = some k → ds[k]? = some desc ∧ ds[k + 1]? = some desc) →
    ∀ k, (ops.foldl Place.step p).first = some k →
      (ds ++ registered (allCalls p ops))[k]? = some desc ∧ (ds ++ registered (allCalls p ops))[k + 1]? = some desc
  | [], p, ds, _, hf, k, hk => by simpa [allCalls, registered] using hf k hk
  | op :: ops, p, ds, hc, hf, k, hk => by
    rw [allCalls, registered_append, ← List.append_assoc]
    have grow (l : List (Desc (Stat D) D)) (j : Nat) (h : ds[j]? = some desc ∧ ds[j + 1]? = some desc) :
        (ds ++ l)[j]? = some desc ∧ (ds ++ l)[j + 1]? = some desc := by
      have b1 := (List.getElem?_eq_some_iff.1 h.1).1
      have b2 := (List.getElem?_eq_some_iff.1 h.2).1
      rw [List.getElem?_append_left b1, List.getElem?_append_left b2]
      exact h
    refine registered_desc ops (p.step op) _ ?_ ?_ k hk
    · cases op with
      | construct b =>
        cases b with
        | false => simpa [calls, registered, Place.step] using hc
        | true => by_cases h : p.first = none <;> simp [calls, registered, Place.step, h, hc]
      | forward l a b => cases h : p.first <;> simp [calls, registered, Place.step, h, hc]
      | destroy l => simpa [calls, registered, Place.step] using hc
      | collector c => cases c <;> simp [calls, registered, Place.step, hc]
    · intro j hj
      cases hpf : p.first with
      | some i =>
        have := first_stays op p hpf
        rw [this] at hj
        obtain rfl := Option.some.inj hj
        exact grow _ _ (hf _ hpf)
      | none =>
        cases op with
        | construct b =>
          cases b with
          | false => simp [Place.step, hpf] at hj
          | true =>
            have e1 : calls p (.construct true : Op D) = [.registerStat desc, .registerStat desc] := if_pos hpf
            have e2 : p.step (.construct true : Op D) = ⟨p.count + 2, some p.count⟩ := if_pos hpf
            rw [e2] at hj
            obtain rfl := Option.some.inj hj
            rw [e1, ← hc]
            simp [registered]
        | collector c => cases c <;> simp [Place.step, hpf] at hj
        | _ => simp [Place.step, hpf] at hj

/-- **C102 (what is reported; partial).**  A layer built from numbers was constructed before the collector was initialised, and
no layer is destroyed.  Then a report shows, for each of the two parameters, the sum over all forward passes of all layers while
recording since the last reset, divided by the number of iterations; it is null if there was no iteration. -/
theorem C102_reported_partial (ops : List (Op D)) (k : Nat) (hkeep : ∀ l, Op.destroy l ∉ ops) (hex : Exists 0 ops)
    (hsmall : 2 * (ops.length + 1) < 2 ^ 31) (hk : (place ops).first = some k) (hu : Untouched k ops)
    (hp : Proper .init (allCalls {} ops)) (hf : ∀ d ∈ registered (allCalls {} ops), FixedInit d)
    (hi : (heard ops).phase ≠ .init) :
    ∃ w w' outputs, run ops = some w ∧ exec w (.collector .generate) = some w' ∧
      w'.agg.sinks = w.agg.sinks.map (· ++ [.process w.agg.hard outputs]) ∧
      (0 < w.agg.hard.iterations → outputs[k]? = some ⟨false, (heard ops).as.sum / (w.agg.hard.iterations : D)⟩ ∧
        outputs[k + 1]? = some ⟨false, (heard ops).bs.sum / (w.agg.hard.iterations : D)⟩) ∧
      (w.agg.hard.iterations = 0 → outputs[k]? = some ⟨true, 0⟩ ∧ outputs[k + 1]? = some ⟨true, 0⟩) := by
  have hs0 : Sane ({} : World D) {} 0 := ⟨rfl, rfl, by simp, rfl, rfl, rfl⟩
  have href := C102_refines ops {} {} 0 hs0 hkeep hex (by show 0 + 2 * ops.length < _; omega)
  have hag := agrees_run ops ({} : Spec D) ({} : Heard D) {} k ⟨rfl, fun _ => ⟨rfl, rfl, fun _ => rfl⟩, by simp⟩ hp hk hu
  have hag' : Agrees (Spec.after (allCalls {} ops)) (heard ops) (place ops) := hag
  obtain ⟨a, a', outputs, g1, g2, g3, g4, g5⟩ := C13_generate (⟨false, 0⟩ : Stat D) (allCalls {} ops) hp hf
    (by rw [hag'.phase]; exact hi)
  have hrun : (run ops).map (·.agg) = some a := href.trans g1
  obtain ⟨w, hw, hwa⟩ := Option.map_eq_some_iff.1 hrun
  -- generating is one more step
  have href2 := C102_refines (ops ++ [.collector .generate]) {} {} 0 hs0
    (by
      intro l hl
      rcases List.mem_append.1 hl with hl | hl
      · exact hkeep l hl
      · simp at hl)
    (by
      have : ∀ (l : List (Op D)) (n : Nat), Exists n l → Exists n (l ++ [.collector .generate]) := by
        intro l
        induction l with
        | nil => intro n _; trivial
        | cons o l ih =>
          intro n h
          cases o with
          | forward i a b => exact ⟨h.1, ih _ h.2⟩
          | construct b => exact ih _ h
          | destroy i => exact ih _ h
          | collector c => cases c <;> exact ih _ h
      exact this ops 0 hex)
    (by simp only [List.length_append, List.length_cons, List.length_nil]; show 0 + 2 * (ops.length + (0 + 1)) < _; omega)
  have hcalls : ∀ (l : List (Op D)) (p : Place), allCalls p (l ++ [.collector .generate]) = allCalls p l ++ [.generate] := by
    intro l
    induction l with
    | nil => intro p; rfl
    | cons o l ih => intro p; rw [List.cons_append, allCalls, ih, allCalls, List.append_assoc]
  rw [hcalls, List.foldlM_append, List.foldlM_append] at href2
  have hw0 : ops.foldlM exec ({} : World D) = some w := hw
  have g1' : (allCalls {} ops).foldlM (Stats.exec (⟨false, 0⟩ : Stat D)) ({} : World D).agg = some a := g1
  rw [hw0, g1'] at href2
  have href3 : (exec w (.collector .generate)).map (·.agg) = some a' := by
    have : ((exec w (.collector .generate)).bind fun x => some x).map (·.agg) =
        (Stats.exec ⟨false, 0⟩ a .generate).bind fun x => some x := href2
    rw [g2] at this
    simpa using this
  obtain ⟨w', hw', hwa'⟩ := Option.map_eq_some_iff.1 href3
  obtain ⟨r1, r2⟩ := registered_desc ops {} [] rfl (by simp) k hk
  rw [List.nil_append] at r1 r2
  obtain ⟨v1, v2⟩ := hag'.vals k hk
  have o1 := g4 k _ r1
  have o2 := g4 (k + 1) _ r2
  rw [v1] at o1
  rw [v2] at o2
  have val (l : List D) : desc.outputF a.hard (l.foldl desc.updateF (desc.initF (⟨false, 0⟩ : Stat D))) =
      if a.hard.iterations > 0 then ⟨false, l.sum / (a.hard.iterations : D)⟩ else ⟨true, 0⟩ := by
    show (if a.hard.iterations > 0 then (⟨false, (l.foldl desc.updateF _).value / _⟩ : Stat D) else ⟨true, 0⟩) = _
    rw [(fold_desc l _).1]
    show (if a.hard.iterations > 0 then (⟨false, (0 + l.sum) / _⟩ : Stat D) else ⟨true, 0⟩) = _
    rw [zero_add]
  rw [val] at o1 o2
  refine ⟨w, w', outputs, hw, hw', ?_, ?_, ?_⟩
  · rw [hwa', hwa, g5]
  · intro h
    rw [hwa] at h ⊢
    rw [if_pos h] at o1 o2
    exact ⟨o1, o2⟩
  · intro h
    rw [hwa] at h
    rw [if_neg (by omega)] at o1 o2
    exact ⟨o1, o2⟩

/-- The call of the collector, if the step of a history is one. -/
def collectorCall : Op D → Option (Stats.Op (Stat D) D)
  | .collector op => some op
  | _ => none

/-- **C102 (layers built from a configuration text report nothing).**  Without a layer built from numbers, whatever is run,
the collector is as if no layer had ever been run. -/
theorem C102_text_silent (ops : List (Op D)) (hkeep : ∀ l, Op.destroy l ∉ ops) (hex : Exists 0 ops)
    (hsmall : 2 * ops.length < 2 ^ 31) (hno : Op.construct true ∉ ops) :
    (run ops).map (·.agg) = Stats.run ⟨false, 0⟩ (ops.filterMap collectorCall) := by
  have h := C102_refines ops ({} : World D) {} 0 ⟨rfl, rfl, by simp, rfl, rfl, rfl⟩ hkeep hex (by show 0 + _ < _; omega)
  have key : ∀ (ops : List (Op D)) (p : Place), p.first = none → Op.construct true ∉ ops →
      allCalls p ops = ops.filterMap collectorCall := by
    intro ops
    induction ops with
    | nil => intro p _ _; rfl
    | cons o ops ih =>
      intro p hp hn
      have hn' : Op.construct true ∉ ops := fun h => hn (by simp [h])
      rw [allCalls]
      cases o with
      | construct b =>
        cases b with
        | true => exact absurd List.mem_cons_self hn
        | false => exact ih p hp hn'
      | destroy l => exact ih p hp hn'
      | forward l a b =>
        have e1 : calls p (.forward l a b : Op D) = [] := by simp only [calls, hp]
        rw [e1]
        exact ih p hp hn'
      | collector c =>
        have hf : (p.step (.collector c : Op D)).first = none := by cases c <;> exact hp
        rw [ih _ hf hn']
        rfl
  rw [key ops {} rfl hno] at h
  exact h

/-- **C102, refuted: destroying the first layer.**  The descriptors live in the layer that registered them.  When it has been
destroyed, the next report is undefined, whatever other layers exist and whatever happens in between. -/
theorem C102_destroyed_undefined (w : World D) (k l : Nat) (ho : w.owners[k]? = some (some l)) (hl : l < w.alive.length)
    (ops : List (Op D)) : ((exec w (.destroy l)).bind fun w => (ops ++ [Op.collector .generate]).foldlM exec w) = none := by
  -- the descriptor stays registered and its layer stays dead
  let Dead (w : World D) : Prop := w.owners[k]? = some (some l) ∧ w.alive[l]? = some false
  have hcall : ∀ (w w' : World D) (op : Stats.Op (Stat D) D), Dead w → w.call op = some w' → Dead w' := by
    intro w w' op hd h
    unfold World.call at h
    split at h
    · obtain ⟨a, -, rfl⟩ := Option.map_eq_some_iff.1 h
      refine ⟨?_, hd.2⟩
      have hk := (List.getElem?_eq_some_iff.1 hd.1).1
      cases op <;> first | exact hd.1 | exact (List.getElem?_append_left hk).trans hd.1
    · cases h
  have hstep : ∀ (w w' : World D) (op : Op D), Dead w → exec w op = some w' → Dead w' := by
    intro w w' op hd h
    have hk := (List.getElem?_eq_some_iff.1 hd.1).1
    have ha := (List.getElem?_eq_some_iff.1 hd.2).1
    cases op with
    | construct b =>
      cases b with
      | false =>
        rw [← Option.some.inj h]
        exact ⟨hd.1, (List.getElem?_append_left ha).trans hd.2⟩
      | true =>
        rw [← Option.some.inj h]
        unfold World.constructNumbers
        dsimp only
        split
        · exact ⟨hd.1, (List.getElem?_append_left ha).trans hd.2⟩
        · exact ⟨(List.getElem?_append_left hk).trans hd.1, (List.getElem?_append_left ha).trans hd.2⟩
    | destroy m =>
      simp only [exec] at h
      split at h
      · rename_i hm
        rw [← Option.some.inj h]
        refine ⟨hd.1, ?_⟩
        have hne : m ≠ l := fun e => by rw [e, hd.2] at hm; cases hm
        show (w.alive.set m false)[l]? = _
        rw [List.getElem?_set_ne hne]
        exact hd.2
      · cases h
    | forward m a b =>
      simp only [exec] at h
      split at h
      · obtain ⟨w1, h1, h2⟩ := Option.bind_eq_some_iff.1 h
        exact hcall _ _ _ (hcall _ _ _ hd h1) h2
      · cases h
    | collector c => exact hcall _ _ _ hd h
  have hend : ∀ (ops : List (Op D)) (w : World D), Dead w → (ops ++ [Op.collector .generate]).foldlM exec w = none := by
    intro ops
    induction ops with
    | nil =>
      intro w hd
      show (w.call .generate).bind _ = none
      have : w.allLive = false := by
        unfold World.allLive
        rw [List.all_eq_false]
        refine ⟨k, List.mem_range.2 (List.getElem?_eq_some_iff.1 hd.1).1, ?_⟩
        unfold World.live
        rw [hd.1]
        simp [hd.2]
      unfold World.call
      rw [if_neg (by simp [World.safe, this])]
      rfl
    | cons o ops ih =>
      intro w hd
      rw [List.cons_append, List.foldlM_cons]
      show (exec w o).bind _ = none
      cases h : exec w o with
      | none => rfl
      | some w' => exact ih w' (hstep w w' o hd h)
  simp only [exec]
  split
  · exact hend ops _ ⟨ho, by show (w.alive.set l false)[l]? = _; rw [List.getElem?_set_self hl]⟩
  · rfl

/-! ### Examples -/

/-- Two layers built from numbers and one from a text; the second and the third report to the statistics of the first. -/
def demo : List (Op ℚ) :=
  [.collector .registerSink, .construct false, .construct true, .construct true, .collector .initialize,
    .collector (.startRecording 0), .forward 1 2 3, .forward 0 5 7, .collector (.hardcode { iterations := 4 }), .forward 2 1 2,
    .collector (.stopRecording 3)]

example : (place demo).first = some 0 ∧ Exists 0 demo ∧ Proper .init (allCalls {} demo) ∧
    Untouched 0 demo ∧ (∀ d ∈ registered (allCalls {} demo), FixedInit d) ∧
    (heard demo).as = [2, 5, 1] ∧ (heard demo).bs = [3, 7, 2] ∧ (heard demo).phase = .stopped := by
  refine ⟨rfl, ?_, ?_, ?_, ?_, rfl, rfl, rfl⟩
  rotate_left 2
  · intro id v h
    simp [demo] at h
  · intro d hd
    simp [demo, allCalls, calls, Place.step, registered] at hd
    rw [hd]
    intro x y
    rfl
  · simp [demo, Exists]
  · simp [demo, allCalls, calls, Place.step, Proper, Spec.step]

/-- What the sink is told: the sums 8 and 12, divided by 4. -/
example : ((run (demo ++ [.collector .generate])).bind fun w => w.agg.sinks[0]?).map (fun l => l.getLast?) =
    some (some (.process { secondsElapsed := 3, iterations := 4 } [⟨false, 2⟩, ⟨false, 3⟩])) := by
  decide +kernel

/-- The first layer built from numbers is destroyed. -/
example : (run (demo ++ [.destroy 1])).isSome = true ∧ (run (demo ++ [.destroy 1, .collector .generate])).isSome = false := by
  decide +kernel

end CN24.HMaxStats
