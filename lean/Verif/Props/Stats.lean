import Verif.Model.Stats

/-
Property theorems about the statistics collector: C12 (protocol), C13 (values), C14 (CSV).
-/

namespace CN24.Props
open CN24 CN24.Stats

variable {S V : Type _}

/-! ## The specification: a three-phase protocol and, per statistic, the recorded values -/

/-- What a user expects to be able to tell from the calls alone. -/
structure Spec (V : Type _) where
  phase : Phase := .init
  /-- the values recorded for each statistic since the last reset -/
  recorded : Nat → List V := fun _ => []

/-- The documented effect of one call. -/
def Spec.step (s : Spec V) : Op S V → Spec V
  | .initialize => if s.phase = .init then { phase := .stopped, recorded := fun _ => [] } else s
  | .update id v =>
    if s.phase = .recording then
      { s with recorded := fun k => if k = id then s.recorded k ++ [v] else s.recorded k }
    else s
  | .startRecording _ => if s.phase = .stopped then { s with phase := .recording } else s
  | .stopRecording _ => if s.phase = .recording then { s with phase := .stopped } else s
  | .reset => if s.phase = .stopped then { s with recorded := fun _ => [] } else s
  | .snapshot _ _ => if s.phase = .recording then { s with recorded := fun _ => [] } else s
  | _ => s

def Spec.after (ops : List (Op S V)) : Spec V := ops.foldl Spec.step {}

/-- The descriptors registered by a call sequence, in order. -/
def registered : List (Op S V) → List (Desc S V)
  | [] => []
  | .registerStat d :: ops => d :: registered ops
  | _ :: ops => registered ops

/-- Precondition of the code: statistics are registered before `Initialize`, and `Generate` is
called after it. -/
def Proper : Phase → List (Op S V) → Prop
  | _, [] => True
  | p, .registerStat _ :: ops => p = .init ∧ Proper p ops
  | p, .generate :: ops => p ≠ .init ∧ Proper p ops
  | p, op :: ops => Proper (Spec.step ({ phase := p } : Spec V) op).phase ops

/-- The statistics start from a fixed value (both fields are assigned, as in every descriptor
of the project). -/
def FixedInit (d : Desc S V) : Prop := ∀ x y, d.initF x = d.initF y

/-! ## Invariant -/

structure Inv (dflt : S) (a : Agg S V) (s : Spec V) : Prop where
  phase : a.phase = s.phase
  fixed : ∀ d ∈ a.descs, FixedInit d
  uninit : a.phase = .init → a.stats = []
  len : a.phase ≠ .init → a.stats.length = a.descs.length
  val : a.phase ≠ .init → ∀ (k : Nat) (d : Desc S V), a.descs[k]? = some d →
    a.stats[k]? = some ((s.recorded k).foldl d.updateF (d.initF dflt))

theorem reset_spec (dflt : S) (a : Agg S V) (hp : a.phase = .stopped)
    (hl : a.stats.length = a.descs.length) (hf : ∀ d ∈ a.descs, FixedInit d) :
    ∃ stats, a.reset = some { a with hard := a.hard.reset, stats := stats } ∧
      stats.length = a.descs.length ∧
      ∀ (k : Nat) (d : Desc S V), a.descs[k]? = some d → stats[k]? = some (d.initF dflt) := by
  unfold Agg.reset
  rw [if_neg (by simp [hp])]
  obtain ⟨stats, h1, h2, h3⟩ := forLoop_inv (n := a.descs.length)
    (f := fun s stats =>
      (rd a.descs s).bind fun d => (rd stats s).bind fun x => wr stats s (d.initF x))
    (s := a.stats)
    (fun i (stats : List S) => stats.length = a.descs.length ∧
      ∀ (k : Nat) (d : Desc S V), k < i → a.descs[k]? = some d → stats[k]? = some (d.initF dflt))
    ⟨hl, by simp⟩
    (by
      rintro i stats hi ⟨hlen, hval⟩
      have hi' : i < stats.length := by omega
      rw [rd_eq_some hi, Option.bind_some, rd_eq_some hi', Option.bind_some, wr_of_lt hi']
      refine ⟨_, rfl, by simpa using hlen, ?_⟩
      intro k d hk hd
      by_cases hki : k = i
      · subst hki
        have : a.descs[k] = d := by
          rw [List.getElem?_eq_getElem hi] at hd; simpa using hd
        subst this
        rw [List.getElem?_set_self hi']
        rw [hf _ (List.getElem_mem hi) _ dflt]
      · rw [List.getElem?_set_ne (by omega)]
        exact hval k d (by omega) hd)
  refine ⟨stats, by rw [h1]; rfl, h2, ?_⟩
  intro k d hd
  have hk : k < a.descs.length := by
    have := List.getElem?_eq_some_iff.1 hd; exact this.1
  exact h3 k d hk hd

/-- The list of outputs `Generate` hands to the sinks. -/
def expectedOutputs (dflt : S) (descs : List (Desc S V)) (h : Hard) (s : Spec V) : List S :=
  descs.mapIdx fun k d => d.outputF h ((s.recorded k).foldl d.updateF (d.initF dflt))

theorem generate_spec {dflt : S} {a : Agg S V} {s : Spec V} (hi : Inv dflt a s)
    (hp : a.phase ≠ .init) :
    a.generate = some (a.tell (.process a.hard (expectedOutputs dflt a.descs a.hard s))) := by
  unfold Agg.generate
  obtain ⟨out, h1, h2⟩ := forLoop_inv (n := a.descs.length)
    (f := fun s out =>
      (rd a.descs s).bind fun d => (rd a.stats s).map fun x => out ++ [d.outputF a.hard x])
    (s := ([] : List S))
    (fun i (out : List S) => out = (a.descs.take i).mapIdx fun k d =>
      d.outputF a.hard ((s.recorded k).foldl d.updateF (d.initF dflt)))
    (by simp)
    (by
      rintro i out hlt rfl
      have hd : a.descs[i]? = some a.descs[i] := List.getElem?_eq_getElem hlt
      have hv := hi.val hp i _ hd
      refine ⟨_, by rw [rd_eq_some hlt, Option.bind_some, rd, hv]; rfl, ?_⟩
      rw [List.take_succ_eq_append_getElem hlt, List.mapIdx_append]
      simp [Nat.min_eq_left (Nat.le_of_lt hlt)])
  rw [List.take_length] at h2
  rw [h1, Option.map_some, h2]
  rfl

theorem proper_phase {op : Op S V} (s s' : Spec V) (h : s.phase = s'.phase) :
    (s.step op).phase = (s'.step op).phase := by
  cases op <;> simp only [Spec.step, h] <;> (try split) <;> simp_all

/-- The calls the precondition admits in a phase. -/
def Admits (p : Phase) : Op S V → Prop
  | .registerStat d => p = .init ∧ FixedInit d
  | .generate => p ≠ .init
  | _ => True

theorem exec_inv {dflt : S} {a : Agg S V} {s : Spec V} (hi : Inv dflt a s) (op : Op S V)
    (hop : Admits s.phase op) :
    ∃ a', exec dflt a op = some a' ∧ Inv dflt a' (s.step op) := by
  have hphase := hi.phase
  cases op with
  | registerSink => exact ⟨_, rfl, ⟨hi.phase, hi.fixed, hi.uninit, hi.len, hi.val⟩⟩
  | setCurrentExperiment n =>
    simp only [exec, Agg.setCurrentExperiment, Spec.step]
    split
    · exact ⟨_, rfl, hi⟩
    · exact ⟨_, rfl, ⟨hi.phase, hi.fixed, hi.uninit, hi.len, hi.val⟩⟩
  | hardcode h => exact ⟨_, rfl, ⟨hi.phase, hi.fixed, hi.uninit, hi.len, hi.val⟩⟩
  | registerStat d =>
    have hp : a.phase = .init := hphase.trans hop.1
    refine ⟨_, rfl, ⟨hi.phase, ?_, hi.uninit, ?_, ?_⟩⟩
    · intro e he
      rcases List.mem_append.1 he with h | h
      · exact hi.fixed e h
      · rw [List.mem_singleton.1 h]; exact hop.2
    · intro h; exact absurd hp h
    · intro h; exact absurd hp h
  | generate =>
    have hp : a.phase ≠ .init := by rw [hphase]; exact hop
    refine ⟨_, generate_spec hi hp, ⟨hi.phase, hi.fixed, hi.uninit, hi.len, hi.val⟩⟩
  | startRecording t =>
    simp only [exec, Agg.startRecording, Spec.step]
    by_cases h : s.phase = .stopped
    · rw [if_neg (by simp [hphase, h]), if_pos h]
      refine ⟨_, rfl, ⟨rfl, hi.fixed, by simp, ?_, ?_⟩⟩
      · intro _; exact hi.len (by simp [hphase, h])
      · intro _; exact hi.val (by simp [hphase, h])
    · rw [if_pos (by simpa [hphase] using h), if_neg h]
      exact ⟨_, rfl, hi⟩
  | stopRecording t =>
    simp only [exec, Agg.stopRecording, Spec.step]
    by_cases h : s.phase = .recording
    · rw [if_neg (by simp [hphase, h]), if_pos h]
      refine ⟨_, rfl, ⟨rfl, hi.fixed, by simp, ?_, ?_⟩⟩
      · intro _; exact hi.len (by simp [hphase, h])
      · intro _; exact hi.val (by simp [hphase, h])
    · rw [if_pos (by simpa [hphase] using h), if_neg h]
      exact ⟨_, rfl, hi⟩
  | reset =>
    simp only [exec, Spec.step]
    by_cases h : s.phase = .stopped
    · have hp : a.phase = .stopped := hphase.trans h
      obtain ⟨stats, h1, h2, h3⟩ := reset_spec dflt a hp (hi.len (by simp [hp])) hi.fixed
      rw [if_pos h]
      refine ⟨_, h1, ⟨hi.phase, hi.fixed, ?_, fun _ => h2, fun _ k d hd => h3 k d hd⟩⟩
      intro hc; simp [hp] at hc
    · rw [if_neg h]
      refine ⟨a, ?_, hi⟩
      unfold Agg.reset
      rw [if_pos (by simpa [hphase] using h)]
  | «initialize» =>
    simp only [exec, Spec.step]
    by_cases h : s.phase = .init
    · have hp : a.phase = .init := hphase.trans h
      rw [if_pos h]
      unfold Agg.initAll
      rw [if_neg (by simp [hp])]
      have hnil := hi.uninit hp
      obtain ⟨stats, h1, h2, h3⟩ := reset_spec dflt
        { a.tell (.initialize a.descs.length) with
          stats := List.replicate a.descs.length dflt, phase := .stopped }
        rfl (by simp [Agg.tell]) hi.fixed
      simp only [Agg.tell, hnil, List.nil_append] at h1 h2 h3 ⊢
      rw [h1]
      simp only [Option.map_some, Agg.setCurrentExperiment, ne_eq, not_true_eq_false, if_false]
      exact ⟨_, rfl, ⟨rfl, hi.fixed, by simp [Agg.tell], fun _ => h2, fun _ k d hd => h3 k d hd⟩⟩
    · rw [if_neg h]
      refine ⟨a, ?_, hi⟩
      unfold Agg.initAll
      rw [if_pos (by simpa [hphase] using h)]
  | update id v =>
    simp only [exec, Agg.update, Spec.step]
    by_cases h : s.phase = .recording
    · have hp : a.phase = .recording := hphase.trans h
      rw [if_neg (by simp [hp]), if_pos h]
      have hne : a.phase ≠ .init := by simp [hp]
      have hlen := hi.len hne
      by_cases hid : id < a.descs.length
      · rw [if_pos hid]
        have hid' : id < a.stats.length := by omega
        rw [rd_eq_some hid, Option.bind_some, rd_eq_some hid', Option.bind_some, wr_of_lt hid',
          Option.map_some]
        refine ⟨_, rfl, ⟨hi.phase, hi.fixed, ?_, ?_, ?_⟩⟩
        · intro hc; exact absurd hc hne
        · intro _; simpa using hlen
        · intro _ k d hd
          simp only
          have hv := hi.val hne k d hd
          by_cases hk : k = id
          · subst hk
            have e : a.descs[k] = d := by
              rw [List.getElem?_eq_getElem hid] at hd; simpa using hd
            rw [if_pos rfl, List.getElem?_set_self hid', List.foldl_append]
            rw [List.getElem?_eq_getElem hid'] at hv
            have hv' : a.stats[k] = (s.recorded k).foldl d.updateF (d.initF dflt) := by simpa using hv
            rw [e, hv']; rfl
          · rw [if_neg hk, List.getElem?_set_ne (by omega)]; exact hv
      · rw [if_neg hid]
        refine ⟨a, rfl, ⟨hi.phase, hi.fixed, hi.uninit, hi.len, ?_⟩⟩
        intro hp' k d hd
        have hk : k ≠ id := by
          rintro rfl
          have := (List.getElem?_eq_some_iff.1 hd).1
          omega
        simp only [hk, if_false]
        exact hi.val hp' k d hd
    · rw [if_pos (by simpa [hphase] using h), if_neg h]
      exact ⟨_, rfl, hi⟩
  | snapshot t t' =>
    simp only [exec, Agg.snapshot, Spec.step]
    by_cases h : s.phase = .recording
    · have hp : a.phase = .recording := hphase.trans h
      have hne : a.phase ≠ .init := by simp [hp]
      rw [if_neg (by simp [hp]), if_pos h]
      have hstop : Inv dflt (a.stopRecording t) { s with phase := .stopped } := by
        unfold Agg.stopRecording
        rw [if_neg (by simp [hp])]
        exact ⟨rfl, hi.fixed, by simp, fun _ => hi.len hne, fun _ => hi.val hne⟩
      have hsp : (a.stopRecording t).phase = .stopped := hstop.phase
      have hg := generate_spec hstop (by simp [hsp])
      rw [hg, Option.bind_some]
      generalize hb : (a.stopRecording t).tell (.process (a.stopRecording t).hard
        (expectedOutputs dflt (a.stopRecording t).descs (a.stopRecording t).hard
          { s with phase := .stopped })) = b
      have hbp : b.phase = .stopped := by rw [← hb]; exact hsp
      have hbl : b.stats.length = b.descs.length := by
        rw [← hb]; exact hstop.len (by simp [hsp])
      have hbf : ∀ d ∈ b.descs, FixedInit d := by rw [← hb]; exact hstop.fixed
      obtain ⟨stats, h1, h2, h3⟩ := reset_spec dflt b hbp hbl hbf
      rw [h1, Option.map_some]
      refine ⟨_, rfl, ?_⟩
      unfold Agg.startRecording
      rw [if_neg (by simp [hbp])]
      exact ⟨h.symm, hbf, by simp, fun _ => h2, fun _ k d hd => h3 k d hd⟩
    · rw [if_pos (by simpa [hphase] using h), if_neg h]
      exact ⟨_, rfl, hi⟩

theorem admits_of_proper {p : Phase} {op : Op S V} {ops : List (Op S V)}
    (h : Proper p (op :: ops)) (hf : ∀ d ∈ registered (op :: ops), FixedInit d) :
    Admits p op ∧ Proper (Spec.step ({ phase := p } : Spec V) op).phase ops ∧
      ∀ d ∈ registered ops, FixedInit d := by
  cases op with
  | registerStat d =>
    refine ⟨⟨h.1, hf d (by simp [registered])⟩, by simpa [Spec.step] using h.2, ?_⟩
    intro e he; exact hf e (by simp [registered, he])
  | generate => exact ⟨h.1, by simpa [Spec.step] using h.2, hf⟩
  | _ => exact ⟨trivial, h, hf⟩

theorem run_inv_from (dflt : S) : ∀ (ops : List (Op S V)) (a : Agg S V) (s : Spec V),
    Inv dflt a s → Proper s.phase ops → (∀ d ∈ registered ops, FixedInit d) →
    ∃ a', ops.foldlM (exec dflt) a = some a' ∧ Inv dflt a' (ops.foldl Spec.step s) := by
  intro ops
  induction ops with
  | nil => intro a s hi _ _; exact ⟨a, rfl, hi⟩
  | cons op ops ih =>
    intro a s hi hp hf
    obtain ⟨h1, h2, h3⟩ := admits_of_proper hp hf
    obtain ⟨a1, e1, i1⟩ := exec_inv hi op h1
    rw [proper_phase (op := op) ({ phase := s.phase } : Spec V) s rfl] at h2
    obtain ⟨a2, e2, i2⟩ := ih a1 (s.step op) i1 h2 h3
    refine ⟨a2, ?_, i2⟩
    simp only [List.foldlM_cons, e1]
    exact e2

theorem run_inv (dflt : S) (ops : List (Op S V)) (hp : Proper .init ops)
    (hf : ∀ d ∈ registered ops, FixedInit d) :
    ∃ a, run dflt ops = some a ∧ Inv dflt a (Spec.after ops) :=
  run_inv_from dflt ops {} {} ⟨rfl, by simp, fun _ => rfl, by simp, by simp⟩ hp hf

/-- The registered descriptors are those of the calls, in order. -/
theorem descs_exec {dflt : S} {a a' : Agg S V} {op : Op S V} (h : exec dflt a op = some a') :
    a'.descs = a.descs ++ registered [op] := by
  have hreset : ∀ {b b' : Agg S V}, b.reset = some b' → b'.descs = b.descs := by
    intro b b' hb
    unfold Agg.reset at hb
    split at hb
    · rw [← Option.some.inj hb]
    · rw [Option.map_eq_some_iff] at hb
      obtain ⟨_, _, rfl⟩ := hb; rfl
  have hgen : ∀ {b b' : Agg S V}, b.generate = some b' → b'.descs = b.descs := by
    intro b b' hb
    unfold Agg.generate at hb
    rw [Option.map_eq_some_iff] at hb
    obtain ⟨_, _, rfl⟩ := hb; rfl
  have hset : ∀ (b : Agg S V) n, (b.setCurrentExperiment n).descs = b.descs := by
    intro b n; unfold Agg.setCurrentExperiment; split <;> rfl
  have hstop : ∀ (b : Agg S V) n, (b.stopRecording n).descs = b.descs := by
    intro b n; unfold Agg.stopRecording; split <;> rfl
  have hstart : ∀ (b : Agg S V) n, (b.startRecording n).descs = b.descs := by
    intro b n; unfold Agg.startRecording; split <;> rfl
  cases op with
  | registerSink => rw [← Option.some.inj h]; simp [Agg.registerSink, registered]
  | registerStat d => rw [← Option.some.inj h]; simp [Agg.registerStat, registered]
  | «initialize» =>
    simp only [exec, Agg.initAll] at h
    split at h
    · rw [← Option.some.inj h]; simp [registered]
    · rw [Option.map_eq_some_iff] at h
      obtain ⟨b, hb, rfl⟩ := h
      rw [hset, hreset hb]
      simp [Agg.tell, registered]
  | update id v =>
    simp only [exec, Agg.update] at h
    split at h
    · rw [← Option.some.inj h]; simp [registered]
    · split at h
      · simp only [Option.bind_eq_some_iff, Option.map_eq_some_iff] at h
        obtain ⟨_, _, _, _, _, _, rfl⟩ := h
        simp [registered]
      · rw [← Option.some.inj h]; simp [registered]
  | generate => rw [hgen h]; simp [registered]
  | startRecording t => rw [← Option.some.inj h, hstart]; simp [registered]
  | stopRecording t => rw [← Option.some.inj h, hstop]; simp [registered]
  | reset => rw [hreset h]; simp [registered]
  | snapshot t t' =>
    simp only [exec, Agg.snapshot] at h
    split at h
    · rw [← Option.some.inj h]; simp [registered]
    · simp only [Option.map_eq_some_iff, Option.bind_eq_some_iff] at h
      obtain ⟨b, ⟨c, hc, hb⟩, rfl⟩ := h
      rw [hstart, hreset hb, hgen hc, hstop]; simp [registered]
  | setCurrentExperiment n => rw [← Option.some.inj h, hset]; simp [registered]
  | hardcode x => rw [← Option.some.inj h]; simp [registered]

theorem registered_cons (op : Op S V) (ops : List (Op S V)) :
    registered (op :: ops) = registered [op] ++ registered ops := by
  cases op <;> simp [registered]

theorem descs_from {dflt : S} (ops : List (Op S V)) : ∀ {a a' : Agg S V},
    ops.foldlM (exec dflt) a = some a' → a'.descs = a.descs ++ registered ops := by
  induction ops with
  | nil => intro a a' h; simp at h; simp [h, registered]
  | cons op ops ih =>
    intro a a' h
    simp only [List.foldlM_cons] at h
    cases h1 : exec dflt a op with
    | none => simp [h1] at h
    | some b =>
      rw [h1] at h
      rw [ih (by simpa using h), descs_exec h1, registered_cons op ops, List.append_assoc]

/-! ## C12 -/

/-- C12: for every call sequence that registers statistics before `Initialize` and generates
only after it, no call is undefined and the collector is in the phase the protocol prescribes.
Missing for the full property: sequences that register a statistic later, for which it is
false (`C12_late_registration_undefined`). -/
theorem C12_protocol_partial (dflt : S) (ops : List (Op S V)) (hp : Proper .init ops)
    (hf : ∀ d ∈ registered ops, FixedInit d) :
    ∃ a, run dflt ops = some a ∧ a.phase = (Spec.after ops).phase ∧
      (a.phase ≠ .init → a.stats.length = (registered ops).length) := by
  obtain ⟨a, h1, h2⟩ := run_inv dflt ops hp hf
  have hd := descs_from ops h1
  refine ⟨a, h1, h2.phase, ?_⟩
  intro hne
  rw [h2.len hne, hd]; simp

/-- C12: calls that do not fit the current phase change nothing at all, in any state. -/
theorem C12_misplaced_calls_ignored (dflt : S) (a : Agg S V) :
    (a.phase ≠ .init → exec dflt a .initialize = some a) ∧
    (a.phase ≠ .stopped → ∀ t, exec dflt a (.startRecording t) = some a) ∧
    (a.phase ≠ .recording → ∀ t, exec dflt a (.stopRecording t) = some a) ∧
    (a.phase ≠ .stopped → exec dflt a .reset = some a) ∧
    (a.phase ≠ .recording → ∀ t t', exec dflt a (.snapshot t t') = some a) ∧
    (a.phase ≠ .recording → ∀ id v, exec dflt a (.update id v) = some a) ∧
    (a.phase ≠ .stopped → ∀ n, exec dflt a (.setCurrentExperiment n) = some a) ∧
    (∀ id v, a.descs.length ≤ id → exec dflt a (.update id v) = some a) := by
  refine ⟨?_, ?_, ?_, ?_, ?_, ?_, ?_, ?_⟩ <;> intros <;>
    simp_all [exec, Agg.initAll, Agg.startRecording, Agg.stopRecording, Agg.reset, Agg.snapshot,
      Agg.update, Agg.setCurrentExperiment]
  intro _ h; omega

/-- C12: the identifier returned by the registration that follows the calls `before` is the
number of earlier registrations, and after any further calls that identifier still denotes
that descriptor. -/
theorem C12_identifiers (dflt : S) (before later : List (Op S V)) (d : Desc S V)
    (a b : Agg S V) (h : run dflt before = some a)
    (h' : run dflt (before ++ [.registerStat d] ++ later) = some b) :
    (a.registerStat d).2 = (registered before).length ∧
    b.descs[(a.registerStat d).2]? = some d := by
  have ha := descs_from before h
  have hb := descs_from _ h'
  have hreg : ∀ l m : List (Op S V), registered (l ++ m) = registered l ++ registered m := by
    intro l m
    induction l with
    | nil => rfl
    | cons x l ih => rw [List.cons_append, registered_cons, ih, ← List.append_assoc, ← registered_cons]
  simp only [List.nil_append] at ha hb
  simp only [Agg.registerStat]
  constructor
  · rw [ha]
  · rw [hb, hreg, hreg, ha]
    simp [registered]

/-- A descriptor that adds up its values. -/
def sumDesc : Desc Int Int := { initF := fun _ => 0, updateF := (· + ·), outputF := fun _ x => x }

/-- C12 is false without the precondition: a statistic registered after `Initialize` gets an
identifier that is not valid, using it is undefined behaviour. -/
theorem C12_late_registration_undefined :
    ((run 0 [.initialize, .registerStat sumDesc, .startRecording 0] : Option (Agg Int Int)).bind
      (fun a => some a.descs.length)) = some 1 ∧
    (run 0 [.initialize, .registerStat sumDesc, .startRecording 0, .update 0 5] :
      Option (Agg Int Int)).isNone = true := by
  constructor <;> rfl

/-- Non-vacuity of the precondition. -/
example : Proper .init ([.registerSink, .registerStat sumDesc, .registerStat sumDesc, .initialize,
    .update 0 9, .startRecording 1, .update 1 5, .update 0 7, .snapshot 2 3, .update 0 8,
    .stopRecording 4, .generate] : List (Op Int Int)) := by
  simp [Proper, Spec.step]
example : FixedInit sumDesc := fun _ _ => rfl

/-! ## C13 -/

/-- C13: after any proper call sequence, `Generate` hands to every sink one record whose k-th
entry is the output function of statistic k applied to its initial value updated, in order,
with exactly the values recorded since the last reset. -/
theorem C13_generate (dflt : S) (ops : List (Op S V)) (hp : Proper .init ops)
    (hf : ∀ d ∈ registered ops, FixedInit d) (hinit : (Spec.after ops).phase ≠ .init) :
    ∃ a a' outputs, run dflt ops = some a ∧ exec dflt a .generate = some a' ∧
      outputs.length = (registered ops).length ∧
      (∀ (k : Nat) (d : Desc S V), (registered ops)[k]? = some d → outputs[k]? =
        some (d.outputF a.hard (((Spec.after ops).recorded k).foldl d.updateF (d.initF dflt)))) ∧
      a'.sinks = a.sinks.map (· ++ [.process a.hard outputs]) := by
  obtain ⟨a, h1, h2⟩ := run_inv dflt ops hp hf
  have hd : a.descs = registered ops := by simpa using descs_from ops h1
  have hg := generate_spec h2 (by rw [h2.phase]; exact hinit)
  refine ⟨a, _, expectedOutputs dflt a.descs a.hard (Spec.after ops), h1, hg, ?_, ?_, rfl⟩
  · rw [← hd]; simp [expectedOutputs]
  · intro k d hk
    rw [← hd] at hk
    simp [expectedOutputs, List.getElem?_mapIdx, hk]

/-- C13 for `Snapshot`: the same record (with the elapsed time of the recording added) goes to
every sink, and afterwards nothing is recorded and recording goes on. -/
theorem C13_snapshot (dflt : S) (ops : List (Op S V)) (hp : Proper .init ops)
    (hf : ∀ d ∈ registered ops, FixedInit d) (hrec : (Spec.after ops).phase = .recording)
    (now now' : Int) :
    ∃ a a' outputs hard, run dflt ops = some a ∧ exec dflt a (.snapshot now now') = some a' ∧
      hard = { a.hard with secondsElapsed := a.hard.secondsElapsed + (now - a.startTime) } ∧
      outputs.length = (registered ops).length ∧
      (∀ (k : Nat) (d : Desc S V), (registered ops)[k]? = some d → outputs[k]? =
        some (d.outputF hard (((Spec.after ops).recorded k).foldl d.updateF (d.initF dflt)))) ∧
      a'.sinks = a.sinks.map (· ++ [.process hard outputs]) ∧
      a'.phase = .recording ∧
      (∀ (k : Nat) (d : Desc S V), (registered ops)[k]? = some d → a'.stats[k]? = some (d.initF dflt)) ∧
      a'.hard.secondsElapsed = 0 ∧ a'.startTime = now' := by
  obtain ⟨a, h1, h2⟩ := run_inv dflt ops hp hf
  have hph : a.phase = .recording := h2.phase.trans hrec
  have hd : a.descs = registered ops := by simpa using descs_from ops h1
  have happ : ∀ op : Op S V, run dflt (ops ++ [op]) = exec dflt a op := by
    intro op
    simp only [run, List.foldlM_append]
    have : ops.foldlM (exec dflt) {} = some a := h1
    rw [this]; simp
  have hprop : ∀ (l : List (Op S V)) (p : Phase) (s : Spec V), s.phase = p → Proper p l →
      (l.foldl Spec.step s).phase ≠ .init →
      ∀ op : Op S V, (match op with | .registerStat _ => False | _ => True) → Proper p (l ++ [op]) := by
    intro l
    induction l with
    | nil =>
      intro p s hs _ hne op hop
      cases op <;> simp_all [Proper]
    | cons x l ih =>
      intro p s hs hpx hne op hop
      have hstep : (s.step x).phase = (Spec.step ({ phase := p } : Spec V) x).phase :=
        proper_phase _ _ hs
      cases x with
      | registerStat d => exact ⟨hpx.1, ih _ (s.step (.registerStat d)) (by simpa [Spec.step] using hs) hpx.2 hne op hop⟩
      | generate => exact ⟨hpx.1, ih _ (s.step .generate) (by simpa [Spec.step] using hs) hpx.2 hne op hop⟩
      | _ => exact ih _ (s.step _) hstep hpx hne op hop
  -- stop first, generate then
  have hstopI : Proper .init (ops ++ [.stopRecording now]) :=
    hprop ops .init {} rfl hp (by rw [show ops.foldl Spec.step {} = Spec.after ops from rfl, hrec]; simp) _ trivial
  have hregS : ∀ l m : List (Op S V), registered (l ++ m) = registered l ++ registered m := by
    intro l m
    induction l with
    | nil => rfl
    | cons x l ih => rw [List.cons_append, registered_cons, ih, ← List.append_assoc, ← registered_cons]
  have hreg : registered (ops ++ [.stopRecording now]) = registered ops := by
    rw [hregS]; simp [registered]
  have hafter : Spec.after (ops ++ [.stopRecording now]) =
      { (Spec.after ops) with phase := .stopped } := by
    simp only [Spec.after, List.foldl_append, List.foldl_cons, List.foldl_nil]
    rw [show ops.foldl Spec.step {} = Spec.after ops from rfl]
    simp [Spec.step, hrec]
  obtain ⟨b, b', outputs, e1, e2, e3, e4, e5⟩ := C13_generate dflt (ops ++ [.stopRecording now]) hstopI
    (by rw [hreg]; exact hf) (by rw [hafter]; simp)
  rw [happ] at e1
  have hb : a.stopRecording now = b := by simpa [exec] using e1
  have hbhard : b.hard = { a.hard with secondsElapsed := a.hard.secondsElapsed + (now - a.startTime) } := by
    rw [← hb]; simp [Agg.stopRecording, hph]
  have hbphase : b.phase = .stopped := by rw [← hb]; simp [Agg.stopRecording, hph]
  have hb'd : b'.descs = registered ops := by
    have := descs_exec e2
    rw [this, ← hb]; simp [Agg.stopRecording, hph, registered, hd]
  have hgenfields : b'.phase = b.phase ∧ b'.hard = b.hard ∧ b'.stats = b.stats := by
    simp only [exec, Agg.generate, Option.map_eq_some_iff] at e2
    obtain ⟨_, _, rfl⟩ := e2
    exact ⟨rfl, rfl, rfl⟩
  have hbs : b.stats = a.stats := by rw [← hb]; simp [Agg.stopRecording, hph]
  obtain ⟨stats, r1, r2, r3⟩ := reset_spec dflt b' (by rw [hgenfields.1, hbphase])
    (by rw [hgenfields.2.2, hbs, hb'd, ← hd]; exact h2.len (by simp [hph]))
    (by rw [hb'd]; exact hf)
  refine ⟨a, ({ b' with hard := b'.hard.reset, stats := stats } : Agg S V).startRecording now',
    outputs, b.hard, h1, ?_, hbhard, by rw [hreg] at e3; exact e3, ?_, ?_, ?_, ?_, ?_, ?_⟩
  · simp only [exec, Agg.snapshot]
    rw [if_neg (by simp [hph]), hb]
    simp only [exec] at e2
    rw [e2, Option.bind_some, r1, Option.map_some]
  · intro k d hk
    rw [hreg, hafter] at e4
    exact e4 k d hk
  · unfold Agg.startRecording
    rw [if_neg (by simp [hgenfields.1, hbphase])]
    simp only [e5]
    rw [← hb]; simp [Agg.stopRecording, hph]
  · unfold Agg.startRecording
    rw [if_neg (by simp [hgenfields.1, hbphase])]
  · intro k d hk
    unfold Agg.startRecording
    rw [if_neg (by simp [hgenfields.1, hbphase])]
    rw [← hb'd] at hk
    exact r3 k d hk
  · unfold Agg.startRecording
    rw [if_neg (by simp [hgenfields.1, hbphase])]
    simp [Hard.reset]
  · unfold Agg.startRecording
    rw [if_neg (by simp [hgenfields.1, hbphase])]

/-- Non-vacuity: values reported while not recording are dropped, a snapshot starts over. -/
example : (run 0 [.registerSink, .registerStat sumDesc, .registerStat sumDesc, .initialize,
    .update 0 9, .startRecording 1, .update 1 5, .update 0 7, .update 0 1, .snapshot 2 3,
    .update 0 8, .stopRecording 4, .generate] : Option (Agg Int Int)).map (·.sinks) =
    some [[.initialize 2, .setExperiment "unnamed",
      .process { secondsElapsed := 1 } [8, 5], .process { secondsElapsed := 1 } [8, 0]]] := by
  decide

/-! ## C14 -/

/-- The comma-separated fields of a line. -/
def fields : List Char → List (List Char)
  | [] => [[]]
  | c :: cs =>
    if c = ',' then [] :: fields cs
    else match fields cs with
      | [] => [[c]]
      | f :: fs => (c :: f) :: fs

theorem fields_ne_nil (l : List Char) : fields l ≠ [] := by
  cases l with
  | nil => simp [fields]
  | cons c cs => unfold fields; split <;> (try simp); split <;> simp

theorem fields_of_no_comma {w : List Char} (h : ',' ∉ w) : fields w = [w] := by
  induction w with
  | nil => rfl
  | cons c cs ih =>
    simp only [List.mem_cons, not_or] at h
    unfold fields
    rw [if_neg (fun e => h.1 e.symm), ih h.2]

theorem fields_append {w : List Char} (h : ',' ∉ w) (rest : List Char) :
    fields (w ++ ',' :: rest) = w :: fields rest := by
  induction w with
  | nil => simp [fields]
  | cons c cs ih =>
    simp only [List.mem_cons, not_or] at h
    rw [List.cons_append]
    conv => lhs; unfold fields
    rw [if_neg (fun e => h.1 e.symm), ih h.2]

/-- The loop body of the sink, as recursion on the entries. -/
theorem csvBody_cons (e f : List Char) (es : List (List Char)) :
    csvBody (e :: f :: es) = e ++ ',' :: csvBody (f :: es) := by
  unfold csvBody
  rw [List.length_cons, List.range_succ_eq_map, List.flatMap_cons, List.flatMap_map]
  simp only [List.getElem?_cons_zero, Option.getD_some, List.length_cons, List.getElem?_cons_succ]
  rw [if_pos (by omega)]
  simp only [List.append_assoc, List.cons_append, List.nil_append]
  congr 2
  congr 1
  funext x
  congr 1
  have : (x.succ < es.length + 1 + 1 - 1) ↔ (x < es.length + 1 - 1) := by omega
  simp only [Nat.succ_eq_add_one] at this
  simp only [this]

theorem csvBody_single (e : List Char) : csvBody [e] = e := by
  simp [csvBody]

theorem fields_csvBody (es : List (List Char)) (h : ∀ e ∈ es, ',' ∉ e) :
    fields (csvBody es) = if es = [] then [[]] else es := by
  induction es with
  | nil => rfl
  | cons e es ih =>
    rw [if_neg (by simp)]
    cases es with
    | nil => rw [csvBody_single, fields_of_no_comma (h e (by simp))]
    | cons f es =>
      rw [csvBody_cons, fields_append (h e (by simp)), ih (fun x hx => h x (by simp [hx])),
        if_neg (by simp)]

theorem strip_no_comma (s : List Char) : ',' ∉ strip s := by
  intro h
  have := (List.mem_filter.1 h).2
  revert this; decide

/-- C14: with at least one statistic, the header line and every row have four fields plus one
per statistic; the field of statistic `s` is its stripped description in the header, and in
the row its printed value, or empty when it is null.  `nat` and `real` are any printing
functions without commas. -/
theorem C14_csv_columns {D : Type _} (nat : Nat → List Char) (real : D → List Char)
    (hnat : ∀ n, ',' ∉ nat n) (hreal : ∀ d, ',' ∉ real d) (descriptions : List (List Char))
    (isTraining : Bool) (epoch iterations : Nat) (seconds : D) (stats : List (Option D))
    (hlen : stats.length = descriptions.length) (hpos : 0 < descriptions.length) :
    (fields (csvHeader descriptions)).length = 4 + descriptions.length ∧
    (fields (csvRow nat real isTraining epoch iterations seconds stats)).length =
      4 + descriptions.length ∧
    ∀ s (hs : s < descriptions.length),
      (fields (csvHeader descriptions))[4 + s]? = some (descriptions[s].filter Char.isAlphanum) ∧
      (fields (csvRow nat real isTraining epoch iterations seconds stats))[4 + s]? =
        some (match stats[s]'(by omega) with | some v => real v | none => []) := by
  have hh : fields (csvHeader descriptions) =
      ["IsTraining".toList, "Epoch".toList, "Iterations".toList, "SecondsElapsed".toList] ++
        descriptions.map strip := by
    unfold csvHeader
    rw [show "IsTraining,Epoch,Iterations,SecondsElapsed,".toList =
      "IsTraining".toList ++ ',' :: ("Epoch".toList ++ ',' :: ("Iterations".toList ++ ',' ::
        ("SecondsElapsed".toList ++ [',']))) from by decide]
    simp only [List.append_assoc, List.cons_append, List.nil_append]
    rw [fields_append (by decide), fields_append (by decide), fields_append (by decide),
      fields_append (by decide), fields_csvBody _ (by
        intro e he; obtain ⟨x, _, rfl⟩ := List.mem_map.1 he; exact strip_no_comma x)]
    rw [if_neg (by intro h; have := congrArg List.length h; simp at this; simp [this] at hpos)]
  have hr : fields (csvRow nat real isTraining epoch iterations seconds stats) =
      [if isTraining then "1".toList else "0".toList, nat epoch, nat iterations, real seconds] ++
        stats.map (fun | some v => real v | none => []) := by
    unfold csvRow
    simp only [List.append_assoc, List.cons_append, List.nil_append]
    rw [fields_append (by cases isTraining <;> decide), fields_append (hnat _),
      fields_append (hnat _), fields_append (hreal _), fields_csvBody _ (by
        intro e he; obtain ⟨x, _, rfl⟩ := List.mem_map.1 he; cases x with
        | none => simp
        | some v => exact hreal v)]
    have hne : stats ≠ [] := by rintro rfl; simp at hlen; omega
    cases stats with
    | nil => exact absurd rfl hne
    | cons x xs =>
      simp only [List.map_cons, reduceCtorEq, if_false]
      rfl
  refine ⟨by rw [hh]; simp; omega, by rw [hr]; simp; omega, ?_⟩
  intro s hs
  constructor
  · rw [hh, List.getElem?_append_right (by simp)]
    simp [List.getElem?_eq_getElem hs, strip]
  · rw [hr, List.getElem?_append_right (by simp)]
    have : s < stats.length := by omega
    simp [List.getElem?_eq_getElem this]

/-- C14 without statistics: header and rows have the same number of fields, too. -/
theorem C14_csv_no_statistics {D : Type _} (nat : Nat → List Char) (real : D → List Char)
    (hnat : ∀ n, ',' ∉ nat n) (hreal : ∀ d, ',' ∉ real d)
    (isTraining : Bool) (epoch iterations : Nat) (seconds : D) :
    (fields (csvHeader [])).length = 5 ∧
    (fields (csvRow nat real isTraining epoch iterations seconds [])).length = 5 := by
  constructor
  · decide
  · unfold csvRow
    simp only [List.append_assoc, List.cons_append, List.nil_append]
    rw [fields_append (by cases isTraining <;> decide), fields_append (hnat _),
      fields_append (hnat _), fields_append (hreal _)]
    simp [csvBody, fields]

example : csvHeader ["Loss (1/pixel)".toList, "FPS".toList] =
    "IsTraining,Epoch,Iterations,SecondsElapsed,Loss1pixel,FPS".toList := by decide
example : csvRow (fun n => n.repr.toList) (fun n : Nat => n.repr.toList) true 3 40 7 [none, some 5] =
    "1,3,40,7,,5".toList := by decide

end CN24.Props
