import Verif.Proof.SessionSource
import Verif.Proof.SessionRows
import Verif.Props.Sampling
import Mathlib.Algebra.BigOperators.Group.List.Basic

/-! C72: sessions of the training tool. -/

namespace CN24.Props
open CN24 CN24.Session

variable {R τ B : Type _} [Field R] [LinearOrder R]

def isTest : Command R → Bool
  | .test => true
  | _ => false

/-- The statistics are initialised and not recording. -/
def Idle (st : State R τ) : Prop := st.agg.stats.length = st.agg.descs.length ∧ st.agg.phase = .stopped

/-- A trainer that carries over no steps and no gradients. -/
def NoMomentum (opt : Trainer.State R) : Prop :=
  (∀ l ∈ opt.lastDeltas, ∀ v ∈ l, v = 0) ∧ (∀ l ∈ opt.lastGradients, ∀ v ∈ l, v = 0) ∧ opt.firstIteration = true

theorem clearAll_eq {b : List (List R)} : Trainer.clearAll b = b ↔ ∀ l ∈ b, ∀ v ∈ l, v = 0 := by
  unfold Trainer.clearAll
  constructor
  · intro h l hl v hv
    have h1 : (b.map fun l => l.map fun _ => (0 : R)) = b.map id := by rw [List.map_id]; exact h
    have h2 := List.map_inj_left.1 h1 l hl
    have h3 : (l.map fun _ => (0 : R)) = l.map id := by rw [List.map_id]; exact h2
    exact (List.map_inj_left.1 h3 v hv).symm
  · intro h
    have : (b.map fun l => l.map fun _ => (0 : R)) = b.map id := by
      refine List.map_inj_left.2 fun l hl => ?_
      have : (l.map fun _ => (0 : R)) = l.map id := List.map_inj_left.2 fun v hv => (h l hl v hv).symm
      rw [this, List.map_id]; rfl
    rw [this, List.map_id]

theorem rested_iff {opt : Trainer.State R} : Rested opt ↔ NoMomentum opt := by
  unfold Rested NoMomentum Trainer.reset
  rw [← clearAll_eq, ← clearAll_eq]
  constructor
  · intro h
    exact ⟨congrArg Trainer.State.lastDeltas h, congrArg Trainer.State.lastGradients h,
      (congrArg Trainer.State.firstIteration h).symm⟩
  · rintro ⟨h1, h2, h3⟩
    rw [h1, h2]
    cases opt
    cases h3
    rfl

variable {mode : τ → Bool} {Rel : τ → τ → Prop}

theorem run_between (m : Machine R τ B) (ha : Alike m.source mode Rel) (hu : Untouched m.source mode Rel) :
    ∀ (cs : List (Command R)) (st u st' : State R τ), Between m Rel st u → run m cs st = .done st' →
      ∃ u', run m (cs.filter fun c => !isTest c) u = .done u' ∧ Between m Rel st' u'
  | [], st, u, st', h, hd => by
    cases hd
    exact ⟨u, rfl, h⟩
  | c :: cs, st, u, st', h, hd => by
    obtain ⟨s1, p1, p2⟩ := bind_eq_done hd
    have same : ∀ u1, exec m c u = .done u1 → Between m Rel s1 u1 → isTest c = false →
        ∃ u', run m ((c :: cs).filter fun c => !isTest c) u = .done u' ∧ Between m Rel st' u' := by
      intro u1 q1 q2 ht
      obtain ⟨u', r1, r2⟩ := run_between m ha hu cs s1 u1 st' q2 p2
      refine ⟨u', ?_, r2⟩
      rw [List.filter_cons_of_pos (by simp [ht]), run, q1]
      exact r1
    cases c with
    | train n b =>
      obtain ⟨u1, q1, q2⟩ := train_cmd (c := b) ha h p1
      exact same u1 q1 q2 rfl
    | test =>
      obtain ⟨u', r1, r2⟩ := run_between m ha hu cs s1 u st' (test_cmd ha hu h p1) p2
      exact ⟨u', r1, r2⟩
    | setEpoch e =>
      cases p1
      refine same _ rfl ?_ rfl
      have hs : ∀ s : State R τ, (syncEpoch m s).epoch = s.epoch ∧ (syncEpoch m s).src = s.src ∧
          (syncEpoch m s).agg = s.agg := by intro s; rw [syncEpoch_cases]; exact ⟨rfl, rfl, rfl⟩
      refine ⟨?_, ?_, ?_, ?_, ?_, ?_, ?_, fun _ => rested_reset _⟩
      · dsimp only
        rw [syncEpoch_cases, syncEpoch_cases, h.opt]
      · dsimp only; rw [(hs _).1, (hs _).1]
      · dsimp only; rw [(hs _).2.1, (hs _).2.1]; exact h.src
      · dsimp only; rw [(hs _).2.2]; exact h.aggL
      · dsimp only; rw [(hs _).2.2]; exact h.aggR
      · dsimp only; rw [(hs _).2.2]; exact h.offL
      · dsimp only; rw [(hs _).2.2]; exact h.offR
    | reset w =>
      cases p1
      exact same _ rfl ⟨by rw [h.opt], h.epoch, h.src, h.aggL, h.aggR, h.offL, h.offR, fun _ => rested_reset _⟩ rfl
    | load w =>
      cases p1
      refine same _ rfl ⟨by rw [h.opt], h.epoch, h.src, h.aggL, h.aggR, h.offL, h.offR, fun hh => ?_⟩ rfl
      have := h.rest hh
      rw [rested_iff] at this ⊢
      exact this

/-- C72: testing does not influence training.  For every session, the same session without its test commands ends
with the same parameters, the same state of the trainer and the same epoch, and continues with samples that train
alike.  The sources are any for which a test leaves the training samples alone (`C72_input_layer`). -/
theorem C72_tests_do_not_matter (m : Machine R τ B) (ha : Alike m.source mode Rel) (hu : Untouched m.source mode Rel)
    (cs : List (Command R)) (st st' : State R τ) (hi : Idle st) (hm : NoMomentum st.opt) (hr : Rel st.src st.src)
    (hd : run m cs st = .done st') :
    ∃ u, run m (cs.filter fun c => !isTest c) st = .done u ∧ u.opt = st'.opt ∧ u.epoch = st'.epoch ∧
      Rel st'.src u.src := by
  obtain ⟨u, h1, h2⟩ := run_between m ha hu cs st st st'
    ⟨rfl, rfl, hr, hi.1, hi.1, hi.2, hi.2, fun _ => rested_iff.2 hm⟩ hd
  exact ⟨u, h1, h2.opt.symm, h2.epoch.symm, h2.src⟩

/-- C72: with one network for training and testing, the trainer carries nothing over from one command to the next. -/
theorem C72_nothing_carried_over (m : Machine R τ B) (ha : Alike m.source mode Rel) (hu : Untouched m.source mode Rel)
    (hh : m.hybrid = false) (cs : List (Command R)) (st st' : State R τ) (hi : Idle st) (hm : NoMomentum st.opt)
    (hr : Rel st.src st.src) (hd : run m cs st = .done st') : NoMomentum st'.opt := by
  obtain ⟨u, h1, h2⟩ := run_between m ha hu cs st st st'
    ⟨rfl, rfl, hr, hi.1, hi.1, hi.2, hi.2, fun _ => rested_iff.2 hm⟩ hd
  exact rested_iff.1 (h2.rest hh)

/-! ### The input layer -/

/-- C72: the dataset input layer is such a source: after any tests it delivers the same batches of training samples,
with the same dropped blocks, as if there had been none. -/
theorem C72_input_layer {G : Type _} (rnd : Sampling.Random R G) (hrnd : Shuffles rnd) (p : R) (ds : Sampling.Data R)
    (batch : Nat) (Fit : Outputs R → Prop) (ho : Overwrites ds batch Fit) (h1 : 0 < ds.training) (h2 : 0 < ds.testing) :
    Alike (layerSource rnd p ds batch) Sampling.State.testing (Same ds Fit) ∧
    Untouched (layerSource rnd p ds batch) Sampling.State.testing (Same ds Fit) ∧
    ∀ seed outs, Fit outs → Same ds Fit (Sampling.construct rnd ds seed outs) (Sampling.construct rnd ds seed outs) := by
  refine ⟨alike_layer hrnd p ho, untouched_layer p ho.good h2, fun seed outs hf => ⟨rfl, rfl, rfl, hf, hf, ?_, ?_⟩⟩
  · intro e he
    exact List.mem_range.1 ((hrnd seed _).mem_iff.1 he)
  · show 0 < (rnd.shuffle seed (List.range ds.training)).1.length
    rw [(hrnd seed _).length_eq, List.length_range]
    exact h1

theorem holds_fills {ef : Nat → Nat → Nat → Nat → R} {ds : TensorStreamDataset.Dataset R} {image label : Tensor R}
    {batch s : Nat} {o₁ o₂ r₁ r₂ : Outputs R} (f1 : OutputsFit ds batch r₁) (f2 : OutputsFit ds batch r₂)
    (e1 : OutputsFit ds batch o₁)
    (h1 : Holds ef ds image label s o₁ r₁) (h2 : Holds ef ds image label s o₂ r₂) :
    (AgreeT s o₁.data o₂.data → AgreeT (s + 1) r₁.data r₂.data) ∧
    (AgreeT s o₁.label o₂.label → AgreeT (s + 1) r₁.label r₂.label) ∧
    (AgreeT s o₁.helper o₂.helper → AgreeT (s + 1) r₁.helper r₂.helper) ∧
    ∀ x y m, r₁.error.InRange x y m s → r₁.error.get x y m s = r₂.error.get x y m s := by
  have sh := fun (a b c : Tensor R) (h : Tensor.Sh a b) (k : Tensor.Sh a c) => (Tensor.Sh.symm h).trans k
  refine ⟨?_, ?_, ?_, ?_⟩
  · intro ha x y m s' hin hs
    have k1 := (sh _ _ _ f1.data.1 f2.data.1).inRange.2 hin
    have k2 := (sh _ _ _ f1.data.1 e1.data.1).inRange.2 hin
    rw [h1.data x y m s' hin, h2.data x y m s' k1]
    split
    · rfl
    · exact ha x y m s' k2 (by omega)
  · intro ha x y m s' hin hs
    have k1 := (sh _ _ _ f1.label.1 f2.label.1).inRange.2 hin
    have k2 := (sh _ _ _ f1.label.1 e1.label.1).inRange.2 hin
    rw [h1.label x y m s' hin, h2.label x y m s' k1]
    split
    · rfl
    · exact ha x y m s' k2 (by omega)
  · intro ha x y m s' hin hs
    have k1 := (sh _ _ _ f1.helper.1 f2.helper.1).inRange.2 hin
    have k2 := (sh _ _ _ f1.helper.1 e1.helper.1).inRange.2 hin
    rw [h1.prior x y m s' hin, h2.prior x y m s' k1]
    split
    · rfl
    · exact ha x y m s' k2 (by omega)
  · intro x y m hin
    have k1 := (sh _ _ _ f1.error.1 f2.error.1).inRange.2 hin
    have hm0 : m = 0 := by
      have a := hin.2.2.1
      have b := f1.error.1.2.2.2
      dsimp only at b
      omega
    subst hm0
    by_cases hp : x < image.width ∧ y < image.height
    · obtain ⟨k, cw, best, a0, a1, a2, a3, a4⟩ := h1.inside x y hp.1 hp.2
      obtain ⟨k', cw', best', b0, b1, b2, b3, b4⟩ := h2.inside x y hp.1 hp.2
      -- the first class of the largest value
      have hk : k = k' := by
        rcases lt_trichotomy k k' with hlt | heq | hlt
        · exact absurd ((b3 k best a0 a2).2 hlt) (not_lt.2 (a3 k' best' b0 b2).1)
        · exact heq
        · exact absurd ((a3 k' best' b0 b2).2 hlt) (not_lt.2 (b3 k best a0 a2).1)
      subst hk
      rw [a1] at b1
      cases b1
      rw [a4, b4]
    · rw [h1.padding x y hin hp, h2.padding x y k1 hp]

/-- C72: a tensor stream dataset overwrites the whole position (see C30), whatever an earlier sample, of training or
testing, has left there. -/
theorem C72_tensor_stream (lowest : R) (ef : Nat → Nat → Nat → Nat → R) (ds : TensorStreamDataset.Dataset R) (batch : Nat)
    (htrain : ∀ i, i < ds.training.length / 2 → ∃ image label, ds.training[2 * i]? = some image ∧
      ds.training[2 * i + 1]? = some label ∧ PairFits ds lowest image label)
    (htest : ∀ i, i < ds.testing.length / 2 → ∃ image label, ds.testing[2 * i]? = some image ∧
      ds.testing[2 * i + 1]? = some label ∧ PairFits ds lowest image label) :
    Overwrites (ofTensorStream lowest ef ds) batch (OutputsFit ds batch) where
  good := C27_tensor_stream lowest ef ds batch htrain htest
  data := fun o h => ⟨h.data.2, h.data.1.1.symm⟩
  label := fun o h => ⟨h.label.2, h.label.1.1.symm⟩
  helper := fun o h => ⟨h.helper.2, h.helper.1.1.symm⟩
  shape := fun o₁ o₂ h1 h2 => ⟨(Tensor.Sh.symm h1.data.1).trans h2.data.1, (Tensor.Sh.symm h1.label.1).trans h2.label.1,
    (Tensor.Sh.symm h1.helper.1).trans h2.helper.1, (Tensor.Sh.symm h1.error.1).trans h2.error.1⟩
  fills := by
    intro o₁ o₂ s i r₁ r₂ h1 h2 hs hi e1 e2
    obtain ⟨image, label, k1, k2, k3⟩ := htrain i hi
    obtain ⟨a, a1, a2, a3⟩ := C30_training_sample lowest ef ds batch o₁ h1 s i hs image label k1 k2 k3
    obtain ⟨b, b1, b2, b3⟩ := C30_training_sample lowest ef ds batch o₂ h2 s i hs image label k1 k2 k3
    have q1 : (ofTensorStream lowest ef ds).getTraining o₁ s i = some (true, a) := a1
    have q2 : (ofTensorStream lowest ef ds).getTraining o₂ s i = some (true, b) := b1
    rw [q1] at e1
    rw [q2] at e2
    cases e1
    cases e2
    exact holds_fills a2 b2 h1 a3 b3

/-- C72 for a network trained from a tensor stream dataset whose pairs fit: the parameters after a session do not
depend on its tests. -/
theorem C72_tests_do_not_matter_stream {G : Type _} (m : Machine R (Sampling.State R G) (Outputs R))
    (rnd : Sampling.Random R G) (hrnd : Shuffles rnd) (p lowest : R) (ef : Nat → Nat → Nat → Nat → R)
    (ds : TensorStreamDataset.Dataset R) (batch : Nat)
    (htrain : ∀ i, i < ds.training.length / 2 → ∃ image label, ds.training[2 * i]? = some image ∧
      ds.training[2 * i + 1]? = some label ∧ PairFits ds lowest image label)
    (htest : ∀ i, i < ds.testing.length / 2 → ∃ image label, ds.testing[2 * i]? = some image ∧
      ds.testing[2 * i + 1]? = some label ∧ PairFits ds lowest image label)
    (h1 : 0 < ds.training.length / 2) (h2 : 0 < ds.testing.length / 2)
    (hm : m.source = layerSource rnd p (ofTensorStream lowest ef ds) batch) (seed : G) (outs : Outputs R)
    (hf : OutputsFit ds batch outs) (cs : List (Command R)) (st st' : State R (Sampling.State R G)) (hi : Idle st)
    (ho : NoMomentum st.opt) (hs : st.src = Sampling.construct rnd (ofTensorStream lowest ef ds) seed outs)
    (hd : run m cs st = .done st') :
    ∃ u, run m (cs.filter fun c => !isTest c) st = .done u ∧ u.opt = st'.opt ∧ u.epoch = st'.epoch := by
  obtain ⟨a1, a2, a3⟩ := C72_input_layer rnd hrnd p (ofTensorStream lowest ef ds) batch (OutputsFit ds batch)
    (C72_tensor_stream lowest ef ds batch htrain htest) h1 h2
  rw [← hm] at a1 a2
  obtain ⟨u, k1, k2, k3, _⟩ := C72_tests_do_not_matter m a1 a2 cs st st' hi ho (by rw [hs]; exact a3 seed outs hf) hd
  exact ⟨u, k1, k2, k3⟩

/-! ### One command or several -/

/-- The source alone determines what it does. -/
theorem alike_eq (s : Source τ B) (mode : τ → Bool) (hm : ∀ b t, mode (s.setTesting b t) = b)
    (hs : ∀ t b t', s.forward t = .done (b, t') → mode t' = mode t) : Alike s mode Eq where
  setMode := hm
  set := fun t u h => by rw [h]
  step := fun t u b t' h1 h2 h3 h4 => by
    subst h3
    exact ⟨t', h4, rfl, (hs t b t' h4).trans h1, (hs t b t' h4).trans h1⟩

theorem train_begin' {m : Machine R τ B} {O : Trainer.State R → Trainer.State R → Prop} (hrefl : ∀ x, O x x)
    {st : State R τ} (hi : Idle st) : Sim O (Eq : τ → τ → Prop)
    (setIsTesting false (setHard (fun h => { h with weights := m.weightCount }) (startRecording m st)))
    (setIsTesting false (setHard (fun h => { h with weights := m.weightCount }) (startRecording m st))) := by
  have e1 := startRecording_agg m st hi.2
  refine ⟨hrefl _, rfl, rfl, rfl, ?_, ?_, ?_, ?_⟩
  · show AggOk { (startRecording m st).agg with hard := _ }; rw [e1]; exact hi.1
  · show AggOk { (startRecording m st).agg with hard := _ }; rw [e1]; exact hi.1
  · show (startRecording m st).agg.phase = _; rw [e1]
  · show (startRecording m st).agg.phase = _; rw [e1]

theorem split_core (m : Machine R τ B) (hm : ∀ b t, mode (m.source.setTesting b t) = b)
    (hs : ∀ t b t', m.source.forward t = .done (b, t') → mode t' = mode t)
    {O : Trainer.State R → Trainer.State R → Prop} (hO : Optim m O) (hrefl : ∀ x, O x x)
    (hsync : ∀ x y, O x y → O (if m.hybrid then x else Trainer.reset x) y) (x y : Nat)
    (a b c : Bool) (st st' : State R τ) (hi : Idle st) (hd : run m [.train x a, .train y b] st = .done st') :
    ∃ u v, run m [.train (x + y) c] st = .done u ∧ u.opt = (if m.hybrid then v else Trainer.reset v) ∧ O st'.opt v ∧
      u.epoch = st'.epoch ∧ u.src = st'.src := by
  have ha := alike_eq m.source mode hm hs
  obtain ⟨s1, p1, p2⟩ := bind_eq_done hd
  obtain ⟨s2, p3, p4⟩ := bind_eq_done p2
  cases p4
  obtain ⟨t1, q1, q2⟩ := bind_eq_done p1
  obtain ⟨t2, q3, q4⟩ := bind_eq_done p3
  have sync := syncEpoch_cases m (R := R) (τ := τ)
  have loop : ∀ n (a c : Bool) s u s1, Sim O (Eq : τ → τ → Prop) s u → forO n (fun _ => trainStep m a) s = .done s1 →
      ∃ u1, forO n (fun _ => trainStep m c) u = .done u1 ∧ Sim O Eq s1 u1 := by
    intro n a c
    induction n with
    | zero => intro s u s1 hs h1; cases h1; exact ⟨u, rfl, hs⟩
    | succ n ih =>
      intro s u s1 hs h1
      obtain ⟨s2, h2, h3⟩ := bind_eq_done h1
      obtain ⟨u2, k1, k2⟩ := ih s u s2 hs h2
      obtain ⟨u3, k3, k4⟩ := trainStep_sim (c := c) hO ha k2 h3
      exact ⟨u3, by rw [forO, k1]; exact k3, k4⟩
  obtain ⟨v1, r1, r2⟩ := loop x a c _ _ t1 (train_begin' hrefl hi) q1
  obtain ⟨agg, t, f1, f2, f3⟩ := finish m (!a) (syncEpoch m t1) (by rw [sync]; exact r2.aggL) (by rw [sync]; exact r2.recL)
  rw [f1, sync] at q2
  cases q2
  have e2 := startRecording_agg m { t1 with testEpoch := t1.epoch, opt := if m.hybrid then t1.opt else Trainer.reset t1.opt, agg := agg, ticks := t } f3
  -- the second command goes on where the first ended
  have flag : v1.isTesting = false := by
    have h1 := forO_keep (P := fun _ (s : State R τ) => s.isTesting = false) (f := fun _ => trainStep m c) (n := x)
      (by
        intro i _ s s' hs hd
        obtain ⟨z1, z2, z3⟩ := bind_eq_done hd
        obtain ⟨z4, z5, z6⟩ := bind_eq_done z2
        cases z6
        have hz4 : z4.isTesting = false := by
          have key := fun hp h0 => forO_keep (P := fun _ (s : State R τ) => s.isTesting = false) (f := iteration m)
            (n := m.iterations) hp h0 z5
          refine key ?_ hs
          intro i _ s s' hs hd
          obtain ⟨x1, x2, x3⟩ := bind_eq_done hd
          obtain ⟨x4, x5, x6⟩ := bind_eq_done x3
          obtain ⟨x7, x8, x9⟩ := bind_eq_done x6
          cases x9
          dsimp only
          split
          · exact hs
          · exact hs
        cases c
        · cases z3; exact hz4
        · obtain ⟨y1, y2, y3⟩ := bind_eq_done z3
          obtain ⟨y4, y5, y6⟩ := bind_eq_done y2
          cases y6
          cases y3
          exact hz4) rfl r1
    exact h1
  have key := fun h => loop y b c _ v1 t2 h q3
  obtain ⟨v2, r3, r4⟩ := key (by
    refine ⟨hsync _ _ r2.opt, r2.epoch, flag.symm, r2.src, ?_, r2.aggR, ?_, r2.recR⟩
    · show AggOk { (startRecording m { t1 with testEpoch := t1.epoch, opt := if m.hybrid then t1.opt else Trainer.reset t1.opt, agg := agg, ticks := t }).agg with hard := _ }
      rw [e2]; exact f2
    · show (startRecording m { t1 with testEpoch := t1.epoch, opt := if m.hybrid then t1.opt else Trainer.reset t1.opt, agg := agg, ticks := t }).agg.phase = _
      rw [e2])
  obtain ⟨agg2, t2', f1', f2', f3'⟩ := finish m (!b) (syncEpoch m t2) (by rw [sync]; exact r4.aggL) (by rw [sync]; exact r4.recL)
  rw [f1', sync] at q4
  cases q4
  obtain ⟨agg3, t3', f1'', f2'', f3''⟩ := finish m (!c) (syncEpoch m v2) (by rw [sync]; exact r4.aggR) (by rw [sync]; exact r4.recR)
  refine ⟨{ v2 with testEpoch := v2.epoch, opt := if m.hybrid then v2.opt else Trainer.reset v2.opt, agg := agg3, ticks := t3' }, v2.opt, ?_, rfl, hsync _ _ r4.opt, r4.epoch.symm, r4.src.symm⟩
  rw [sync] at f1''
  show (exec m (.train (x + y) c) st).bind (run m []) = _
  have : exec m (.train (x + y) c) st = .done { v2 with testEpoch := v2.epoch, opt := if m.hybrid then v2.opt else Trainer.reset v2.opt, agg := agg3, ticks := t3' } := by
    show (train m (x + y) c (startRecording m st)).bind _ = _
    unfold train
    rw [forO_add, r1, Outcome.bind_done, r3, Outcome.bind_done, sync]
    exact f1''
  rw [this]
  rfl

/-- C72: with a second network for testing, training in two commands is training in one, with snapshots or without. -/
theorem C72_split_hybrid (m : Machine R τ B) (hm : ∀ b t, mode (m.source.setTesting b t) = b)
    (hs : ∀ t b t', m.source.forward t = .done (b, t') → mode t' = mode t) (hh : m.hybrid = true) (x y : Nat)
    (a b c : Bool) (st st' : State R τ) (hi : Idle st) (hd : run m [.train x a, .train y b] st = .done st') :
    ∃ u, run m [.train (x + y) c] st = .done u ∧ u.opt = st'.opt ∧ u.epoch = st'.epoch ∧ u.src = st'.src := by
  obtain ⟨u, v, h1, h2, h3, h4, h5⟩ := split_core m hm hs (optim_eq m) (fun _ => rfl)
    (fun x y h => by rw [hh]; exact h) x y a b c st st' hi hd
  rw [hh, if_pos rfl] at h2
  exact ⟨u, h1, h2.trans h3.symm, h4, h5⟩

/-- The sizes of the parameters. -/
abbrev sizes' (x : Trainer.State R) := Trainer.sizes x.weights

/-- Trainers with the same parameters. -/
structure Near (x y : Trainer.State R) : Prop where
  weights : x.weights = y.weights
  acc : x.accumulated = y.accumulated
  deltas : x.lastDeltas.map List.length = y.lastDeltas.map List.length

theorem at2_shape {a b : List (List R)} (h : a.map List.length = b.map List.length) (i j : Nat) :
    (Trainer.at2 a i j).isSome = (Trainer.at2 b i j).isSome := by
  unfold Trainer.at2 rd
  have h1 : a[i]?.map List.length = b[i]?.map List.length := by
    rw [← List.getElem?_map, ← List.getElem?_map, h]
  cases ha : a[i]? with
  | none =>
    cases hb : b[i]? with
    | none => rfl
    | some l => rw [ha, hb] at h1; cases h1
  | some k =>
    cases hb : b[i]? with
    | none => rw [ha, hb] at h1; cases h1
    | some l =>
      rw [ha, hb] at h1
      simp only [Option.map_some, Option.some.injEq] at h1
      simp only [Option.bind_some]
      by_cases hj : j < k.length
      · rw [List.getElem?_eq_getElem hj, List.getElem?_eq_getElem (by omega)]; rfl
      · rw [List.getElem?_eq_none (by omega), List.getElem?_eq_none (by omega)]

theorem updateWeight_near {cfg : Trainer.Settings R} (hm : cfg.momentum = 0) (hg : cfg.method = .gradientDescent) (lr : R)
    (localLr : List R) (c : Trainer.Cell) {x y x' : Trainer.State R} (h : Near x y)
    (e : Trainer.updateWeight cfg lr localLr c x = some x') :
    ∃ y', Trainer.updateWeight cfg lr localLr c y = some y' ∧ Near x' y' := by
  unfold Trainer.updateWeight at e ⊢
  rw [hg, hm] at e ⊢
  rw [← h.weights, ← h.acc]
  simp only [Option.bind_eq_some_iff, Option.map_eq_some_iff, zero_mul, add_zero] at e ⊢
  obtain ⟨l, e1, w, e2, g, e3, d, e4, ws, e5, ds, e6, rfl⟩ := e
  have hd : (Trainer.at2 y.lastDeltas c.flat c.elem).isSome := by
    rw [← at2_shape h.deltas, e4]; rfl
  obtain ⟨d', hd'⟩ := Option.isSome_iff_exists.1 hd
  obtain ⟨ds', hs'⟩ := Trainer.set2_ok hd' (lr * Trainer.direction cfg l g w)
  exact ⟨_, ⟨l, e1, w, e2, g, e3, d', hd', ws, e5, ds', hs', rfl⟩, rfl, rfl,
    by rw [Trainer.set2_lengths e6, Trainer.set2_lengths hs', h.deltas]⟩

theorem optim_near (m : Machine R τ B) (hm : m.cfg.momentum = 0) (hg : m.cfg.method = .gradientDescent) :
    Optim m Near where
  weights := fun _ _ h => h.weights
  acc := fun _ _ h => h.acc
  step := by
    intro lr acc x y x' h e
    have h0 : Near { x with accumulated := acc } { y with accumulated := acc } := ⟨h.weights, rfl, h.deltas⟩
    unfold Trainer.applyGradients at e ⊢
    rw [Trainer.visit_eq] at e ⊢
    have : (sizes' y) = (sizes' x) := by unfold sizes'; rw [h.weights]
    show ∃ y', (Trainer.cells (sizes' y)).foldlM _ _ = some y' ∧ _
    rw [this]
    change (Trainer.cells (sizes' x)).foldlM _ _ = some x' at e
    generalize Trainer.cells (sizes' x) = cs at e
    generalize ({ x with accumulated := acc } : Trainer.State R) = s at e h0
    generalize ({ y with accumulated := acc } : Trainer.State R) = u at h0
    clear this h
    induction cs generalizing s u with
    | nil => cases e; exact ⟨u, rfl, h0⟩
    | cons c cs ih =>
      rw [List.foldlM_cons] at e ⊢
      simp only [Option.bind_eq_bind, Option.bind_eq_some_iff] at e
      obtain ⟨s1, e1, e2⟩ := e
      obtain ⟨u1, k1, k2⟩ := updateWeight_near hm hg lr m.localLr c h0 e1
      obtain ⟨u2, k3, k4⟩ := ih s1 e2 u1 k2
      refine ⟨u2, ?_, k4⟩
      rw [k1]
      exact k3

omit [LinearOrder R] in
theorem clearAll_lengths (b : List (List R)) : (Trainer.clearAll b).map List.length = b.map List.length := by
  unfold Trainer.clearAll
  rw [List.map_map]
  apply List.map_congr_left
  intro l _
  simp

/-- C72: with one network for training and testing, training in two commands is training in one if the trainer uses
gradient descent without momentum. -/
theorem C72_split_partial (m : Machine R τ B) (hm : ∀ b t, mode (m.source.setTesting b t) = b)
    (hs : ∀ t b t', m.source.forward t = .done (b, t') → mode t' = mode t) (hmom : m.cfg.momentum = 0)
    (hgd : m.cfg.method = .gradientDescent) (x y : Nat)
    (a b c : Bool) (st st' : State R τ) (hi : Idle st) (hd : run m [.train x a, .train y b] st = .done st') :
    ∃ u, run m [.train (x + y) c] st = .done u ∧ u.opt.weights = st'.opt.weights ∧ u.epoch = st'.epoch ∧
      u.src = st'.src := by
  obtain ⟨u, v, h1, h2, h3, h4, h5⟩ := split_core m hm hs (optim_near m hmom hgd) (fun _ => ⟨rfl, rfl, rfl⟩)
    (fun x y h => by
      split
      · exact h
      · exact ⟨h.weights, h.acc, by rw [← h.deltas]; exact clearAll_lengths _⟩) x y a b c st st' hi hd
  refine ⟨u, h1, ?_, h4, h5⟩
  rw [h2, h3.weights]
  split <;> rfl

/-! ### What is written -/

/-- The rows of a session that starts at epoch `e`, where the last epoch written was `l`: mode, epoch and number of
iterations. -/
def sessionRows (its testIts : Nat) : Nat → Nat → List (Command R) → List (Bool × Nat × Nat)
  | _, _, [] => []
  | e, l, .train n true :: cs =>
    (List.range n).map (fun i => (true, (e + i) % 2 ^ 32, its)) ++
      sessionRows its testIts ((e + n) % 2 ^ 32) (if n = 0 then l else (e + n - 1) % 2 ^ 32) cs
  | e, l, .train n false :: cs =>
    (true, (if n = 0 then l else (e + n - 1) % 2 ^ 32), n * its) ::
      sessionRows its testIts ((e + n) % 2 ^ 32) (if n = 0 then l else (e + n - 1) % 2 ^ 32) cs
  | e, l, .test :: cs => (false, l, testIts) :: sessionRows its testIts e l cs
  | _, l, .setEpoch e :: cs => sessionRows its testIts e l cs
  | e, l, .reset _ :: cs => sessionRows its testIts e l cs
  | e, l, .load _ :: cs => sessionRows its testIts e l cs

/-- The commands name epochs of 32 bits. -/
def EpochsFit (cs : List (Command R)) : Prop := ∀ e, Command.setEpoch e ∈ cs → e < 2 ^ 32

/-- C72: the rows every sink gets in a session.  Each epoch of a training command with snapshots has its row, a
training command without has one, and each test has one; the numbers are those of the command.  The epoch of a test
is that of the last row before (see `C72_stale_epoch`). -/
theorem C72_rows (m : Machine R τ B) (cs : List (Command R)) (hcs : EpochsFit cs) (st st' : State R τ) (hi : Idle st)
    (hz : st.agg.hard.iterations = 0) (he : st.epoch < 2 ^ 32) (hd : run m cs st = .done st') :
    st'.agg.sinks.map rows = st.agg.sinks.map fun s =>
      rows s ++ sessionRows m.iterations m.testIterations st.epoch st.agg.hard.epoch cs := by
  induction cs generalizing st with
  | nil =>
    cases hd
    simp [sessionRows]
  | cons c cs ih =>
    obtain ⟨s1, p1, p2⟩ := bind_eq_done hd
    have hcs' : EpochsFit cs := fun e h => hcs e (List.mem_cons_of_mem _ h)
    have u32lt : ∀ a, Trainer.u32 a < 2 ^ 32 := fun a => Nat.mod_lt _ (by decide)
    -- a command that writes `l`
    have go : ∀ l, Wrote st.agg s1.agg l → AggOk s1.agg → s1.agg.phase = .stopped → s1.agg.hard.iterations = 0 →
        s1.epoch < 2 ^ 32 → sessionRows m.iterations m.testIterations st.epoch st.agg.hard.epoch (c :: cs) =
          l ++ sessionRows m.iterations m.testIterations s1.epoch s1.agg.hard.epoch cs →
        st'.agg.sinks.map rows = st.agg.sinks.map fun s =>
          rows s ++ sessionRows m.iterations m.testIterations st.epoch st.agg.hard.epoch (c :: cs) := by
      intro l w1 w2 w3 w4 w5 w6
      have h2 := ih hcs' s1 ⟨w2, w3⟩ w4 w5 p2
      rw [w6]
      exact w1.trans h2
    have e0 := startRecording_agg m st hi.2
    have hsync : ∀ s : State R τ, (syncEpoch m s).agg = s.agg ∧ (syncEpoch m s).epoch = s.epoch := by
      intro s; rw [syncEpoch_cases]; exact ⟨rfl, rfl⟩
    cases c with
    | train n b =>
      obtain ⟨t1, q1, q2⟩ := bind_eq_done p1
      have hagg : (setIsTesting false (setHard (fun h => { h with weights := m.weightCount })
          (startRecording m st))).agg =
          { st.agg with startTime := m.clock st.ticks, phase := .recording, hard := { st.agg.hard with weights := m.weightCount, isTraining := true } } := by
        show { (startRecording m st).agg with hard := { (startRecording m st).agg.hard with weights := m.weightCount, isTraining := true } } = _
        rw [e0]
      have o1 : AggOk (setIsTesting false (setHard (fun h => { h with weights := m.weightCount })
          (startRecording m st))).agg := by rw [hagg]; exact hi.1
      have o2 : (setIsTesting false (setHard (fun h => { h with weights := m.weightCount })
          (startRecording m st))).agg.phase = .recording := by rw [hagg]
      have o3 : (setIsTesting false (setHard (fun h => { h with weights := m.weightCount })
          (startRecording m st))).agg.hard.iterations = 0 := by rw [hagg]; exact hz
      have o4 : (setIsTesting false (setHard (fun h => { h with weights := m.weightCount })
          (startRecording m st))).agg.hard.isTraining = true := by rw [hagg]
      have o5 : (setIsTesting false (setHard (fun h => { h with weights := m.weightCount })
          (startRecording m st))).agg.hard.epoch = st.agg.hard.epoch := by rw [hagg]
      have o6 : (setIsTesting false (setHard (fun h => { h with weights := m.weightCount })
          (startRecording m st))).agg.sinks = st.agg.sinks := by rw [hagg]
      have o7 : (setIsTesting false (setHard (fun h => { h with weights := m.weightCount })
          (startRecording m st))).epoch = st.epoch := rfl
      unfold train at q1
      revert o1 o2 o3 o4 o5 o6 o7 q1
      generalize (setIsTesting false (setHard (fun h => { h with weights := m.weightCount })
          (startRecording m st))) = s0
      intro q1 o1 o2 o3 o4 o5 o6 o7
      obtain ⟨g1, g2⟩ := hsync t1
      cases b
      · obtain ⟨a1, a2, a3, a4, a5, a6, a7, a8⟩ := train_plain n o1 o2 (by rw [o7]; exact he) q1
        obtain ⟨b1, b2, b3, b4, b5, b6, b7, _⟩ := finish_rows true (st := syncEpoch m t1) (by rw [g1]; exact a1)
          (by rw [g1]; exact a2) q2
        rw [g1] at b6 b7
        rw [if_pos rfl, a5, o4, a7, a6, o3, Nat.zero_add, o5, o7] at b7
        refine go [(true, (if n = 0 then st.agg.hard.epoch else Trainer.u32 (st.epoch + n - 1)), n * m.iterations)] ?_
          b1 b2 b5 (by rw [b4, g2, a4]; exact u32lt _) ?_
        · unfold Wrote at b7 ⊢
          rw [a8, o6] at b7
          exact b7
        · rw [b4, g2, a4, b6, a7, o5, o7]
          rfl
      · obtain ⟨a1, a2, a3, a4, a5, a6, a7, a8⟩ := train_rows n o1 o2 (by rw [o7]; exact he) o3 q1
        obtain ⟨b1, b2, b3, b4, b5, b6, b7, _⟩ := finish_rows false (st := syncEpoch m t1) (by rw [g1]; exact a1)
          (by rw [g1]; exact a2) q2
        rw [g1] at b6 b7
        have w := a8.trans b7
        rw [if_neg (by simp), List.append_nil, o4, o7] at w
        refine go ((List.range n).map fun i => (true, Trainer.u32 (st.epoch + i), m.iterations)) ?_
          b1 b2 b5 (by rw [b4, g2, a4]; exact u32lt _) ?_
        · unfold Wrote at w ⊢
          rw [o6] at w
          exact w
        · rw [b4, g2, a4, b6, a7, o5, o7]
          rfl
    | test =>
      obtain ⟨t1, q1, q2⟩ := bind_eq_done p1
      obtain ⟨g1, g2⟩ := hsync (startRecording m st)
      obtain ⟨k, k2, _⟩ := test_rows (st := syncEpoch m (startRecording m st))
        (by rw [g1, e0]; exact hi.1) (by rw [g1, e0]) q1
      obtain ⟨b1, b2, b3, b4, b5, b6, b7, _⟩ := finish_rows true k.ok k.phase q2
      have hk := k.hard
      rw [g1, e0] at hk
      refine go [(false, st.agg.hard.epoch, m.testIterations)] ?_ b1 b2 b5 (by rw [b4, k2, g2]; exact he) ?_
      · rw [if_pos rfl, hk] at b7
        dsimp only at b7
        rw [hz, Nat.zero_add] at b7
        unfold Wrote at b7 ⊢
        rw [k.sinks, g1, e0] at b7
        exact b7
      · rw [b4, k2, g2, b6, hk]
        rfl
    | setEpoch e =>
      cases p1
      refine go [] ?_ ?_ ?_ ?_ ?_ ?_
      · dsimp only; rw [(hsync _).1]; exact Wrote.refl _
      · dsimp only; rw [(hsync _).1]; exact hi.1
      · dsimp only; rw [(hsync _).1]; exact hi.2
      · dsimp only; rw [(hsync _).1]; exact hz
      · dsimp only; rw [(hsync _).2]; exact hcs e (List.mem_cons_self ..)
      · dsimp only; rw [(hsync _).1, (hsync _).2]; rfl
    | reset w =>
      cases p1
      exact go [] (Wrote.refl _) hi.1 hi.2 hz he rfl
    | load w =>
      cases p1
      exact go [] (Wrote.refl _) hi.1 hi.2 hz he rfl

/-- C72: a test writes one row to every sink; its loss is the sum of the losses of its batches, over the number of
iterations times the size of a batch.  The batches are those the network for testing sees from its current state. -/
theorem C72_test_loss (m : Machine R τ B) (st st' : State R τ) (hi : Idle st) (hz : st.agg.hard.iterations = 0)
    (hl : st.agg.descs[m.lossId]? = some lossDesc) (hs : st.agg.stats[m.lossId]? = some none)
    (hd : exec m .test st = .done st') :
    ∃ bs hard outs,
      (if m.hybrid then ∃ t, batches m.testSource m.testIterations (m.testSource.setTesting true st.testSrc) = .done (bs, t)
        else ∃ t, batches m.source m.testIterations (m.source.setTesting true st.src) = .done (bs, t)) ∧
      st'.agg.sinks = st.agg.sinks.map (· ++ [.process hard outs]) ∧
      outs[m.lossId]? = some (if 0 < m.testIterations then
        some ((bs.map fun b => if m.hybrid then m.testLoss true st.opt.weights b else m.loss true st.opt.weights b).sum /
          ((m.testIterations : R) * ((if m.hybrid then m.testSampleCount else m.cfg.sampleCount : Nat) : R)))
        else none) := by
  obtain ⟨t1, q1, q2⟩ := bind_eq_done hd
  have e0 := startRecording_agg m st hi.2
  have g1 : (syncEpoch m (startRecording m st)).agg = (startRecording m st).agg := by rw [syncEpoch_cases]
  have g2 : (syncEpoch m (startRecording m st)).opt.weights = st.opt.weights := by
    rw [syncEpoch_cases]
    cases m.hybrid <;> rfl
  have g3 : (syncEpoch m (startRecording m st)).src = st.src ∧ (syncEpoch m (startRecording m st)).testSrc = st.testSrc := by
    rw [syncEpoch_cases]; exact ⟨rfl, rfl⟩
  obtain ⟨k, k2, bs, k3, k4, k5⟩ := test_rows (st := syncEpoch m (startRecording m st))
    (by rw [g1, e0]; exact hi.1) (by rw [g1, e0]) q1
  obtain ⟨x, x1, x2⟩ := k5 (by rw [g1, e0]; exact hl) (by rw [g1, e0]; exact hs)
  obtain ⟨b1, b2, b3, b4, b5, b6, b7, b8⟩ := finish_rows true k.ok k.phase q2
  obtain ⟨hard, outs, c1, c2, c3⟩ := b8 rfl
  have hk := k.hard
  rw [g1, e0] at hk
  have hsk := k.sinks
  rw [g1, e0] at hsk
  rw [g3.1, g3.2] at k4
  refine ⟨bs, hard, outs, k4, by rw [c2, hsk], ?_⟩
  rw [c3 m.lossId lossDesc x (by rw [k.descs, g1, e0]; exact hl) x1]
  have hit : hard.iterations = m.testIterations := by
    rw [c1, hk]; dsimp only; rw [hz, Nat.zero_add]
  have hsum : ∀ (f : B → R) (c : R), (bs.map fun b => f b / c).sum = (bs.map f).sum / c := by
    intro f c
    clear k3 k4 k5 x2
    induction bs with
    | nil => simp
    | cons b bs ih => rw [List.map_cons, List.sum_cons, List.map_cons, List.sum_cons, add_div, ih]
  simp only [lossDesc, hit]
  split
  · rw [x2, g2]
    cases m.hybrid
    · simp only [Bool.false_eq_true, if_false, hsum]
      rw [div_div, mul_comm]
    · simp only [if_true, hsum]
      rw [div_div, mul_comm]
  · rfl

/-! ### Where the property fails -/

/-- A network with one parameter, whose gradient is always 1. -/
def oneWeight (hybrid : Bool) (momentum : ℚ) : Machine ℚ Unit Unit where
  hybrid := hybrid
  cfg := ⟨0, 0, momentum, 7 / 4, .gradientDescent, 1, 1, 1⟩
  rate := fun _ => 1
  localLr := [1]
  iterations := 1
  testIterations := 1
  weightCount := 1
  source := ⟨fun _ t => t, fun t => .done ((), t)⟩
  testSource := ⟨fun _ t => t, fun t => .done ((), t)⟩
  testSampleCount := 1
  gradients := fun _ _ _ => [[[1]]]
  loss := fun _ w _ => (Trainer.at3 w 0 0 0).getD 0
  testLoss := fun _ w _ => (Trainer.at3 w 0 0 0).getD 0
  lossId := 0
  clock := fun n => n

def oneState : Session.State ℚ Unit where
  opt := Trainer.construct [[[0]]]
  epoch := 0
  testEpoch := 0
  src := ()
  testSrc := ()
  isTesting := false
  agg := { phase := .stopped, stats := [none], descs := [lossDesc], sinks := [[]] }
  ticks := 0

/-- The parameters after a session. -/
def weightsAfter {R τ : Type _} : Outcome (Session.State R τ) → Option (Weights R)
  | .done st => some st.opt.weights
  | _ => none

/-- The first sink after a session. -/
def sinkAfter {R τ : Type _} : Outcome (Session.State R τ) → Option (List (Bool × Nat × Nat))
  | .done st => st.agg.sinks.head?.map rows
  | _ => none

/-- With one network for training and testing, training two epochs in two commands differs from training them in one
if there is momentum: every training command ends with a reset of the trainer. -/
theorem C72_momentum_lost :
    weightsAfter (run (oneWeight false (1 / 2)) [.train 2 false] oneState) = some [[[-5 / 2]]] ∧
    weightsAfter (run (oneWeight false (1 / 2)) [.train 1 false, .train 1 false] oneState) = some [[[-2]]] := by
  decide +kernel

/-- With a second network for testing it is the other way round: the momentum survives loading other parameters. -/
theorem C72_momentum_survives_load :
    weightsAfter (run (oneWeight true (1 / 2)) [.train 1 false, .load [[[0]]], .train 1 false] oneState) =
      some [[[-3 / 2]]] ∧
    weightsAfter (run (oneWeight true (1 / 2)) [.load [[[0]]], .train 1 false] oneState) = some [[[-1]]] := by
  decide +kernel

/-- The row of a test names the epoch of the last row, not the epoch that was set. -/
theorem C72_stale_epoch :
    sinkAfter (run (oneWeight false 0) [.train 1 true, .setEpoch 10, .test, .train 1 true] oneState) =
      some [(true, 0, 1), (false, 0, 1), (true, 10, 1)] := by
  decide +kernel

/-- The average of a test is taken over more positions than there are samples: `C72_test_loss` divides by at least
the number of samples plus one, for every number of samples that a `float` counts exactly. -/
theorem C72_diluted (samples batch : Nat) (hb : 0 < batch) (hs : samples + 1 < 2 ^ 24) :
    samples < Trainer.testIterations samples batch * batch := by
  unfold Trainer.testIterations
  have h1 : samples / batch ≤ samples := Nat.div_le_self ..
  unfold Pooling.toF32
  rw [if_pos (by omega), Nat.mul_comm]
  exact Nat.lt_mul_div_succ samples hb

/-- Non-vacuity of `C72_tests_do_not_matter`, `C72_rows` and `C72_split_hybrid`. -/
example : Idle oneState ∧ NoMomentum oneState.opt ∧ oneState.agg.hard.iterations = 0 ∧
    weightsAfter (run (oneWeight false (1 / 2)) [.train 2 true, .test, .setEpoch 3, .train 1 false] oneState) =
      weightsAfter (run (oneWeight false (1 / 2)) [.train 2 true, .setEpoch 3, .train 1 false] oneState) ∧
    sinkAfter (run (oneWeight false (1 / 2)) [.train 2 true, .test, .setEpoch 3, .train 1 false] oneState) =
      some [(true, 0, 1), (true, 1, 1), (false, 1, 1), (true, 3, 1)] := by
  refine ⟨⟨rfl, rfl⟩, ?_, rfl, ?_, ?_⟩
  · unfold NoMomentum
    decide +kernel
  · decide +kernel
  · decide +kernel

end CN24.Props
