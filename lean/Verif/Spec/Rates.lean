import Verif.Model.Rates
import Verif.Proof.SessionRows

/-
Specification of what a row of statistics says about errors: counting starts from nothing, takes the outputs, labels
and weights of one command (or one epoch), and ends in the numbers of the row.
-/

namespace CN24.Rates
open CN24

variable {R τ B σ : Type _} [Field R] [LinearOrder R]

/-- A layer counts what it is shown, one batch after the other. -/
def feedAll (M : Meter σ R) : List (Tensor R × Tensor R × Tensor R) → σ → Option σ
  | [], s => some s
  | t :: ts, s => (M.feed t s).bind (feedAll M ts)

/-- The number reported for a statistic, `none` (null) if none is. -/
def valueOf (l : List (Nat × R)) (id : Nat) : Option R := (l.find? fun u => u.1 = id).map (·.2)

/-- What the layers of the library have in common: `Reset` leads back to `fresh` from all states they can be in, and
every statistic that is updated is one of theirs and updated once. -/
structure Lawful (M : Meter σ R) (inv : σ → Prop) (fresh : σ) : Prop where
  start : inv fresh
  feed : ∀ t s s', inv s → M.feed t s = some s' → inv s'
  reset : ∀ s, inv s → M.reset s = some fresh
  ids : ∀ s l, M.updateAll s = some l → (l.map (·.1)).Nodup ∧ ∀ u ∈ l, u.1 ∈ M.ids

/-- What the layer in the network is shown in the first `k` iterations of an epoch, and the session afterwards. -/
def shown (m : Machine R τ B σ) : Nat → Session.State R τ →
    Outcome (List (Tensor R × Tensor R × Tensor R) × Session.State R τ)
  | 0, st => .done ([], st)
  | k + 1, st => (shown m k st).bind fun r =>
    (Session.batches m.source m.cfg.sbatchsize r.2.src).bind fun bs =>
    (Session.iteration m.toMachine k r.2).bind fun st' =>
    .done (r.1 ++ bs.1.map (m.predict r.2.isTesting r.2.opt.weights), st')

/-- The start of an epoch: training samples from now on. -/
def epochStart (m : Machine R τ B σ) (st : Session.State R τ) : Session.State R τ :=
  { Session.setHard (fun h => { h with epoch := st.epoch }) st with src := m.source.setTesting false st.src }

/-- The statistics are set up: those of the two layers and the loss have numbers of their own. -/
structure Registered (m : Machine R τ B σ) (a : Stats.Agg (Session.Stat R) R) : Prop where
  ok : a.stats.length = a.descs.length
  distinct : (m.lossId :: (m.meter.ids ++ m.testMeter.ids)).Nodup
  descs : ∀ id ∈ m.meter.ids ++ m.testMeter.ids, a.descs[id]? = some rateDesc

/-- Between two commands: nothing is recorded, nothing is counted, the layer is enabled and the rates are null. -/
structure Ready (m : Machine R τ B σ) (fresh testFresh : σ) (st : State R τ σ) : Prop where
  registered : Registered m st.base.agg
  stopped : st.base.agg.phase = .stopped
  enabled : st.disabled = false
  counts : st.counts = fresh
  testCounts : st.testCounts = testFresh
  null : ∀ id ∈ m.meter.ids ++ m.testMeter.ids, st.base.agg.stats[id]? = some none

end CN24.Rates
