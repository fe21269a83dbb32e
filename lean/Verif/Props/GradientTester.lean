import Verif.Proof.GradientTester
import Mathlib.Algebra.Order.Ring.Rat
import Mathlib.Tactic.Linarith
import Mathlib.Tactic.NormNum
import Mathlib.Tactic.FieldSimp
import Mathlib.Tactic.Ring
import Mathlib.Algebra.Order.Field.Basic
import Mathlib.Algebra.Order.AbsoluteValue.Basic

/-! C48: the gradient check leaves the weights as they were, perturbs exactly the weights it claims to
perturb, and its verdict is the comparison of the central difference with the backpropagated
gradient. -/

namespace CN24.Props
open CN24 CN24.Trainer CN24.GradientTester

/-- Weight number `c.2.2` of parameter tensor `c.2.1` of layer `c.1`. -/
def weightOf {R : Type _} (params : List (List (List R))) (c : Nat × Nat × Nat) : Option R :=
  ((params[c.1]?.getD [])[c.2.1]?.getD [])[c.2.2]?

/-- The weights a check with this `skip` is to visit. -/
def Selected {R : Type _} (safe : Nat → Bool) (skip : Nat) (params : List (List (List R)))
    (c : Nat × Nat × Nat) : Prop :=
  safe c.1 ∧ (weightOf params c).isSome ∧ (skip + 1) ∣ c.2.2

/-- `q` is `params` with only weight `c` replaced, by the rounded value of `w + d`. -/
def Shifted {R : Type _} [Add R] (round : R → R) (d : R) (params q : List (List (List R)))
    (c : Nat × Nat × Nat) : Prop :=
  (weightOf q c = (weightOf params c).map fun w => round (w + d)) ∧
    ∀ c', c' ≠ c → weightOf q c' = weightOf params c'

theorem weightOf_eq {R : Type _} (params : List (List (List R))) (c : Nat × Nat × Nat) :
    weightOf params c = at3 params c.1 c.2.1 c.2.2 := by
  unfold weightOf at3 at2 rd
  cases params[c.1]? with
  | none => simp
  | some ps =>
    simp only [Option.getD_some, Option.bind_some]
    cases ps[c.2.1]? <;> simp

section
variable {R : Type _} [Field R] [LinearOrder R]

theorem mem_probed (safe : Nat → Bool) (skip : Nat) (params : List (List (List R)))
    (c : Nat × Nat × Nat) : c ∈ probed safe skip params ↔ Selected safe skip params c := by
  obtain ⟨l, p, e⟩ := c
  unfold probed Selected weightOf
  simp only [List.mem_flatMap, List.mem_range]
  constructor
  · rintro ⟨l', hl, h⟩
    by_cases hs : safe l'
    · rw [if_pos hs] at h
      simp only [List.mem_flatMap, List.mem_map, List.mem_range] at h
      obtain ⟨p', hp, i, hi, he⟩ := h
      simp only [Prod.mk.injEq] at he
      obtain ⟨rfl, rfl, rfl⟩ := he
      refine ⟨hs, ?_, Nat.dvd_mul_left _ _⟩
      rw [List.getElem?_eq_getElem (steps_lt.1 hi)]
      rfl
    · rw [if_neg hs] at h
      simp at h
  · rintro ⟨hs, h1, i, hi⟩
    have he : e < ((params[l]?.getD [])[p]?.getD []).length := by
      by_contra hc
      rw [List.getElem?_eq_none (by omega)] at h1
      simp at h1
    have hp : p < (params[l]?.getD []).length := by
      by_contra hc
      rw [List.getElem?_eq_none (by omega)] at he
      simp at he
    have hl : l < params.length := by
      by_contra hc
      rw [List.getElem?_eq_none (l := params) (by omega)] at hp
      simp at hp
    refine ⟨l, hl, ?_⟩
    rw [if_pos hs]
    simp only [List.mem_flatMap, List.mem_map, List.mem_range]
    have hi' : e = i * (skip + 1) := by rw [hi, Nat.mul_comm]
    exact ⟨p, hp, i, steps_lt.2 (by rw [← hi']; exact he), by rw [hi']⟩

theorem nodup_flatMap_of {α β : Type _} {f : α → List β} {key : β → α} {as : List α} (hn : as.Nodup)
    (h1 : ∀ a, a ∈ as → (f a).Nodup) (h2 : ∀ a b, b ∈ f a → key b = a) : (as.flatMap f).Nodup := by
  induction as with
  | nil => simp
  | cons a as ih =>
    rw [List.nodup_cons] at hn
    rw [List.flatMap_cons, List.nodup_append]
    refine ⟨h1 a List.mem_cons_self, ih hn.2 (fun a h => h1 a (List.mem_cons_of_mem _ h)), ?_⟩
    rintro b hb b' hb' rfl
    obtain ⟨a', ha', hb'⟩ := List.mem_flatMap.1 hb'
    have e1 := h2 _ _ hb
    have e2 := h2 _ _ hb'
    exact hn.1 (by rw [← e1, e2]; exact ha')

theorem nodup_probed (safe : Nat → Bool) (skip : Nat) (params : List (List (List R))) :
    (probed safe skip params).Nodup := by
  unfold probed
  refine nodup_flatMap_of (key := fun c => c.1) List.nodup_range ?_ ?_
  · intro l _
    split
    · refine nodup_flatMap_of (key := fun c => c.2.1) List.nodup_range ?_ ?_
      · intro p _
        rw [List.nodup_iff_getElem?_ne_getElem?]
        intro i j hij hj he
        rw [List.length_map, List.length_range] at hj
        rw [List.getElem?_map, List.getElem?_map, List.getElem?_range (by omega),
          List.getElem?_range hj] at he
        simp only [Option.map_some, Option.some.injEq, Prod.mk.injEq, true_and] at he
        have := Nat.eq_of_mul_eq_mul_right (by omega) he
        omega
      · intro p b hb
        obtain ⟨i, _, rfl⟩ := List.mem_map.1 hb
        rfl
    · simp
  · intro l b hb
    split at hb
    · obtain ⟨p, _, hb⟩ := List.mem_flatMap.1 hb
      obtain ⟨i, _, rfl⟩ := List.mem_map.1 hb
      rfl
    · simp at hb

theorem shifted_withWeight {params : List (List (List R))} {c : Nat × Nat × Nat}
    (hc : (weightOf params c).isSome) (round : R → R) (d : R) :
    Shifted round d params (withWeight params c (round (weightAt params c + d))) c := by
  obtain ⟨w, hw⟩ := Option.isSome_iff_exists.1 hc
  have hw' := hw
  rw [weightOf_eq] at hw'
  obtain ⟨q, hq⟩ := set3_ok hw' (round (weightAt params c + d))
  have e : withWeight params c (round (weightAt params c + d)) = q := by simp [withWeight, hq]
  have e2 : weightAt params c = w := by simp [weightAt, hw']
  rw [e]
  constructor
  · rw [weightOf_eq, at3_set3 hq, if_pos ⟨rfl, rfl, rfl⟩, hw, e2]
    rfl
  · intro c' hne
    rw [weightOf_eq, weightOf_eq, at3_set3 hq, if_neg]
    rintro ⟨a, b, c⟩
    exact hne (Prod.ext a (Prod.ext b c))

theorem getElem?_pairs {α β : Type _} (f g : α → β) (cs : List α) (k : Nat) (a : β) :
    (a :: cs.flatMap fun c => [f c, g c])[1 + 2 * k]? = cs[k]?.map f ∧
      (a :: cs.flatMap fun c => [f c, g c])[2 + 2 * k]? = cs[k]?.map g := by
  induction cs generalizing k a with
  | nil =>
    constructor
    · rw [show 1 + 2 * k = 2 * k + 1 by omega]; simp
    · rw [show 2 + 2 * k = (2 * k + 1) + 1 by omega]; simp
  | cons c cs ih =>
    cases k with
    | zero => exact ⟨rfl, rfl⟩
    | succ k =>
      have := ih k (g c)
      rw [show 1 + 2 * (k + 1) = (1 + 2 * k) + 2 by omega,
        show 2 + 2 * (k + 1) = (2 + 2 * k) + 2 by omega]
      rw [List.flatMap_cons]
      exact this

/-- A finite difference agrees with a gradient up to the factor `1 ± tolerance`; a zero gradient only
with a zero difference. -/
def Agrees (tolerance difference gradient : R) : Prop :=
  if gradient = 0 then difference = 0
  else 1 - tolerance ≤ difference / gradient ∧ difference / gradient ≤ 1 + tolerance

/-- The central difference over the step ±1/200. -/
def centralDifference (plusLoss minusLoss : R) : R := (plusLoss - minusLoss) / (2 * (1 / 200))

end

section
variable {R : Type _} [Field R] [LinearOrder R] [IsStrictOrderedRing R]

theorem classify_okay (a b d : R) :
    classify a b d = .okay ↔ Agrees (2 / 100) (centralDifference a b) d := by
  unfold classify Agrees centralDifference epsilon
  by_cases h : d = 0
  · simp only [if_pos h]
    split <;> simp_all
  · simp only [if_neg h]
    generalize (a - b) / (2 * (1 / 200)) / d = r
    have e1 : (102 : R) / 100 = 1 + 2 / 100 := by norm_num
    have e2 : (98 : R) / 100 = 1 - 2 / 100 := by norm_num
    rw [e1, e2]
    by_cases hr : 1 + 2 / 100 < r ∨ r < 1 - 2 / 100
    · rw [if_pos hr]
      constructor
      · intro hh
        split at hh <;> simp at hh
      · rintro ⟨h1, h2⟩
        exact absurd hr (by rw [not_or]; exact ⟨not_lt.2 h2, not_lt.2 h1⟩)
    · rw [if_neg hr]
      rw [not_or] at hr
      exact ⟨fun _ => ⟨not_lt.1 hr.2, not_lt.1 hr.1⟩, fun _ => rfl⟩

theorem classify_failed (a b d : R) :
    classify a b d = .failed ↔ ¬ Agrees (2 / 10) (centralDifference a b) d := by
  unfold classify Agrees centralDifference epsilon
  by_cases h : d = 0
  · simp only [if_pos h]
    split <;> simp_all
  · simp only [if_neg h]
    generalize (a - b) / (2 * (1 / 200)) / d = r
    have e1 : (12 : R) / 10 = 1 + 2 / 10 := by norm_num
    have e2 : (8 : R) / 10 = 1 - 2 / 10 := by norm_num
    have e3 : (102 : R) / 100 ≤ 1 + 2 / 10 := by norm_num
    have e4 : (1 : R) - 2 / 10 ≤ 98 / 100 := by norm_num
    rw [e1, e2]
    by_cases hr : 1 + 2 / 10 < r ∨ r < 1 - 2 / 10
    · rw [if_pos (by
        rcases hr with hr | hr
        · exact Or.inl (lt_of_le_of_lt e3 hr)
        · exact Or.inr (lt_of_lt_of_le hr e4)), if_pos hr]
      refine ⟨fun _ => ?_, fun _ => rfl⟩
      rintro ⟨h1, h2⟩
      exact absurd hr (by rw [not_or]; exact ⟨not_lt.2 h2, not_lt.2 h1⟩)
    · rw [if_neg hr]
      rw [not_or] at hr
      constructor
      · intro hh
        split at hh <;> simp at hh
      · intro hh
        exact absurd ⟨not_lt.1 hr.2, not_lt.1 hr.1⟩ hh

/-- The record of a check that probed the weights `cs`: forward pass 0 used the original weights, and
probe `k` used passes `1 + 2k` and `2 + 2k` with weight `cs[k]` alone shifted by +1/200 and -1/200. -/
structure CheckRecord (round : R → R) (params : List (List (List R)))
    (passes : List (List (List (List R)))) (cs : List (Nat × Nat × Nat)) : Prop where
  length : passes.length = 1 + 2 * cs.length
  first : passes[0]? = some params
  up : ∀ (k : Nat) (c : Nat × Nat × Nat), cs[k]? = some c →
    ∃ q, passes[1 + 2 * k]? = some q ∧ Shifted round (1 / 200) params q c
  down : ∀ (k : Nat) (c : Nat × Nat × Nat), cs[k]? = some c →
    ∃ q, passes[2 + 2 * k]? = some q ∧ Shifted round (-(1 / 200)) params q c

/-- Whether probe `k`, of weight `c`, agrees with the backpropagated gradient. -/
def ProbeAgrees (tolerance : R) (loss : Nat → List (List (List R)) → R)
    (deltas : List (List (List R))) (passes : List (List (List (List R)))) (k : Nat)
    (c : Nat × Nat × Nat) : Prop :=
  ∃ plus minus delta, passes[1 + 2 * k]? = some plus ∧ passes[2 + 2 * k]? = some minus ∧
    weightOf deltas c = some delta ∧
    Agrees tolerance (centralDifference (loss (1 + 2 * k) plus) (loss (2 + 2 * k) minus)) delta

/-- What a check did: the weights are back to their old values, exactly the selected weights were
probed, each once, and each counter holds the number of probes with that result. -/
structure Checked (round : R → R) (loss : Nat → List (List (List R)) → R)
    (deltas : List (List (List R))) (safe : Nat → Bool) (skip : Nat) (params : List (List (List R)))
    (st : GradientTester.State R) (cs : List (Nat × Nat × Nat)) : Prop where
  restored : st.params = params
  nodup : cs.Nodup
  selected : ∀ c, c ∈ cs ↔ Selected safe skip params c
  record : CheckRecord round params st.passes cs
  total : st.okay + st.tolerable + st.failed = cs.length
  none_failed : st.failed = 0 ↔ ∀ (k : Nat) (c : Nat × Nat × Nat), cs[k]? = some c →
    ProbeAgrees (2 / 10) loss deltas st.passes k c
  all_okay : st.okay = cs.length ↔ ∀ (k : Nat) (c : Nat × Nat × Nat), cs[k]? = some c →
    ProbeAgrees (2 / 100) loss deltas st.passes k c

theorem count_three (vs : List Verdict) :
    vs.count .okay + vs.count .tolerable + vs.count .failed = vs.length := by
  induction vs with
  | nil => rfl
  | cons v vs ih =>
    simp only [List.count_cons, List.length_cons]
    cases v <;> simp <;> omega

theorem checked_of_probed {round : R → R} {loss : Nat → List (List (List R)) → R}
    {deltas params : List (List (List R))} {safe : Nat → Bool} {skip : Nat}
    (hs : sizes params = sizes deltas) {st : GradientTester.State R}
    (h : Probed round loss deltas params st (probed safe skip params)) :
    Checked round loss deltas safe skip params st (probed safe skip params) := by
  have hmem := mem_probed safe skip params
  have hpass : ∀ (k : Nat) (c : Nat × Nat × Nat), (probed safe skip params)[k]? = some c →
      st.passes[1 + 2 * k]? = some (withWeight params c (round (weightAt params c + epsilon))) ∧
      st.passes[2 + 2 * k]? = some (withWeight params c (round (weightAt params c - epsilon))) := by
    intro k c hk
    rw [h.passes]
    have := getElem?_pairs (fun c => withWeight params c (round (weightAt params c + epsilon)))
      (fun c => withWeight params c (round (weightAt params c - epsilon)))
      (probed safe skip params) k params
    rw [hk] at this
    exact this
  have hsome : ∀ (k : Nat) (c : Nat × Nat × Nat), (probed safe skip params)[k]? = some c → (weightOf params c).isSome := by
    intro k c hk
    exact ((hmem c).1 (List.mem_of_getElem? hk)).2.1
  have hdelta : ∀ (k : Nat) (c : Nat × Nat × Nat), (probed safe skip params)[k]? = some c →
      weightOf deltas c = some (weightAt deltas c) := by
    intro k c hk
    have h1 := hsome k c hk
    rw [weightOf_eq] at h1 ⊢
    have h2 := at3_isSome_of_sizes hs h1
    obtain ⟨d, hd⟩ := Option.isSome_iff_exists.1 h2
    rw [hd]
    simp [weightAt, hd]
  have hvlen : (verdicts round loss deltas params (probed safe skip params)).length =
      (probed safe skip params).length := by simp [verdicts]
  have hv : ∀ (k : Nat) (c : Nat × Nat × Nat), (probed safe skip params)[k]? = some c →
      (verdicts round loss deltas params (probed safe skip params))[k]? =
        some (probeVerdict round loss deltas params k c) := by
    intro k c hk
    unfold verdicts
    rw [List.getElem?_map, List.getElem?_zipIdx, hk]
    simp
  have hagree : ∀ (t : R) (k : Nat) (c : Nat × Nat × Nat), (probed safe skip params)[k]? = some c →
      (ProbeAgrees t loss deltas st.passes k c ↔ Agrees t (centralDifference
        (loss (1 + 2 * k) (withWeight params c (round (weightAt params c + epsilon))))
        (loss (2 + 2 * k) (withWeight params c (round (weightAt params c - epsilon)))))
        (weightAt deltas c)) := by
    intro t k c hk
    obtain ⟨p1, p2⟩ := hpass k c hk
    unfold ProbeAgrees
    rw [p1, p2, hdelta k c hk]
    constructor
    · rintro ⟨_, _, _, e1, e2, e3, ha⟩
      rw [← Option.some.inj e1, ← Option.some.inj e2, ← Option.some.inj e3] at ha
      exact ha
    · intro ha
      exact ⟨_, _, _, rfl, rfl, rfl, ha⟩
  refine ⟨h.restored, nodup_probed _ _ _, hmem, ⟨?_, ?_, ?_, ?_⟩, ?_, ?_, ?_⟩
  · rw [h.passes, passes_length]
  · rw [h.passes]; rfl
  · intro k c hk
    exact ⟨_, (hpass k c hk).1, shifted_withWeight (hsome k c hk) round epsilon⟩
  · intro k c hk
    refine ⟨_, (hpass k c hk).2, ?_⟩
    rw [sub_eq_add_neg]
    exact shifted_withWeight (hsome k c hk) round (-epsilon)
  · rw [h.okay, h.tolerable, h.failed, count_three, hvlen]
  · rw [h.failed, List.count_eq_zero]
    constructor
    · intro hn k c hk
      rw [hagree _ k c hk]
      by_contra hc
      apply hn
      rw [← classify_failed] at hc
      have := List.mem_of_getElem? (hv k c hk)
      unfold probeVerdict at this
      rw [hc] at this
      exact this
    · intro hall hm
      obtain ⟨k, hk⟩ := List.mem_iff_getElem?.1 hm
      have hk' : k < (probed safe skip params).length := by
        rw [← hvlen]
        by_contra hc
        rw [List.getElem?_eq_none (by omega)] at hk
        cases hk
      have hc := List.getElem?_eq_getElem hk'
      have h1 := (hagree _ k _ hc).1 (hall k _ hc)
      rw [hv k _ hc] at hk
      exact (classify_failed _ _ _).1 (Option.some.inj hk) h1
  · rw [h.okay, ← hvlen]
    have : (verdicts round loss deltas params (probed safe skip params)).count .okay =
        (verdicts round loss deltas params (probed safe skip params)).length ↔
        ∀ v ∈ verdicts round loss deltas params (probed safe skip params), Verdict.okay = v :=
      List.count_eq_length
    rw [this]
    constructor
    · intro hn k c hk
      rw [hagree _ k c hk, ← classify_okay]
      exact (hn _ (List.mem_of_getElem? (hv k c hk))).symm
    · intro hall v hm
      obtain ⟨k, hk⟩ := List.mem_iff_getElem?.1 hm
      have hk' : k < (probed safe skip params).length := by
        rw [← hvlen]
        by_contra hc
        rw [List.getElem?_eq_none (by omega)] at hk
        cases hk
      have hc := List.getElem?_eq_getElem hk'
      have h1 := (hagree _ k _ hc).1 (hall k _ hc)
      rw [hv k _ hc] at hk
      rw [← Option.some.inj hk]
      exact ((classify_okay _ _ _).2 h1).symm

/-- C48: for all networks (also ones whose loss differs from one forward pass to the next), all
roundings of the perturbed weight and all values of `skip`, a gradient check that returns has left
every weight as it was; it has probed exactly the selected weights, one at a time and by the stated
offsets; its counters are the numbers of probes of each kind.  It aborts iff that is asked for and some
probe is off by more than 20 per cent. -/
theorem C48_check (round : R → R) (loss : Nat → List (List (List R)) → R)
    (deltas params : List (List (List R))) (safe : Nat → Bool) (skip : Nat) (fatalFail : Bool)
    (hs : sizes params = sizes deltas) :
    ∃ st cs, Checked round loss deltas safe skip params st cs ∧
      testGradient round loss deltas safe skip fatalFail params =
        if 0 < st.failed ∧ fatalFail then .fatal else .done st := by
  obtain ⟨st, e, h⟩ := loops_spec (round := round) (loss := loss) safe skip hs
  refine ⟨st, _, checked_of_probed hs h, ?_⟩
  unfold testGradient
  rw [e]
  rfl

/-- C48: without `fatal_fail` the check always returns, and the weights are as before. -/
theorem C48_restored (round : R → R) (loss : Nat → List (List (List R)) → R)
    (deltas params : List (List (List R))) (safe : Nat → Bool) (skip : Nat)
    (hs : sizes params = sizes deltas) :
    ∃ st, testGradient round loss deltas safe skip false params = .done st ∧ st.params = params := by
  obtain ⟨st, cs, h, e⟩ := C48_check round loss deltas params safe skip false hs
  exact ⟨st, by simpa using e, h.restored⟩

/-- The loss as a function of weight `c` alone is a polynomial of degree two, for which the central
difference is exact, with the backpropagated gradient as its derivative at the current weight. -/
def QuadraticAt (loss : List (List (List R)) → R) (params : List (List (List R)))
    (c : Nat × Nat × Nat) (gradient : R) : Prop :=
  ∃ (w a b : R), weightOf params c = some w ∧ gradient = 2 * a * w + b ∧
    ∃ k : R, ∀ q v, weightOf q c = some v → (∀ c', c' ≠ c → weightOf q c' = weightOf params c') →
      loss q = a * v ^ 2 + b * v + k

/-- C48: with exact arithmetic, a network whose loss is quadratic in each weight passes the check with
every probe okay when its gradients are correct. -/
theorem C48_correct_gradient (loss : List (List (List R)) → R)
    (deltas params : List (List (List R))) (safe : Nat → Bool) (skip : Nat) (fatalFail : Bool)
    (hs : sizes params = sizes deltas)
    (hq : ∀ c, Selected safe skip params c →
      ∃ g, weightOf deltas c = some g ∧ QuadraticAt loss params c g) :
    ∃ st, testGradient (fun w => w) (fun _ => loss) deltas safe skip fatalFail params = .done st ∧
      st.failed = 0 ∧ st.tolerable = 0 ∧ st.params = params := by
  obtain ⟨st, cs, h, e⟩ := C48_check (fun w => w) (fun _ => loss) deltas params safe skip fatalFail hs
  have key : st.okay = cs.length := by
    rw [h.all_okay]
    intro k c hk
    obtain ⟨g, hg, w, a, b, hw, rfl, k0, hl⟩ := hq c ((h.selected c).1 (List.mem_of_getElem? hk))
    obtain ⟨q1, e1, s1⟩ := h.record.up k c hk
    obtain ⟨q2, e2, s2⟩ := h.record.down k c hk
    refine ⟨q1, q2, _, e1, e2, hg, ?_⟩
    have l1 := hl q1 (w + 1 / 200) (by rw [s1.1, hw]; rfl) s1.2
    have l2 := hl q2 (w + -(1 / 200)) (by rw [s2.1, hw]; rfl) s2.2
    have ed : centralDifference (loss q1) (loss q2) = 2 * a * w + b := by
      unfold centralDifference
      rw [l1, l2]
      ring
    unfold Agrees
    rw [ed]
    split
    · assumption
    · rename_i hne
      rw [div_self hne]
      constructor <;> norm_num
  have ht := h.total
  have hf : st.failed = 0 := by omega
  refine ⟨st, ?_, hf, by omega, h.restored⟩
  rw [e, if_neg (by omega)]

/-! The test of a single layer. -/

/-- C48: the gradient test of one layer probes every element of the tensor in order, once up and once
down by the given step with all other elements unchanged, restores the data, and succeeds iff every
probe is within 20 per cent or more than 85 per cent of them are. -/
theorem C48_layer (round : R → R) (loss : Nat → List R → R) (deltas data : List R) (eps : R)
    (hd : data.length ≤ deltas.length) :
    ∃ (st : LayerState R) (good : List Nat),
      doGradientTest round loss deltas true eps data =
        some (st, decide (good.length = data.length ∨
          85 / 100 < (good.length : R) / (data.length : R))) ∧
      st.data = data ∧
      st.passes.length = 1 + 2 * data.length ∧ st.passes[0]? = some data ∧
      (∀ (w : Nat) (v : R), data[w]? = some v →
        st.passes[1 + 2 * w]? = some (data.set w (round (v + eps))) ∧
        st.passes[2 + 2 * w]? = some (data.set w (round (v - eps)))) ∧
      good.Nodup ∧
      ∀ w, w ∈ good ↔ ∃ v g, data[w]? = some v ∧ deltas[w]? = some g ∧
        Agrees (2 / 10) ((loss (1 + 2 * w) (data.set w (round (v + eps))) -
          loss (2 + 2 * w) (data.set w (round (v - eps)))) / (2 * eps)) g := by
  obtain ⟨st, e, h1, h2, h3⟩ := layer_spec round loss deltas eps data hd
  refine ⟨st, (List.range data.length).filter fun w => dataClose round loss deltas eps data w, ?_, h1,
    ?_, ?_, ?_, ?_, ?_⟩
  · unfold doGradientTest
    rw [if_pos rfl, e, Option.map_some, h3]
    simp
  · rw [h2]
    have : ∀ n : Nat, (data :: (List.range n).flatMap (dataPasses round eps data)).length
        = 1 + 2 * n := by
      intro n
      induction n with
      | zero => rfl
      | succ n ih =>
        rw [List.range_succ, List.flatMap_append, ← List.cons_append, List.length_append, ih,
          List.flatMap_singleton]
        simp only [dataPasses, List.length_cons, List.length_nil]
        omega
    exact this _
  · rw [h2]; rfl
  · intro w v hv
    have hw : w < data.length := by
      by_contra hc
      rw [List.getElem?_eq_none (by omega)] at hv
      cases hv
    rw [h2]
    have := getElem?_pairs (fun w => data.set w (round (data[w]?.getD 0 + eps)))
      (fun w => data.set w (round (data[w]?.getD 0 - eps))) (List.range data.length) w data
    rw [List.getElem?_range hw] at this
    simp only [Option.map_some, hv, Option.getD_some] at this
    exact this
  · exact List.nodup_range.filter _
  · intro w
    rw [List.mem_filter, List.mem_range]
    constructor
    · rintro ⟨hw, hc⟩
      refine ⟨data[w], deltas[w]'(by omega), List.getElem?_eq_getElem hw,
        List.getElem?_eq_getElem (by omega), ?_⟩
      unfold dataClose close at hc
      rw [List.getElem?_eq_getElem hw, List.getElem?_eq_getElem (show w < deltas.length by omega),
        Option.getD_some, Option.getD_some] at hc
      unfold Agrees
      generalize (loss (1 + 2 * w) (data.set w (round (data[w] + eps))) -
          loss (2 + 2 * w) (data.set w (round (data[w] - eps)))) / (2 * eps) = x at hc ⊢
      dsimp only at hc
      split at hc
      · rename_i h0
        rw [if_pos h0]
        simpa using hc
      · rename_i h0
        rw [if_neg h0]
        have hc := of_decide_eq_true hc
        have hc : x / deltas[w] ≤ 12 / 10 ∧ 8 / 10 ≤ x / deltas[w] :=
          ⟨not_lt.1 fun h => hc (Or.inl h), not_lt.1 fun h => hc (Or.inr h)⟩
        have e1 : (12 : R) / 10 = 1 + 2 / 10 := by norm_num
        have e2 : (8 : R) / 10 = 1 - 2 / 10 := by norm_num
        rw [e1, e2] at hc
        exact ⟨hc.2, hc.1⟩
    · rintro ⟨v, g, hv, hg, ha⟩
      have hw : w < data.length := by
        by_contra hc
        rw [List.getElem?_eq_none (by omega)] at hv
        cases hv
      refine ⟨hw, ?_⟩
      unfold dataClose close
      rw [hv, hg, Option.getD_some, Option.getD_some]
      unfold Agrees at ha
      generalize (loss (1 + 2 * w) (data.set w (round (v + eps))) -
          loss (2 + 2 * w) (data.set w (round (v - eps)))) / (2 * eps) = x at ha ⊢
      dsimp only
      split at ha
      · rename_i h0
        rw [if_pos h0]
        simpa using ha
      · rename_i h0
        rw [if_neg h0]
        apply decide_eq_true
        rw [not_or, not_lt, not_lt]
        have e1 : (12 : R) / 10 = 1 + 2 / 10 := by norm_num
        have e2 : (8 : R) / 10 = 1 - 2 / 10 := by norm_num
        rw [e1, e2]
        exact ⟨ha.2, ha.1⟩

end

/-- Non-vacuity: two layers, the second of which is not gradient safe, and `skip = 1`; only weights 0
and 2 of the first layer are probed, and weight 2, with a wrong gradient, fails. -/
example : (match testGradient (R := Rat) (fun w => w)
      (fun _ ps => (ps.map fun l => (l.map List.sum).sum).sum)
      [[[1, 1, 2]], [[5]]] (fun l => l == 0) 1 false [[[3, 4, 5]], [[6]]] with
    | .done st => st.okay == 1 && st.tolerable == 0 && st.failed == 1 &&
        st.params == [[[3, 4, 5]], [[6]]] && st.passes.length == 5
    | _ => false) = true := by decide +kernel

/-- Non-vacuity of `C48_correct_gradient`. -/
example : QuadraticAt (R := Rat) (fun ps => 3 * ((weightOf ps (0, 0, 0)).getD 0) ^ 2) [[[2]]] (0, 0, 0)
    12 :=
  ⟨2, 3, 0, rfl, by norm_num, 0, fun q v hv _ => by
    show 3 * ((weightOf q (0, 0, 0)).getD 0) ^ 2 = _
    rw [hv, Option.getD_some]; ring⟩

/-- Non-vacuity of `C48_layer`: a correct and a wrong gradient. -/
example : (doGradientTest (R := Rat) (fun w => w) (fun _ d => d.sum) [1, 2] true (1 / 1000) [7, 8]).map
    (fun r => (r.1.data, r.1.okay, r.2)) = some ([7, 8], 1, false) := by decide +kernel

end CN24.Props
