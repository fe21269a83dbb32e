import Verif.Model.GradientTester
import Verif.Proof.Trainer

namespace CN24.GradientTester
open CN24.Trainer
variable {R : Type _}

/-! ### Overwriting an element twice, and with its own value -/

theorem wr_wr {α : Type _} {b b' : List α} {i : Nat} {v : α} (h : wr b i v = some b') (w : α) :
    wr b' i w = wr b i w := by
  unfold wr at h ⊢
  split at h
  · rename_i hi
    rw [← Option.some.inj h, if_pos (by simpa using hi), if_pos hi, List.set_set]
  · simp at h

theorem wr_same {α : Type _} {b : List α} {i : Nat} {v : α} (h : rd b i = some v) :
    wr b i v = some b := by
  unfold rd at h
  obtain ⟨hi, rfl⟩ := List.getElem?_eq_some_iff.1 h
  simp [wr, hi]

theorem rd_wr {α : Type _} {b b' : List α} {i : Nat} {v : α} (h : wr b i v = some b') :
    rd b' i = some v := by
  unfold wr at h
  split at h
  · rename_i hi
    rw [← Option.some.inj h, rd, List.getElem?_set_self hi]
  · simp at h

theorem set2_set2 {b b' : List (List R)} {i j : Nat} {v : R} (h : set2 b i j v = some b') (w : R) :
    set2 b' i j w = set2 b i j w := by
  unfold set2 at h ⊢
  simp only [Option.bind_eq_some_iff] at h
  obtain ⟨r, h1, r', h2, h3⟩ := h
  rw [rd_wr h3, h1, Option.bind_some, Option.bind_some, wr_wr h2]
  congr 1
  funext r''
  exact wr_wr h3 _

theorem set2_same {b : List (List R)} {i j : Nat} {v : R} (h : at2 b i j = some v) :
    set2 b i j v = some b := by
  unfold at2 at h
  simp only [Option.bind_eq_some_iff] at h
  obtain ⟨r, h1, h2⟩ := h
  unfold set2
  rw [h1, Option.bind_some, wr_same h2, Option.bind_some, wr_same h1]

theorem set3_set3 {b b' : List (List (List R))} {i j k : Nat} {v : R}
    (h : set3 b i j k v = some b') (w : R) : set3 b' i j k w = set3 b i j k w := by
  unfold set3 at h ⊢
  simp only [Option.bind_eq_some_iff] at h
  obtain ⟨r, h1, r', h2, h3⟩ := h
  rw [rd_wr h3, h1, Option.bind_some, Option.bind_some, set2_set2 h2]
  congr 1
  funext r''
  exact wr_wr h3 _

theorem set3_same {b : List (List (List R))} {i j k : Nat} {v : R} (h : at3 b i j k = some v) :
    set3 b i j k v = some b := by
  unfold at3 at h
  simp only [Option.bind_eq_some_iff] at h
  obtain ⟨r, h1, h2⟩ := h
  unfold set3
  rw [h1, Option.bind_some, set2_same h2, Option.bind_some, wr_same h1]

section
variable [Field R] [LinearOrder R]

/-- The weight `(l, p, e)` of `params`, or 0. -/
def weightAt (params : List (List (List R))) (c : Nat × Nat × Nat) : R :=
  (at3 params c.1 c.2.1 c.2.2).getD 0

/-- `params` with one weight replaced. -/
def withWeight (params : List (List (List R))) (c : Nat × Nat × Nat) (v : R) : List (List (List R)) :=
  (set3 params c.1 c.2.1 c.2.2 v).getD params

/-- The parameters of the two forward passes that probe a weight. -/
def probePasses (round : R → R) (params : List (List (List R))) (c : Nat × Nat × Nat) :
    List (List (List (List R))) :=
  [withWeight params c (round (weightAt params c + epsilon)),
   withWeight params c (round (weightAt params c - epsilon))]

/-- The result of the `k`-th probe, of weight `c`. -/
def probeVerdict (round : R → R) (loss : Nat → List (List (List R)) → R)
    (deltas params : List (List (List R))) (k : Nat) (c : Nat × Nat × Nat) : Verdict :=
  classify (loss (1 + 2 * k) (withWeight params c (round (weightAt params c + epsilon))))
    (loss (2 + 2 * k) (withWeight params c (round (weightAt params c - epsilon)))) (weightAt deltas c)

/-- The results of a list of probes. -/
def verdicts (round : R → R) (loss : Nat → List (List (List R)) → R)
    (deltas params : List (List (List R))) (cs : List (Nat × Nat × Nat)) : List Verdict :=
  cs.zipIdx.map fun x => probeVerdict round loss deltas params x.2 x.1

theorem verdicts_append (round : R → R) (loss : Nat → List (List (List R)) → R)
    (deltas params : List (List (List R))) (cs : List (Nat × Nat × Nat)) (c : Nat × Nat × Nat) :
    verdicts round loss deltas params (cs ++ [c]) =
      verdicts round loss deltas params cs ++ [probeVerdict round loss deltas params cs.length c] := by
  simp [verdicts, List.zipIdx_append]

/-- The state after probing the weights `cs`. -/
structure Probed (round : R → R) (loss : Nat → List (List (List R)) → R)
    (deltas params : List (List (List R))) (st : State R) (cs : List (Nat × Nat × Nat)) : Prop where
  restored : st.params = params
  passes : st.passes = params :: cs.flatMap (probePasses round params)
  okay : st.okay = (verdicts round loss deltas params cs).count .okay
  tolerable : st.tolerable = (verdicts round loss deltas params cs).count .tolerable
  failed : st.failed = (verdicts round loss deltas params cs).count .failed

theorem passes_length (round : R → R) (params : List (List (List R))) (cs : List (Nat × Nat × Nat)) :
    (params :: cs.flatMap (probePasses round params)).length = 1 + 2 * cs.length := by
  induction cs with
  | nil => rfl
  | cons c cs ih =>
    rw [List.length_cons] at ih ⊢
    rw [List.flatMap_cons, List.length_append, List.length_cons]
    simp only [probePasses, List.length_cons, List.length_nil] at ih ⊢
    omega

theorem probe_spec {round : R → R} {loss : Nat → List (List (List R)) → R}
    {deltas params : List (List (List R))} {st : State R} {cs : List (Nat × Nat × Nat)}
    (h : Probed round loss deltas params st cs) {l p e : Nat}
    (h1 : (at3 params l p e).isSome) (h2 : (at3 deltas l p e).isSome) :
    ∃ st', probe round loss deltas l p e st = some st' ∧
      Probed round loss deltas params st' (cs ++ [(l, p, e)]) := by
  obtain ⟨old, hold⟩ := Option.isSome_iff_exists.1 h1
  obtain ⟨d, hd⟩ := Option.isSome_iff_exists.1 h2
  obtain ⟨plus, hplus⟩ := set3_ok hold (round (old + epsilon))
  obtain ⟨minus, hminus⟩ := set3_ok hold (round (old - epsilon))
  have e0 : weightAt params (l, p, e) = old := by simp [weightAt, hold]
  have e1 : withWeight params (l, p, e) (round (old + epsilon)) = plus := by simp [withWeight, hplus]
  have e2 : withWeight params (l, p, e) (round (old - epsilon)) = minus := by simp [withWeight, hminus]
  have e3 : weightAt deltas (l, p, e) = d := by simp [weightAt, hd]
  have e4 : probePasses round params (l, p, e) = [plus, minus] := by
    unfold probePasses; rw [e0, e1, e2]
  have hlen : st.passes.length = 1 + 2 * cs.length := by rw [h.passes, passes_length]
  have e5 : probeVerdict round loss deltas params cs.length (l, p, e) =
      classify (loss st.passes.length plus) (loss (st.passes.length + 1) minus) d := by
    unfold probeVerdict
    rw [e0, e1, e2, e3, hlen, show 1 + 2 * cs.length + 1 = 2 + 2 * cs.length by omega]
  unfold probe
  rw [h.restored, hold, Option.bind_some, hplus, Option.bind_some, set3_set3 hplus, hminus,
    Option.bind_some, hd, Option.bind_some, set3_set3 hminus, set3_same hold, Option.map_some]
  refine ⟨_, rfl, ?_, ?_, ?_, ?_, ?_⟩
  · cases classify (loss st.passes.length plus) (loss (st.passes.length + 1) minus) d <;> rfl
  · rw [List.flatMap_append, List.flatMap_singleton, e4, ← List.cons_append, ← h.passes]
    cases classify (loss st.passes.length plus) (loss (st.passes.length + 1) minus) d <;> rfl
  all_goals
    rw [verdicts_append, List.count_append, e5]
    have o1 := h.okay
    have o2 := h.tolerable
    have o3 := h.failed
    cases classify (loss st.passes.length plus) (loss (st.passes.length + 1) minus) d <;>
      simp [State.record, o1, o2, o3]

/-- The weights that are probed: every `skip + 1`-th one of every parameter of the safe layers. -/
def probed (safe : Nat → Bool) (skip : Nat) (params : List (List (List R))) :
    List (Nat × Nat × Nat) :=
  (List.range params.length).flatMap fun l =>
    if safe l then
      (List.range ((params[l]?.getD []).length)).flatMap fun p =>
        (List.range (steps (((params[l]?.getD [])[p]?.getD []).length) skip)).map fun i =>
          (l, p, i * (skip + 1))
    else []

theorem steps_lt {n skip i : Nat} : i < steps n skip ↔ i * (skip + 1) < n := by
  unfold steps
  rw [Nat.lt_iff_add_one_le, Nat.le_div_iff_mul_le (by omega)]
  have : (i + 1) * (skip + 1) = i * (skip + 1) + (skip + 1) := by rw [Nat.add_mul]; simp
  omega

theorem at3_isSome {ws : List (List (List R))} {l p e : Nat} {ps : List (List R)} {d : List R}
    (h1 : ws[l]? = some ps) (h2 : ps[p]? = some d) (h3 : e < d.length) : (at3 ws l p e).isSome := by
  unfold at3 at2 rd
  rw [h1, Option.bind_some, h2, Option.bind_some, List.getElem?_eq_getElem h3]
  rfl

theorem at3_isSome_of_sizes {ws vs : List (List (List R))} (hs : sizes ws = sizes vs) {l p e : Nat}
    (h : (at3 ws l p e).isSome) : (at3 vs l p e).isSome := by
  rw [at3_isSome_iff] at h ⊢
  rw [← hs]
  exact h

/-- The loops of `TestGradient`. -/
theorem loops_spec {round : R → R} {loss : Nat → List (List (List R)) → R}
    {deltas params : List (List (List R))} (safe : Nat → Bool) (skip : Nat)
    (hs : sizes params = sizes deltas) :
    ∃ st, forLoop params.length (fun l st =>
      if safe l then
        (rd params l).bind fun ps =>
        forLoop ps.length (fun p st =>
          (rd ps p).bind fun data =>
          forLoop (steps data.length skip) (fun i st =>
            probe round loss deltas l p (i * (skip + 1)) st) st) st
      else some st) { params := params, passes := [params] } = some st ∧
      Probed round loss deltas params st (probed safe skip params) := by
  have h0 : Probed round loss deltas params { params := params, passes := [params] } [] :=
    ⟨rfl, rfl, rfl, rfl, rfl⟩
  have := forLoop_append (n := params.length) (l := []) (f := fun l st =>
      if safe l then
        (rd params l).bind fun ps =>
        forLoop ps.length (fun p st =>
          (rd ps p).bind fun data =>
          forLoop (steps data.length skip) (fun i st =>
            probe round loss deltas l p (i * (skip + 1)) st) st) st
      else some st) (Probed round loss deltas params) (fun l =>
    if safe l then
      (List.range ((params[l]?.getD []).length)).flatMap fun p =>
        (List.range (steps (((params[l]?.getD [])[p]?.getD []).length) skip)).map fun i =>
          (l, p, i * (skip + 1))
    else []) h0 (by
    intro l st cs hl hst
    by_cases hsafe : safe l
    · rw [if_pos hsafe, if_pos hsafe]
      have hps : params[l]? = some params[l] := List.getElem?_eq_getElem hl
      generalize params[l] = ps at hps
      have hps' : rd params l = some ps := hps
      rw [hps', Option.bind_some, hps, Option.getD_some]
      refine forLoop_append (Probed round loss deltas params) _ hst ?_
      intro p st cs hp hst
      have hd : ps[p]? = some ps[p] := List.getElem?_eq_getElem hp
      generalize ps[p] = data at hd
      have hd' : rd ps p = some data := hd
      rw [hd', Option.bind_some, hd, Option.getD_some]
      have := forLoop_append (n := steps data.length skip) (s := st) (l := cs) (f := fun i st =>
            probe round loss deltas l p (i * (skip + 1)) st)
        (Probed round loss deltas params) (fun i => [(l, p, i * (skip + 1))]) hst (by
          intro i st cs hi hst
          have h1 := at3_isSome hps hd (steps_lt.1 hi)
          exact probe_spec hst h1 (at3_isSome_of_sizes hs h1))
      obtain ⟨st', e, h⟩ := this
      refine ⟨st', e, ?_⟩
      have : (List.range (steps data.length skip)).flatMap (fun i => [(l, p, i * (skip + 1))]) =
          (List.range (steps data.length skip)).map fun i => (l, p, i * (skip + 1)) := by
        induction List.range (steps data.length skip) with
        | nil => rfl
        | cons a as ih => rw [List.flatMap_cons, List.map_cons, ih]; rfl
      rw [this] at h
      exact h
    · rw [if_neg hsafe, if_neg hsafe]
      exact ⟨st, rfl, by simpa using hst⟩)
  obtain ⟨st, e, h⟩ := this
  exact ⟨st, e, h⟩

/-! ### One layer -/

/-- The data of the two forward passes that probe element `w`. -/
def dataPasses (round : R → R) (eps : R) (data : List R) (w : Nat) : List (List R) :=
  [data.set w (round (data[w]?.getD 0 + eps)), data.set w (round (data[w]?.getD 0 - eps))]

/-- Whether the probe of element `w` is within tolerance. -/
def dataClose (round : R → R) (loss : Nat → List R → R) (deltas : List R) (eps : R) (data : List R)
    (w : Nat) : Bool :=
  close (loss (1 + 2 * w) (data.set w (round (data[w]?.getD 0 + eps))))
    (loss (2 + 2 * w) (data.set w (round (data[w]?.getD 0 - eps)))) eps (deltas[w]?.getD 0)

theorem layer_spec (round : R → R) (loss : Nat → List R → R) (deltas : List R) (eps : R)
    (data : List R) (hd : data.length ≤ deltas.length) :
    ∃ st : LayerState R, forLoop data.length (fun w st =>
      (rd st.data w).bind fun weight =>
      (rd deltas w).bind fun gradient =>
      (wr st.data w (round (weight + eps))).bind fun plus =>
      (wr plus w (round (weight - eps))).bind fun minus =>
      (wr minus w weight).map fun restored =>
        ({ data := restored
           passes := st.passes ++ [plus, minus]
           okay := if close (loss st.passes.length plus) (loss (st.passes.length + 1) minus) eps gradient
             then st.okay + 1 else st.okay } : LayerState R))
      { data := data, passes := [data] } = some st ∧ st.data = data ∧
      st.passes = data :: (List.range data.length).flatMap (dataPasses round eps data) ∧
      st.okay = ((List.range data.length).filter
        (fun w => dataClose round loss deltas eps data w)).length := by
  obtain ⟨st, e, h1, h2, h3, h4⟩ := forLoop_inv (n := data.length)
    (s := ({ data := data, passes := [data] } : LayerState R)) (f := fun w st =>
      (rd st.data w).bind fun weight =>
      (rd deltas w).bind fun gradient =>
      (wr st.data w (round (weight + eps))).bind fun plus =>
      (wr plus w (round (weight - eps))).bind fun minus =>
      (wr minus w weight).map fun restored =>
        ({ data := restored
           passes := st.passes ++ [plus, minus]
           okay := if close (loss st.passes.length plus) (loss (st.passes.length + 1) minus) eps gradient
             then st.okay + 1 else st.okay } : LayerState R))
    (fun k st => st.data = data ∧
      st.passes = data :: (List.range k).flatMap (dataPasses round eps data) ∧
      st.passes.length = 1 + 2 * k ∧
      st.okay = ((List.range k).filter (fun w => dataClose round loss deltas eps data w)).length)
    ⟨rfl, rfl, rfl, rfl⟩ (by
    rintro w st hw ⟨h1, h2, h3, h4⟩
    have r1 : rd data w = some data[w] := rd_eq_some hw
    have r1' : data[w]?.getD 0 = data[w] := by rw [List.getElem?_eq_getElem hw]; rfl
    have r2 : rd deltas w = some (deltas[w]'(by omega)) := rd_eq_some (by omega)
    have r2' : deltas[w]?.getD 0 = deltas[w]'(by omega) := by
      rw [List.getElem?_eq_getElem (by omega)]; rfl
    have w1 : wr data w (round (data[w] + eps)) = some (data.set w (round (data[w] + eps))) :=
      wr_of_lt hw
    have w2 : wr data w (round (data[w] - eps)) = some (data.set w (round (data[w] - eps))) :=
      wr_of_lt hw
    rw [h1, r1, Option.bind_some, r2, Option.bind_some, w1, Option.bind_some, wr_wr w1, w2,
      Option.bind_some, wr_wr w2, wr_same r1, Option.map_some]
    refine ⟨_, rfl, rfl, ?_, ?_, ?_⟩
    · dsimp only
      rw [List.range_succ, List.flatMap_append, List.flatMap_singleton, ← List.cons_append, ← h2]
      unfold dataPasses
      rw [r1']
    · dsimp only
      rw [List.length_append, h3]
      simp only [List.length_cons, List.length_nil]
      omega
    · dsimp only
      rw [List.range_succ, List.filter_append, List.length_append, ← h4, h3]
      have : dataClose round loss deltas eps data w =
          close (loss (1 + 2 * w) (data.set w (round (data[w] + eps))))
            (loss (1 + 2 * w + 1) (data.set w (round (data[w] - eps)))) eps (deltas[w]'(by omega)) := by
        unfold dataClose
        rw [r1', r2', show 1 + 2 * w + 1 = 2 + 2 * w by omega]
      rw [← this]
      by_cases hc : dataClose round loss deltas eps data w = true
      · simp [hc]
      · simp [hc])
  exact ⟨st, e, h1, h2, h4⟩

end
end CN24.GradientTester
