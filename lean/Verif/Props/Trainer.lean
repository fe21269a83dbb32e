import Verif.Proof.Trainer
import Verif.Model.Schedule
import Verif.Base.Nest
import Mathlib.Algebra.BigOperators.Field
import Mathlib.Algebra.Order.BigOperators.Group.Finset
import Mathlib.Tactic.Linarith
import Mathlib.Tactic.FieldSimp

/-
Property theorems about the error layer and the optimiser: C24 (error layer gradient), C61 (inputs
accepted by the error layer), C25 (gradient descent with momentum), C26 (QuickProp), C53 (learning
rate).
-/

namespace CN24.Props
open CN24 CN24.Tensor

variable {R : Type _}

/-! ## C24 and C61: error layer -/

/-- The weight tensor has a value for every pixel of the first input. -/
def WeightsFit (first third : Tensor R) : Prop :=
  third.samples = first.samples ∧ third.width = first.width ∧ third.height = first.height ∧
    0 < third.maps

theorem error_reads [Field R] {first second third : Tensor R} (h1 : first.WF) (h2 : second.WF)
    (h3 : third.WF) (hs : Sh first second) (ht : WeightsFit first third) {x y m s : Nat}
    (hin : first.InRange x y m s) :
    first.get x y m s = some (first.val x y m s) ∧ second.get x y m s = some (second.val x y m s) ∧
      third.get x y 0 s = some (third.val x y 0 s) := by
  obtain ⟨t1, t2, t3, t4⟩ := ht
  obtain ⟨i1, i2, i3, i4⟩ := hin
  refine ⟨get_eq_val h1 ⟨i1, i2, i3, i4⟩, get_eq_val h2 (hs.inRange.2 ⟨i1, i2, i3, i4⟩),
    get_eq_val h3 ⟨by omega, by omega, t4, by omega⟩⟩

theorem error_forward [Field R] {first second third delta : Tensor R} (lw : R) (h1 : first.WF)
    (h2 : second.WF) (h3 : third.WF) (h4 : delta.WF) (hs : Sh first second)
    (hd : Sh first delta) (ht : WeightsFit first third) :
    ∃ d, ErrorLayer.forward lw first second third delta = some d ∧ Sh first d ∧ d.WF ∧
      ∀ x y m s, first.InRange x y m s → d.val x y m s =
        (first.val x y m s - second.val x y m s) * third.val x y 0 s * lw := by
  obtain ⟨d1, d2, d3, d4⟩ := hd
  obtain ⟨u, u1, u2, u3, u4⟩ := nest_rows h4
    (f := fun sample map y x (delta : Tensor R) => (first.get x y map sample).bind fun a =>
      (second.get x y map sample).bind fun b => (third.get x y 0 sample).bind fun weight =>
      delta.put x y map sample ((a - b) * weight * lw))
    (v := fun x y m s => (first.val x y m s - second.val x y m s) * third.val x y 0 s * lw) (by
      intro s m y x u hin _
      have hin' : first.InRange x y m s := by
        obtain ⟨i1, i2, i3, i4⟩ := hin
        exact ⟨by omega, by omega, by omega, by omega⟩
      obtain ⟨e1, e2, e3⟩ := error_reads h1 h2 h3 hs ht hin'
      simp only [e1, e2, e3, Option.bind_some])
  refine ⟨u, ?_, (show Sh first delta from ⟨d1, d2, d3, d4⟩).trans u2, u3, ?_⟩
  · unfold ErrorLayer.forward
    rw [d1, d2, d3, d4]
    exact u1
  · rintro x y m s ⟨i1, i2, i3, i4⟩
    exact val_of_get (u4 x y m s ⟨by omega, by omega, by omega, by omega⟩)

theorem error_loss [Field R] {first second third : Tensor R} (lw : R) (h1 : first.WF)
    (h2 : second.WF) (h3 : third.WF) (hs : Sh first second) (ht : WeightsFit first third) :
    ErrorLayer.loss lw first second third = some ((∑ s ∈ Finset.range first.samples,
      ∑ m ∈ Finset.range first.maps, ∑ y ∈ Finset.range first.height, ∑ x ∈ Finset.range first.width,
        (first.val x y m s - second.val x y m s) * (first.val x y m s - second.val x y m s) *
          third.val x y 0 s * lw) / 2) := by
  unfold ErrorLayer.loss
  rw [forLoop_sum (g := fun s => ∑ m ∈ Finset.range first.maps, ∑ y ∈ Finset.range first.height,
    ∑ x ∈ Finset.range first.width,
        (first.val x y m s - second.val x y m s) * (first.val x y m s - second.val x y m s) *
          third.val x y 0 s * lw)]
  · simp
  intro s e i4
  rw [forLoop_sum (g := fun m => ∑ y ∈ Finset.range first.height, ∑ x ∈ Finset.range first.width,
        (first.val x y m s - second.val x y m s) * (first.val x y m s - second.val x y m s) *
          third.val x y 0 s * lw)]
  intro m e i3
  rw [forLoop_sum (g := fun y => ∑ x ∈ Finset.range first.width,
        (first.val x y m s - second.val x y m s) * (first.val x y m s - second.val x y m s) *
          third.val x y 0 s * lw)]
  intro y e i2
  rw [forLoop_sum]
  intro x e i1
  obtain ⟨e1, e2, e3⟩ := error_reads h1 h2 h3 hs ht ⟨i1, i2, i3, i4⟩
  rw [e1, e2, e3]
  rfl

/-- C24: the deltas written by the forward pass are the gradient of the loss with respect to the
first input.  For every other prediction `first'` of the same shape, with `h = first' - first`, the
loss changes by the scalar product of the deltas with `h` plus half the weighted square of `h`. -/
theorem C24_gradient [Field R] (h2ne : (2 : R) ≠ 0) (lw : R)
    (first first' second third delta : Tensor R) (h1 : first.WF) (h1' : first'.WF) (h2 : second.WF)
    (h3 : third.WF) (h4 : delta.WF) (hf : Sh first first') (hs : Sh first second)
    (hd : Sh first delta) (ht : WeightsFit first third) :
    ∃ d L L', ErrorLayer.forward lw first second third delta = some d ∧ Sh first d ∧
      ErrorLayer.loss lw first second third = some L ∧
      ErrorLayer.loss lw first' second third = some L' ∧
      L' = L +
        (∑ s ∈ Finset.range first.samples, ∑ m ∈ Finset.range first.maps,
          ∑ y ∈ Finset.range first.height, ∑ x ∈ Finset.range first.width,
            d.val x y m s * (first'.val x y m s - first.val x y m s)) +
        (∑ s ∈ Finset.range first.samples, ∑ m ∈ Finset.range first.maps,
          ∑ y ∈ Finset.range first.height, ∑ x ∈ Finset.range first.width,
            lw * third.val x y 0 s * (first'.val x y m s - first.val x y m s) ^ 2) / 2 := by
  obtain ⟨d, e1, e2, e3, e4⟩ := error_forward lw h1 h2 h3 h4 hs hd ht
  obtain ⟨f1, f2, f3, f4⟩ := hf
  obtain ⟨t1, t2, t3, t4⟩ := ht
  refine ⟨d, _, _, e1, e2, error_loss lw h1 h2 h3 hs ⟨t1, t2, t3, t4⟩,
    error_loss lw h1' h2 h3 (Sh.trans (Sh.symm ⟨f1, f2, f3, f4⟩) hs)
      ⟨by omega, by omega, by omega, t4⟩, ?_⟩
  rw [← f1, ← f2, ← f3, ← f4]
  rw [Finset.sum_div, Finset.sum_div, Finset.sum_div, ← Finset.sum_add_distrib,
    ← Finset.sum_add_distrib]
  refine Finset.sum_congr rfl fun s hs => ?_
  rw [Finset.sum_div, Finset.sum_div, Finset.sum_div, ← Finset.sum_add_distrib,
    ← Finset.sum_add_distrib]
  refine Finset.sum_congr rfl fun m hm => ?_
  rw [Finset.sum_div, Finset.sum_div, Finset.sum_div, ← Finset.sum_add_distrib,
    ← Finset.sum_add_distrib]
  refine Finset.sum_congr rfl fun y hy => ?_
  rw [Finset.sum_div, Finset.sum_div, Finset.sum_div, ← Finset.sum_add_distrib,
    ← Finset.sum_add_distrib]
  refine Finset.sum_congr rfl fun x hx => ?_
  rw [e4 x y m s ⟨Finset.mem_range.1 hx, Finset.mem_range.1 hy, Finset.mem_range.1 hm,
    Finset.mem_range.1 hs⟩]
  field_simp
  ring

/-- C24: the loss is not negative for non-negative weights, and zero when prediction and label
agree. -/
theorem C24_loss_sign [Field R] [LinearOrder R] [IsStrictOrderedRing R] (lw : R) (hlw : 0 ≤ lw)
    (first second third : Tensor R) (h1 : first.WF) (h2 : second.WF)
    (h3 : third.WF) (hs : Sh first second) (ht : WeightsFit first third)
    (hpos : ∀ v ∈ third.data, 0 ≤ v) :
    ∃ L, ErrorLayer.loss lw first second third = some L ∧ 0 ≤ L ∧
      (first.data = second.data → L = 0) := by
  refine ⟨_, error_loss lw h1 h2 h3 hs ht, ?_, ?_⟩
  · apply div_nonneg _ (by norm_num)
    refine Finset.sum_nonneg fun s _ => Finset.sum_nonneg fun m _ => Finset.sum_nonneg fun y _ =>
      Finset.sum_nonneg fun x _ => ?_
    have : 0 ≤ third.val x y 0 s := by
      unfold val
      rw [List.getD_eq_getElem?_getD]
      cases h : third.data[third.offset x y 0 s]? with
      | none => simp
      | some v => exact hpos v (List.mem_of_getElem? h)
    exact mul_nonneg (mul_nonneg (mul_self_nonneg _) this) hlw
  · intro e
    have : ∀ x y m s, first.val x y m s = second.val x y m s := by
      intro x y m s
      unfold val
      rw [hs.offset, e]
    simp [this]

/-- C61: inputs of equal dimensions with a matching weight tensor are accepted and processed. -/
theorem C61_matching_inputs_partial [Field R] (lw : R) (first second third delta : Tensor R)
    (h1 : first.WF) (h2 : second.WF) (h3 : third.WF) (h4 : delta.WF) (hs : Sh first second)
    (hd : Sh first delta) (ht : WeightsFit first third) :
    ErrorLayer.accepts first.shape second.shape third.shape = true ∧
      (ErrorLayer.forward lw first second third delta).isSome ∧
      (ErrorLayer.loss lw first second third).isSome := by
  refine ⟨?_, ?_, ?_⟩
  · obtain ⟨s1, s2, s3, s4⟩ := hs
    have ht1 := ht.1
    simp [ErrorLayer.accepts, shape, Shape.elements, s1, s2, s3, s4]
    omega
  · obtain ⟨d, e, _⟩ := error_forward lw h1 h2 h3 h4 hs hd ht
    rw [e]; rfl
  · rw [error_loss lw h1 h2 h3 hs ht]; rfl

/-- C61: different sample counts or element counts are refused. -/
theorem C61_refused (a b w : Shape)
    (h : a.samples ≠ b.samples ∨ a.elements ≠ b.elements ∨ a.samples ≠ w.samples) :
    ErrorLayer.accepts a b w = false := by
  unfold ErrorLayer.accepts
  rcases h with h | h | h <;> simp [h]

/-- The full property fails: the layer accepts a label of 4 x 1 pixels for a prediction of 2 x 2 and
reads outside its buffer, and it accepts a weight tensor of one pixel. -/
theorem C61_accepted_but_undefined :
    ErrorLayer.accepts ⟨1, 2, 2, 1⟩ ⟨1, 4, 1, 1⟩ ⟨1, 2, 2, 1⟩ = true ∧
    ErrorLayer.loss (1 : Rat) ⟨1, 2, 2, 1, [1, 2, 3, 4]⟩ ⟨1, 4, 1, 1, [1, 2, 3, 4]⟩
      ⟨1, 2, 2, 1, [1, 1, 1, 1]⟩ = none ∧
    ErrorLayer.accepts ⟨1, 2, 2, 1⟩ ⟨1, 2, 2, 1⟩ ⟨1, 1, 1, 1⟩ = true ∧
    ErrorLayer.loss (1 : Rat) ⟨1, 2, 2, 1, [1, 2, 3, 4]⟩ ⟨1, 2, 2, 1, [1, 2, 3, 4]⟩
      ⟨1, 1, 1, 1, [1]⟩ = none := by
  refine ⟨by decide +kernel, by decide +kernel, by decide +kernel, by decide +kernel⟩

/-- Non-vacuity: two maps share the weight of their pixel. -/
example : (ErrorLayer.forward (2 : Rat) ⟨1, 2, 1, 2, [1, 2, 3, 4]⟩ ⟨1, 2, 1, 2, [0, 0, 0, 1]⟩
      ⟨1, 2, 1, 1, [1, 3]⟩ ⟨1, 2, 1, 2, [9, 9, 9, 9]⟩).map (·.data) = some [2, 12, 6, 18] ∧
    ErrorLayer.loss (2 : Rat) ⟨1, 2, 1, 2, [1, 2, 3, 4]⟩ ⟨1, 2, 1, 2, [0, 0, 0, 1]⟩
      ⟨1, 2, 1, 1, [1, 3]⟩ = some 49 := by
  refine ⟨by decide +kernel, by decide +kernel⟩

/-! ## C25: gradient descent -/

section
open CN24.Trainer
variable [Field R] [LinearOrder R]

/-- The place of parameter `p` of node `l` in the flat buffers: parameters are numbered through. -/
def slot (weights : List (List (List R))) (l p : Nat) : Nat :=
  ((weights.take l).map List.length).sum + p

omit [Field R] [LinearOrder R] in
theorem slot_eq (ws : List (List (List R))) (l p : Nat) : slot ws l p = base (sizes ws) l + p := by
  unfold slot base sizes
  rw [← List.map_take, List.map_map]
  congr 2
  apply List.map_congr_left
  intro a _
  simp

/-- The derivative of `|w|`, zero at zero. -/
def sign (w : R) : R := if 0 < w then 1 else if w < 0 then -1 else 0

theorem sgn_eq_sign (w : R) : ((sgn w : Int) : R) = sign w := by
  unfold sgn sign
  rcases lt_trichotomy w 0 with h | h | h
  · simp [h, not_lt.2 h.le]
  · simp [h]
  · simp [h, not_lt.2 h.le]

/-- The trainer belongs to the network: built for it by the constructor, or a later state. -/
abbrev Fits (localLr : List R) (st : State R) : Prop := Aligned localLr st

/-- The constructor builds such a trainer, with all previous steps zero. -/
theorem C25_construct_fits (weights : List (List (List R))) (localLr : List R)
    (h : localLr.length = weights.length) :
    Fits localLr (construct weights) ∧ Fits localLr (reset (construct weights)) ∧
      ∀ l p e w, at3 weights l p e = some w →
        at2 (construct weights).lastDeltas (slot weights l p) e = some 0 := by
  have hc : Covers (sizes weights) (clearAll weights.flatten) := covers_clearAll (covers_flatten weights)
  refine ⟨⟨h, hc, hc, hc⟩, ⟨h, covers_clearAll hc, covers_clearAll hc, hc⟩, ?_⟩
  intro l p e w hw
  have hm := (at3_isSome_iff weights l p e).1 (by rw [hw]; rfl)
  show at2 (clearAll weights.flatten) _ _ = _
  have := at2_flatten weights hm
  dsimp only at this
  rw [at2_clearAll, slot_eq, this, hw]
  rfl

/-- If the divisor does not wrap around, it is the number of averaged samples. -/
theorem direction_eq {cfg : Settings R} (hn : cfg.sampleCount * cfg.sbatchsize < 2 ^ 32) {layerLr g w : R} :
    direction cfg layerLr g w = layerLr * (g / ((cfg.sampleCount * cfg.sbatchsize : Nat) : R) * cfg.lossSampling) +
      layerLr * (cfg.l2Weight * w + cfg.l1Weight * sign w) := by
  simp only [direction, sgn_eq_sign, u32, Nat.mod_eq_of_lt hn]

/-- C25, one iteration: every weight is changed by its own step, made of its own gradient, its own
value and its own previous step. -/
theorem C25_step_partial (cfg : Settings R) (hgd : cfg.method = .gradientDescent)
    (hn : cfg.sampleCount * cfg.sbatchsize < 2 ^ 32) (lr : R)
    (localLr : List R) (st : State R) (h : Fits localLr st) :
    ∃ st', applyGradients cfg lr localLr st = some st' ∧ Fits localLr st' ∧
      sizes st'.weights = sizes st.weights ∧
      ∀ l p e w layerLr g s, at3 st.weights l p e = some w → localLr[l]? = some layerLr →
        at2 st.accumulated (slot st.weights l p) e = some g →
        at2 st.lastDeltas (slot st.weights l p) e = some s →
        ∃ step, step = lr * (layerLr *
              (g / ((cfg.sampleCount * cfg.sbatchsize : Nat) : R) * cfg.lossSampling) +
            layerLr * (cfg.l2Weight * w + cfg.l1Weight * sign w)) + cfg.momentum * s ∧
          at3 st'.weights l p e = some (w - step) ∧
          at2 st'.lastDeltas (slot st.weights l p) e = some step := by
  obtain ⟨st', h1, h2, h3, _, _, h6⟩ := applyGradients_spec (cfg := cfg) lr h
  refine ⟨st', h1, h2, h3, ?_⟩
  intro l p e w layerLr g s k1 k2 k3 k4
  have hm := (at3_isSome_iff st.weights l p e).1 (by rw [k1]; rfl)
  rw [slot_eq] at k3 k4
  obtain ⟨q, k5⟩ := Option.isSome_iff_exists.1 (h.gradients _ hm)
  obtain ⟨f, _, f2, f3, _⟩ := h6 _ hm layerLr w g s q k2 k1 k3 k4 k5
  refine ⟨_, rfl, ?_, ?_⟩
  · rw [f2]; simp only [after, hgd, direction_eq hn]
  · rw [slot_eq, f3]; simp only [after, hgd, direction_eq hn]

/-- C25, an epoch: the states after each iteration form a sequence in which every weight follows
the momentum rule, with the gradients of all sequential batches of the iteration added up. -/
theorem C25_epoch_partial (cfg : Settings R) (hgd : cfg.method = .gradientDescent)
    (hn : cfg.sampleCount * cfg.sbatchsize < 2 ^ 32) (lr : Nat → R)
    (localLr : List R) (net : List (List (List R)) → Nat → List (List (List R)))
    (hnet : ∀ ws k, sizes (net ws k) = sizes ws) (n : Nat) (st : State R) (h : Fits localLr st) :
    ∃ seq : Nat → State R, seq 0 = st ∧ iterate cfg lr localLr net n st = some (seq n) ∧
      (∀ i, i ≤ n → Fits localLr (seq i) ∧ sizes (seq i).weights = sizes st.weights) ∧
      ∀ i, i < n → ∀ l p e w layerLr s, at3 (seq i).weights l p e = some w →
        localLr[l]? = some layerLr →
        at2 (seq i).lastDeltas (slot st.weights l p) e = some s →
        ∃ g step, g = ∑ b ∈ Finset.range cfg.sbatchsize,
            (at3 (net (seq i).weights (i * cfg.sbatchsize + b)) l p e).getD 0 ∧
          step = lr i * (layerLr *
              (g / ((cfg.sampleCount * cfg.sbatchsize : Nat) : R) * cfg.lossSampling) +
            layerLr * (cfg.l2Weight * w + cfg.l1Weight * sign w)) + cfg.momentum * s ∧
          at3 (seq (i + 1)).weights l p e = some (w - step) ∧
          at2 (seq (i + 1)).lastDeltas (slot st.weights l p) e = some step := by
  have hslot : ∀ ws : List (List (List R)), sizes ws = sizes st.weights → ∀ l p,
      slot st.weights l p = base (sizes ws) l + p := by
    intro ws hws l p
    rw [slot_eq, hws]
  obtain ⟨seq, s1, s2, s3, s4⟩ := forLoop_seq (n := n) (s := st)
    (f := fun i st => (forLoop cfg.sbatchsize (fun b acc =>
      accumulate (net st.weights (i * cfg.sbatchsize + b)) acc) (clearAll st.accumulated)).bind
      fun acc => applyGradients cfg (lr i) localLr { st with accumulated := acc })
    (P := fun st' => Fits localLr st' ∧ sizes st'.weights = sizes st.weights)
    (Q := fun i a b => ∀ l p e w layerLr s, at3 a.weights l p e = some w →
        localLr[l]? = some layerLr →
        at2 a.lastDeltas (slot st.weights l p) e = some s →
        ∃ g step, g = ∑ b ∈ Finset.range cfg.sbatchsize,
            (at3 (net a.weights (i * cfg.sbatchsize + b)) l p e).getD 0 ∧
          step = lr i * (layerLr *
              (g / ((cfg.sampleCount * cfg.sbatchsize : Nat) : R) * cfg.lossSampling) +
            layerLr * (cfg.l2Weight * w + cfg.l1Weight * sign w)) + cfg.momentum * s ∧
          at3 b.weights l p e = some (w - step) ∧
          at2 b.lastDeltas (slot st.weights l p) e = some step)
    ⟨h, rfl⟩ (by
      rintro i a hi ⟨ha, hsz⟩
      obtain ⟨b, b1, b2, b3, _, b5⟩ := iteration_spec (cfg := cfg) (lr i) ha
        (fun k => net a.weights (i * cfg.sbatchsize + k)) (fun k _ => hnet _ _)
      refine ⟨b, b1, ⟨b2, b3.trans hsz⟩, ?_⟩
      intro l p e w layerLr s k1 k2 k4
      have hm := (at3_isSome_iff a.weights l p e).1 (by rw [k1]; rfl)
      rw [hslot _ hsz] at k4 ⊢
      obtain ⟨q, k5⟩ := Option.isSome_iff_exists.1 (ha.gradients _ hm)
      obtain ⟨f, g, _, g2, f2, f3, _⟩ := b5 _ hm layerLr w s q k2 k1 k4 k5
      refine ⟨g, _, g2, rfl, ?_, ?_⟩
      · rw [f2]; simp only [after, hgd, direction_eq hn]
      · rw [f3]; simp only [after, hgd, direction_eq hn])
  exact ⟨seq, s1, s2, s3, s4⟩

/-- C25, refuted for iterations over 2^32 label pixels and more: the divisor is an `unsigned int` and wraps around,
and the gradient is not averaged.  Here 512 sequential batches of 32 images of 512 times 512 pixels are averaged over
nothing (infinite steps in C++), and 513 of them over one batch only. -/
theorem C25_divisor_wraps :
    (512 * 512 * 32) * 512 = 2 ^ 32 ∧
    (∀ cfg : Settings R, cfg.sampleCount = 512 * 512 * 32 → cfg.sbatchsize = 512 → ∀ layerLr g w : R,
      direction cfg layerLr g w = layerLr * (g / 0 * cfg.lossSampling) +
        layerLr * (cfg.l2Weight * w + cfg.l1Weight * sign w)) ∧
    (∀ cfg : Settings R, cfg.sampleCount = 512 * 512 * 32 → cfg.sbatchsize = 513 → ∀ layerLr g w : R,
      direction cfg layerLr g w = layerLr * (g / (cfg.sampleCount : R) * cfg.lossSampling) +
        layerLr * (cfg.l2Weight * w + cfg.l1Weight * sign w)) := by
  refine ⟨by norm_num, ?_, ?_⟩
  · intro cfg h1 h2 layerLr g w
    have : u32 (cfg.sampleCount * cfg.sbatchsize) = 0 := by rw [h1, h2]; rfl
    simp only [direction, sgn_eq_sign, this, Nat.cast_zero]
  · intro cfg h1 h2 layerLr g w
    have : u32 (cfg.sampleCount * cfg.sbatchsize) = cfg.sampleCount := by rw [h1, h2]; rfl
    simp only [direction, sgn_eq_sign, this]

/-- Non-vacuity: two nodes with one and two parameters; the second parameter of the second node
uses entry 2 of the flat buffers. -/
example : (applyGradients (R := Rat)
      { l1Weight := 1, l2Weight := 0, momentum := 1/2, mu := 1, method := .gradientDescent,
        sbatchsize := 2, sampleCount := 1, lossSampling := 1 } 1 [1, 2]
      { weights := [[[5]], [[1, 1], [-3]]], lastDeltas := [[0], [0, 0], [4]],
        lastGradients := [[0], [0, 0], [0]], accumulated := [[2], [0, 4], [6]] }).map
        (fun s => (s.weights, s.lastDeltas)) =
    some ([[[3]], [[-1, -5], [-9]]], [[2], [2, 6], [6]]) := by decide +kernel

/-! ## C26: QuickProp -/

/-- C26: the first weight of the network gets the plain gradient step. -/
theorem C26_first_weight_partial (cfg : Settings R) (hqp : cfg.method = .quickprop)
    (hn : cfg.sampleCount * cfg.sbatchsize < 2 ^ 32) (lr : R)
    (localLr : List R) (st : State R) (h : Fits localLr st) (hfirst : st.firstIteration = true)
    (w layerLr g : R) (hw : at3 st.weights 0 0 0 = some w) (hl : localLr[0]? = some layerLr)
    (hg : at2 st.accumulated 0 0 = some g) :
    ∃ st', applyGradients cfg lr localLr st = some st' ∧
      at3 st'.weights 0 0 0 = some (w - (1 / 10) * (layerLr *
              (g / ((cfg.sampleCount * cfg.sbatchsize : Nat) : R) * cfg.lossSampling) +
            layerLr * (cfg.l2Weight * w + cfg.l1Weight * sign w))) := by
  obtain ⟨st', h1, h2, h3, _, _, h6⟩ := applyGradients_spec (cfg := cfg) lr h
  refine ⟨st', h1, ?_⟩
  have hm := (at3_isSome_iff st.weights 0 0 0).1 (by rw [hw]; rfl)
  have hb : base (sizes st.weights) 0 = 0 := by simp [base]
  rw [hb] at hm
  have hhead : (cells (sizes st.weights)).head? = some ⟨0, 0, 0, 0⟩ := by
    obtain ⟨m1, m2, m3, _⟩ := mem_cells.1 hm
    dsimp only at m1 m2 m3
    unfold cells
    obtain ⟨a, ha⟩ := Nat.exists_eq_add_of_le' m1
    obtain ⟨b, hb'⟩ := Nat.exists_eq_add_of_le' m2
    obtain ⟨c, hc⟩ := Nat.exists_eq_add_of_le' m3
    rw [ha, List.range_succ_eq_map, List.flatMap_cons, hb', List.range_succ_eq_map,
      List.flatMap_cons, hc, List.range_succ_eq_map, List.map_cons, hb]
    rfl
  obtain ⟨s, k4⟩ := Option.isSome_iff_exists.1 (h.deltas _ hm)
  obtain ⟨q, k5⟩ := Option.isSome_iff_exists.1 (h.gradients _ hm)
  obtain ⟨f, f1, f2, _⟩ := h6 _ hm layerLr w g s q hl hw hg k4 k5
  rw [hhead, if_pos rfl, hfirst] at f1
  subst f1
  rw [f2]
  simp only [after, hqp, quickStep, direction_eq hn, if_true]
  congr 1
  ring

/-- C26: `Reset` makes the next iteration a first iteration again: after it the first weight moves
as in a fresh trainer, whatever was trained before, and weights and accumulated gradients are kept. -/
theorem C26_reset (cfg : Settings R) (hqp : cfg.method = .quickprop)
    (hn : cfg.sampleCount * cfg.sbatchsize < 2 ^ 32) (lr : R)
    (localLr : List R) (st : State R) (h : Fits localLr st)
    (w layerLr g : R) (hw : at3 st.weights 0 0 0 = some w) (hl : localLr[0]? = some layerLr)
    (hg : at2 st.accumulated 0 0 = some g) :
    (∀ i j v, at2 (reset st).lastDeltas i j = some v → v = 0) ∧
    (∀ i j v, at2 (reset st).lastGradients i j = some v → v = 0) ∧
    ∃ st', applyGradients cfg lr localLr (reset st) = some st' ∧
      at3 st'.weights 0 0 0 = some (w - (1 / 10) * (layerLr *
              (g / ((cfg.sampleCount * cfg.sbatchsize : Nat) : R) * cfg.lossSampling) +
            layerLr * (cfg.l2Weight * w + cfg.l1Weight * sign w))) := by
  have hz : ∀ (b : List (List R)) i j v, at2 (clearAll b) i j = some v → v = 0 := by
    intro b i j v hv
    rw [at2_clearAll, Option.map_eq_some_iff] at hv
    obtain ⟨_, _, rfl⟩ := hv
    rfl
  refine ⟨fun i j v => hz _ i j v, fun i j v => hz _ i j v, ?_⟩
  obtain ⟨f1, f2, f3, f4⟩ := h
  exact C26_first_weight_partial cfg hqp hn lr localLr (reset st)
    ⟨f1, covers_clearAll f2, covers_clearAll f3, f4⟩ rfl w layerLr g hw hl hg

/-- The full property fails: in the first iteration after construction or `Reset` at most one weight
of the whole network gets that step; every other weight whose slope is not negligible keeps its
value. -/
theorem C26_other_weights_stay [IsStrictOrderedRing R] (cfg : Settings R)
    (hqp : cfg.method = .quickprop) (hn : cfg.sampleCount * cfg.sbatchsize < 2 ^ 32) (lr : R)
    (localLr : List R) (st : State R) (h : Fits localLr st)
    (hd : ∀ i j v, at2 st.lastDeltas i j = some v → v = 0)
    (hq : ∀ i j v, at2 st.lastGradients i j = some v → v = 0) :
    ∃ st' l0 p0 e0, applyGradients cfg lr localLr st = some st' ∧
      ∀ l p e w layerLr g, (l, p, e) ≠ (l0, p0, e0) → at3 st.weights l p e = some w →
        localLr[l]? = some layerLr → at2 st.accumulated (slot st.weights l p) e = some g →
        1 / 10 ^ 15 < |layerLr *
              (g / ((cfg.sampleCount * cfg.sbatchsize : Nat) : R) * cfg.lossSampling) +
            layerLr * (cfg.l2Weight * w + cfg.l1Weight * sign w)| →
        at3 st'.weights l p e = some w := by
  obtain ⟨st', h1, h2, h3, _, _, h6⟩ := applyGradients_spec (cfg := cfg) lr h
  obtain ⟨c0, hc0⟩ : ∃ c0 : Cell, ∀ c, (cells (sizes st.weights)).head? = some c → c = c0 := by
    cases (cells (sizes st.weights)).head? with
    | none => exact ⟨⟨0, 0, 0, 0⟩, by simp⟩
    | some c => exact ⟨c, by simp [eq_comm]⟩
  refine ⟨st', c0.node, c0.param, c0.elem, h1, ?_⟩
  intro l p e w layerLr g hne k1 k2 k3 hsl
  have hm := (at3_isSome_iff st.weights l p e).1 (by rw [k1]; rfl)
  rw [slot_eq] at k3
  obtain ⟨s, k4⟩ := Option.isSome_iff_exists.1 (h.deltas _ hm)
  obtain ⟨q, k5⟩ := Option.isSome_iff_exists.1 (h.gradients _ hm)
  obtain ⟨f, f1, f2, _⟩ := h6 _ hm layerLr w g s q k2 k1 k3 k4 k5
  rw [if_neg (by
    intro e'
    have := hc0 _ e'
    exact hne (by rw [← this]))] at f1
  have hs0 := hd _ _ _ k4
  have hq0 := hq _ _ _ k5
  subst hs0 hq0
  have hf : f = false := by rw [f1]; simp [flagAfter, hqp]
  subst hf
  rw [f2]
  simp only [after, hqp, quickStep, Bool.false_eq_true, if_false]
  have hdir : direction cfg layerLr g w = layerLr *
              (g / ((cfg.sampleCount * cfg.sbatchsize : Nat) : R) * cfg.lossSampling) +
            layerLr * (cfg.l2Weight * w + cfg.l1Weight * sign w) := by
    exact direction_eq hn
  rw [← hdir] at hsl
  generalize direction cfg layerLr g w = d at hsl
  rw [if_neg (not_le.2 hsl)]
  have hd0 : d ≠ 0 := by
    rintro rfl
    rw [abs_zero] at hsl
    exact absurd hsl (not_lt.2 (by positivity))
  have hsg : sgn d ≠ sgn (0 : R) := by
    unfold sgn
    rcases lt_or_gt_of_ne hd0 with h | h
    · simp [h, not_lt.2 h.le]
    · simp [h, not_lt.2 h.le]
  rw [if_neg hsg]
  congr 1
  split <;> simp

/-- With the default settings the second of two weights with the same gradient does not move. -/
theorem C26_flag_cleared_too_early :
    (applyGradients (R := Rat)
      { l1Weight := 0, l2Weight := 0, momentum := 9/10, mu := 7/4, method := .quickprop,
        sbatchsize := 1, sampleCount := 1, lossSampling := 1 } (1/10000) [1]
      { construct [[[1, 1]]] with accumulated := [[10, 10]] }).map (·.weights) =
    some [[[0, 1]]] := by decide +kernel

end

/-! ## C53: learning rate -/

section
open CN24.Trainer

/-- C53: the schedule starts at the base rate. -/
theorem C53_starts_at_base (base gamma exponent : ℝ) (iterations : Nat) :
    learningRateAt base gamma exponent 0 iterations 0 = base := by
  simp [learningRateAt, calculateLR, lrIndex, u32]

theorem calculateLR_antitone {base gamma exponent : ℝ} (hb : 0 ≤ base) (hg : 0 ≤ gamma)
    (he : 0 ≤ exponent) {i j : Nat} (h : i ≤ j) :
    calculateLR base gamma exponent j ≤ calculateLR base gamma exponent i ∧
      0 ≤ calculateLR base gamma exponent j := by
  unfold calculateLR
  have hij : (i : ℝ) ≤ j := by exact_mod_cast h
  have hi : (0 : ℝ) ≤ i := Nat.cast_nonneg i
  have h1 : 0 < 1 + gamma * (i : ℝ) := by positivity
  have h2 : 1 + gamma * (i : ℝ) ≤ 1 + gamma * (j : ℝ) := by
    have := mul_le_mul_of_nonneg_left hij hg
    linarith
  refine ⟨mul_le_mul_of_nonneg_left (Real.rpow_le_rpow_of_nonpos h1 h2 (by linarith)) hb, ?_⟩
  exact mul_nonneg hb (Real.rpow_nonneg (by linarith) _)

/-- C53: as long as the iteration number fits 32 bits, iteration `i` of epoch `e` uses the rate of
iteration `e * n + i`, and a later iteration never has a higher rate.  The full property lacks the
condition on the size. -/
theorem C53_never_increases_partial (base gamma exponent : ℝ) (hb : 0 ≤ base) (hg : 0 ≤ gamma)
    (he : 0 ≤ exponent) (n e i e' i' : Nat) (hi : i < n) (hi' : i' < n)
    (hlater : e < e' ∨ (e = e' ∧ i ≤ i')) (hfit : e' * n + i' < 2 ^ 32) :
    learningRateAt base gamma exponent e n i =
        base * (1 + gamma * ((e * n + i : Nat) : ℝ)) ^ (-exponent) ∧
      learningRateAt base gamma exponent e' n i' ≤ learningRateAt base gamma exponent e n i ∧
      0 ≤ learningRateAt base gamma exponent e' n i' := by
  have hle : e * n + i ≤ e' * n + i' := by
    rcases hlater with h | ⟨rfl, h⟩
    · have := Nat.mul_le_mul_right n (show e + 1 ≤ e' from h)
      rw [Nat.add_mul] at this
      omega
    · omega
  have hx : ∀ a b : Nat, a * n + b < 2 ^ 32 → lrIndex a n b = a * n + b := by
    intro a b h
    unfold lrIndex u32
    rw [Nat.mod_eq_of_lt (show a * n < 2 ^ 32 by omega), Nat.mod_eq_of_lt h]
  unfold learningRateAt
  rw [hx e i (by omega), hx e' i' hfit]
  exact ⟨rfl, calculateLR_antitone hb hg he hle⟩

/-- The full property fails: the iteration number is computed in 32 bits, so after `2 ^ 32`
iterations the rate jumps back to the base rate. -/
theorem C53_wraps_around (base gamma exponent : ℝ) (hb : 0 < base) (hg : 0 < gamma)
    (he : 0 < exponent) :
    learningRateAt base gamma exponent (2 ^ 31) 2 0 = base ∧
      learningRateAt base gamma exponent (2 ^ 31 - 1) 2 1 < base := by
  have h1 : lrIndex (2 ^ 31) 2 0 = 0 := by decide +kernel
  have h2 : lrIndex (2 ^ 31 - 1) 2 1 = 2 ^ 32 - 1 := by decide +kernel
  unfold learningRateAt
  rw [h1, h2]
  unfold calculateLR
  constructor
  · simp
  · have : (1 + gamma * ((2 ^ 32 - 1 : Nat) : ℝ)) ^ (-exponent) < 1 := by
      apply Real.rpow_lt_one_of_one_lt_of_neg
      · have : (0 : ℝ) < ((2 ^ 32 - 1 : Nat) : ℝ) := by norm_num
        have := mul_pos hg this
        linarith
      · linarith
    calc base * (1 + gamma * ((2 ^ 32 - 1 : Nat) : ℝ)) ^ (-exponent) < base * 1 :=
          mul_lt_mul_of_pos_left this hb
      _ = base := mul_one base

/-- Non-vacuity: the default settings, epochs 3 and 7 of 500 iterations. -/
example : learningRateAt 0.0001 0.0003 0.75 7 500 10 ≤ learningRateAt 0.0001 0.0003 0.75 3 500 499 :=
  (C53_never_increases_partial 0.0001 0.0003 0.75 (by norm_num) (by norm_num) (by norm_num) 500 3 499
    7 10 (by omega) (by omega) (Or.inl (by omega)) (by omega)).2.1

end

end CN24.Props
