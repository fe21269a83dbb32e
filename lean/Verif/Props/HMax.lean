import Verif.Proof.HMax
import Verif.Props.Activations
import Verif.Props.GradientLayers
import Mathlib.Analysis.SpecialFunctions.Log.Deriv
import Mathlib.Analysis.Complex.ExponentialBounds

/-! C66: the activation layer with learned slope and offset. -/

namespace CN24.Props
open CN24 CN24.Tensor CN24.HMax Finset

/-- The logistic function with slope `a` and offset `b`. -/
noncomputable def logistic (a b x : ℝ) : ℝ := 1 / (1 + Real.exp (-(a * x + b)))

theorem logistic_sigmoid (a b x : ℝ) : logistic a b x = Real.sigmoid (a * x + b) := by
  rw [Real.sigmoid_def, logistic, one_div]

theorem logistic_pos (a b x : ℝ) : 0 < logistic a b x := by rw [logistic_sigmoid]; exact Real.sigmoid_pos _
theorem logistic_lt_one (a b x : ℝ) : logistic a b x < 1 := by rw [logistic_sigmoid]; exact Real.sigmoid_lt_one _

theorem logistic_x (a b x : ℝ) : HasDerivAt (fun x => logistic a b x) (a * mix (logistic a b x)) x := by
  simp only [logistic_sigmoid]
  have h := (Real.hasDerivAt_sigmoid (a * x + b)).comp x (((hasDerivAt_id x).const_mul a).add_const b)
  refine h.congr_deriv ?_
  unfold mix; ring

theorem logistic_a (a b x : ℝ) : HasDerivAt (fun a => logistic a b x) (mix (logistic a b x) * x) a := by
  simp only [logistic_sigmoid]
  have h := (Real.hasDerivAt_sigmoid (a * x + b)).comp a (((hasDerivAt_id a).mul_const x).add_const b)
  refine h.congr_deriv ?_
  unfold mix; ring

theorem logistic_b (a b x : ℝ) : HasDerivAt (fun b => logistic a b x) (mix (logistic a b x)) b := by
  simp only [logistic_sigmoid]
  have h := (Real.hasDerivAt_sigmoid (a * x + b)).comp b ((hasDerivAt_id b).const_add (a * x))
  refine h.congr_deriv ?_
  unfold mix; ring

/-- C66, with loss weight zero: the outputs are the logistic function of the inputs with the learned slope and
offset, and the input deltas are the output deltas times its derivative. -/
theorem C66_input_gradient_partial (c : Config ℝ) (hw : c.lossWeight = 0) :
    Differentiates (logistic c.a c.b) (fun _ => True) (HMax.forward Real.exp c)
      (fun input output outputDelta inDelta =>
        (HMax.backward Real.log c input output outputDelta inDelta).map (·.1)) := by
  refine differentiates (HMax.value Real.exp c) (fun _ o d => HMax.inputDelta Real.log c o d)
    (fun _ _ => rfl) ?_ (fun _ => rfl) ?_
  · intro input output outputDelta inputDelta h1 h2 h3 h4 s1 s2 s3
    obtain ⟨u, e, su, _, g⟩ := Activations.elementwise_map2 h4 h3 h2 ((s1.trans s2).symm.trans s3)
      (s1.symm.trans s3) (n := input.elements) s3.elements.symm (fun d o => HMax.inputDelta Real.log c o d)
    obtain ⟨t, e1, e2⟩ := backward_eq Real.log c h1 h2 h3 h4 s1.elements (s1.trans s2).elements s3.elements
    obtain rfl := Option.some.inj (e.symm.trans e1)
    refine ⟨u, by rw [e2]; rfl, su, fun x y m s hin v o d _ ho hd => g x y m s (s3.inRange.2 hin) d o hd ho⟩
  · intro v d _
    refine ⟨_, logistic_x c.a c.b v, ?_⟩
    have : HMax.value Real.exp c v = logistic c.a c.b v := rfl
    simp only [HMax.inputDelta, hw, this]
    ring

/-- C66: the layer starts as the logistic function of the input plus one, and without loss weight its input deltas
are those of that function. -/
theorem C66_initial {c c' : Config ℝ} {i o : Shape} (h : HMax.connect c i o = some c') (hw : c.lossWeight = 0) :
    Differentiates (fun x => 1 / (1 + Real.exp (-(x + 1)))) (fun _ => True) (HMax.forward Real.exp c')
      (fun input output outputDelta inDelta =>
        (HMax.backward Real.log c' input output outputDelta inDelta).map (·.1)) := by
  unfold HMax.connect at h
  split at h
  · obtain rfl := Option.some.inj h
    have := C66_input_gradient_partial { c with a := 1, b := 1 } hw
    refine (funext fun x => ?_ : logistic 1 1 = fun x => 1 / (1 + Real.exp (-(x + 1)))) ▸ this
    rw [logistic, one_mul]
  · simp at h

/-- The penalty on the outputs whose derivative the input deltas contain: `o log o + o / mu`. -/
noncomputable def inputPenalty (mu a b x : ℝ) : ℝ :=
  logistic a b x * Real.log (logistic a b x) + logistic a b x / mu

theorem inputPenalty_b (mu a b x : ℝ) :
    HasDerivAt (fun b => inputPenalty mu a b x)
      (mix (logistic a b x) * (Real.log (logistic a b x) + 1) + mix (logistic a b x) / mu) b := by
  have h := logistic_b a b x
  have hp := (logistic_pos a b x).ne'
  refine ((h.mul (h.log hp)).add (h.div_const mu)).congr_deriv ?_
  field_simp

theorem inputPenalty_x (mu a b x : ℝ) :
    HasDerivAt (fun x => inputPenalty mu a b x)
      (a * (mix (logistic a b x) * (Real.log (logistic a b x) + 1) + mix (logistic a b x) / mu)) x := by
  have h := logistic_x a b x
  have hp := (logistic_pos a b x).ne'
  refine ((h.mul (h.log hp)).add (h.div_const mu)).congr_deriv ?_
  field_simp

/-- C66, for every loss weight: the input delta is the output delta times the derivative of the output by the input,
plus the loss weight times the derivative of the penalty by the *offset*. -/
theorem C66_input_penalty_partial (c : Config ℝ) (input output outputDelta inDelta : Tensor ℝ)
    (h : ActivationTensors input output outputDelta inDelta) :
    ∃ out din da db, HMax.forward Real.exp c input output = some out ∧
      HMax.backward Real.log c input out outputDelta inDelta = some (din, da, db) ∧
      ∀ x y m s, input.InRange x y m s → ∃ v d p q, input.get x y m s = some v ∧ outputDelta.get x y m s = some d ∧
        HasDerivAt (logistic c.a c.b) p v ∧ HasDerivAt (fun b => inputPenalty c.mu c.a b v) q c.b ∧
        din.get x y m s = some (d * p + c.lossWeight * q) := by
  have hs := Activations.connect_sh h.connected
  obtain ⟨out, e1, s1, w1, g1⟩ := Activations.elementwise_map h.output_wf h.input_wf hs (HMax.value Real.exp c)
  obtain ⟨t, e3, e2⟩ := backward_eq Real.log c h.input_wf w1 h.outputDelta_wf h.inputDelta_wf
    (hs.trans s1).elements (hs.trans h.outputDelta_sh).elements h.inputDelta_sh.elements
  obtain ⟨u, e, su, _, g⟩ := Activations.elementwise_map2 h.inputDelta_wf h.outputDelta_wf w1
    ((hs.trans h.outputDelta_sh).symm.trans h.inputDelta_sh)
    ((hs.trans s1).symm.trans h.inputDelta_sh) (n := input.elements) h.inputDelta_sh.elements.symm
    (fun d o => HMax.inputDelta Real.log c o d)
  obtain rfl := Option.some.inj (e.symm.trans e3)
  refine ⟨out, u, _, _, e1, e2, fun x y m s hin => ?_⟩
  have hv := get_eq_val h.input_wf hin
  have hd := get_eq_val h.outputDelta_wf ((hs.trans h.outputDelta_sh).inRange.2 hin)
  have ho := g1 x y m s (hs.inRange.2 hin)
  rw [hv, Option.map_some] at ho
  refine ⟨_, _, _, _, hv, hd, logistic_x c.a c.b _, inputPenalty_b c.mu c.a c.b _, ?_⟩
  rw [g x y m s (h.inputDelta_sh.inRange.2 hin) _ _ hd ho]
  have : HMax.value Real.exp c (input.val x y m s) = logistic c.a c.b (input.val x y m s) := rfl
  rw [this]
  unfold HMax.inputDelta
  congr 1
  ring

/-- C66, refuted: at slope two the penalty's part of the input delta is half the derivative of the penalty by the
input. -/
theorem C66_penalty_slope_missing : ∃ (c : Config ℝ) (v q : ℝ),
    HasDerivAt (fun x => inputPenalty c.mu c.a c.b x) q v ∧ c.lossWeight = 1 ∧ 0 < q ∧
    2 * HMax.inputDelta Real.log c (logistic c.a c.b v) 0 = q := by
  have h := inputPenalty_x 1 2 0 0
  have hl : logistic 2 0 0 = 1 / 2 := by unfold logistic; norm_num
  refine ⟨⟨2, 0, 1, 1, 1⟩, 0, _, h, rfl, ?_, ?_⟩
  · rw [hl]
    have : Real.log (1 / 2) = - Real.log 2 := by rw [one_div, Real.log_inv]
    have h2 := Real.log_two_lt_d9
    rw [this]
    unfold mix
    norm_num
    linarith
  · unfold HMax.inputDelta
    ring

/-- What the weight deltas are the gradient of, for one input value: the output, and with the loss weight the
distance of the outputs from an exponential distribution with mean `mu` (Triesch 2005, the reference in the
code). -/
noncomputable def sparseness (mu lossWeight a b x : ℝ) : ℝ :=
  logistic a b x +
    lossWeight * (logistic a b x / mu - Real.log (a * (logistic a b x * (1 - logistic a b x))))

theorem sparseness_b (c : Config ℝ) (ha : c.a ≠ 0) (x : ℝ) :
    HasDerivAt (fun b => sparseness c.mu c.lossWeight c.a b x)
      (-1 * c.lossWeight + stepB c (logistic c.a c.b x)) c.b := by
  have h := logistic_b c.a c.b x
  have hp := (logistic_pos c.a c.b x).ne'
  have hq : 1 - logistic c.a c.b x ≠ 0 := (sub_pos.2 (logistic_lt_one c.a c.b x)).ne'
  have h1 := (h.mul (h.const_sub 1)).const_mul c.a
  have h2 := h1.log (mul_ne_zero ha (mul_ne_zero hp hq))
  refine (h.add (((h.div_const c.mu).sub h2).const_mul c.lossWeight)).congr_deriv ?_
  simp only [stepB, mix, Pi.mul_apply]
  field_simp
  ring

theorem sparseness_a (c : Config ℝ) (ha : c.a ≠ 0) (x : ℝ) :
    HasDerivAt (fun a => sparseness c.mu c.lossWeight a c.b x)
      (-1 / c.a * c.lossWeight + stepA c x (logistic c.a c.b x)) c.a := by
  have h := logistic_a c.a c.b x
  have hp := (logistic_pos c.a c.b x).ne'
  have hq : 1 - logistic c.a c.b x ≠ 0 := (sub_pos.2 (logistic_lt_one c.a c.b x)).ne'
  have h1 := (hasDerivAt_id c.a).mul (h.mul (h.const_sub 1))
  have h2 := h1.log (mul_ne_zero ha (mul_ne_zero hp hq))
  refine (h.add (((h.div_const c.mu).sub h2).const_mul c.lossWeight)).congr_deriv ?_
  simp only [stepA, mix, Pi.mul_apply, id]
  field_simp
  ring

/-- C66: the deltas of slope and offset are the gradient of the *sum of the outputs* plus the weighted
sparseness term, whatever the output deltas are. -/
theorem C66_weight_gradient_partial (c : Config ℝ) (ha : c.a ≠ 0) (input output outputDelta inDelta : Tensor ℝ)
    (h : ActivationTensors input output outputDelta inDelta) :
    ∃ out din da db, HMax.forward Real.exp c input output = some out ∧
      HMax.backward Real.log c input out outputDelta inDelta = some (din, c.localLr * da, c.localLr * db) ∧
      HasDerivAt (fun a => ∑ i ∈ range input.elements, sparseness c.mu c.lossWeight a c.b (input.data.getD i 0)) da
        c.a ∧
      HasDerivAt (fun b => ∑ i ∈ range input.elements, sparseness c.mu c.lossWeight c.a b (input.data.getD i 0)) db
        c.b := by
  have hs := Activations.connect_sh h.connected
  obtain ⟨out, e1, s1, w1, g1⟩ := Activations.elementwise_map h.output_wf h.input_wf hs (HMax.value Real.exp c)
  obtain ⟨t, -, e2⟩ := backward_eq Real.log c h.input_wf w1 h.outputDelta_wf h.inputDelta_wf
    (hs.trans s1).elements (hs.trans h.outputDelta_sh).elements h.inputDelta_sh.elements
  have hout : ∀ i < input.elements, out.data.getD i 0 = logistic c.a c.b (input.data.getD i 0) := by
    intro i hi
    obtain ⟨x, y, m, s, hin, rfl⟩ := offset_surj input hi
    have h1 := g1 x y m s (hs.inRange.2 hin)
    rw [get_eq_val h.input_wf hin, Option.map_some] at h1
    have h2 := val_of_get h1
    unfold Tensor.val at h2
    rw [(hs.trans s1).offset] at h2
    exact h2
  refine ⟨out, t, _, _, e1, e2, ?_, ?_⟩
  · refine (HasDerivAt.fun_sum fun i _ => sparseness_a c ha (input.data.getD i 0)).congr_deriv ?_
    rw [Finset.sum_add_distrib, Finset.sum_const, Finset.card_range, nsmul_eq_mul]
    unfold weightDelta
    dsimp only
    congr 1
    · ring
    · exact Finset.sum_congr rfl fun i hi => by rw [hout i (Finset.mem_range.1 hi)]
  · refine (HasDerivAt.fun_sum fun i _ => sparseness_b c ha (input.data.getD i 0)).congr_deriv ?_
    rw [Finset.sum_add_distrib, Finset.sum_const, Finset.card_range, nsmul_eq_mul]
    unfold weightDelta
    dsimp only
    congr 1
    · ring
    · exact Finset.sum_congr rfl fun i hi => by rw [hout i (Finset.mem_range.1 hi)]

end CN24.Props

namespace CN24.Net
open CN24 CN24.Tensor CN24.Props CN24.HMax Finset

/-- C66, refuted: without loss weight the layer does not back-propagate exactly at any parameters and any
non-empty input, because the deltas of its weights do not depend on the output deltas. -/
theorem C66_weights_ignore_loss (c : Config ℝ) (hw : c.lossWeight = 0) (hl : c.localLr ≠ 0) (sh : Shape)
    (hsh : 0 < sh.elements) (p : Vec) (x : Nat → Vec) :
    ¬ ExactAt (hmaxSem c sh) 2 [(sh.elements, true)] 1 (fun _ => sh.elements) p x := by
  intro h
  obtain ⟨Y', l', hY, hl', hd⟩ := h (fun t i => p i + (if i = 1 then t else 0)) (fun i => if i = 1 then 1 else 0)
    (fun _ => x) (fun _ _ => 0) (by funext i; simp) rfl
    (by
      intro i hi
      by_cases h1 : i = 1
      · simp only [h1, if_true]
        exact (hasDerivAt_id (0 : ℝ)).const_add _
      · simp only [h1, if_false, add_zero]
        exact hasDerivAt_const _ _)
    (by intro j k pr _ i _; exact hasDerivAt_const _ _) (by intro _ _ _ _ _; rfl)
  obtain ⟨r, hr, heq⟩ := hd fun _ _ => 0
  have hl0 : l' = 0 := hl'.unique (hasDerivAt_const _ _)
  let c' : Config ℝ := { c with a := p 0, b := p 1 }
  have hs : Sh (tensorOf sh (x 0)) (buffer sh) := tensorOf_sh _ _ _
  obtain ⟨out, e1, s1, w1, g1⟩ := Activations.elementwise_map (tensorOf_wf sh 0) (tensorOf_wf sh (x 0)) hs
    (HMax.value Real.exp c')
  have hf : (hmaxSem c sh).forward p x 0 = vecOf out := by
    show vecOfOption (HMax.forward Real.exp c' (tensorOf sh (x 0)) (buffer sh)) = _
    have : HMax.forward Real.exp c' (tensorOf sh (x 0)) (buffer sh) = some out := e1
    rw [this]
    rfl
  have hto : tensorOf sh ((hmaxSem c sh).forward p x 0) = out := by rw [hf]; exact tensorOf_vecOf s1 w1
  obtain ⟨t, -, e2⟩ := backward_eq Real.log c' (tensorOf_wf sh (x 0)) w1 (tensorOf_wf sh 0) (tensorOf_wf sh 0)
    (hs.trans s1).elements (tensorOf_sh sh (x 0) 0).elements (tensorOf_sh sh (x 0) 0).elements
  have hb : ((hmaxSem c sh).backward ([(sh.elements, true)].any (·.2)) p x ((hmaxSem c sh).forward p x)
      (fun _ _ => 0)).2 1 = c.localLr * (weightDelta c' (tensorOf sh (x 0)) out).2 := by
    show (match HMax.backward Real.log c' (tensorOf sh (x 0)) (tensorOf sh ((hmaxSem c sh).forward p x 0))
      (tensorOf sh 0) (buffer sh) with
      | some (t, da, db) => (fun j => if j = 0 then some (vecOf t) else none, fun i => if i = 0 then da else db)
      | none => (fun _ => none, 0)).2 1 = _
    rw [hto]
    have : HMax.backward Real.log c' (tensorOf sh (x 0)) out (tensorOf sh 0) (buffer sh) = _ := e2
    rw [this]
    rfl
  have hpos : 0 < (weightDelta c' (tensorOf sh (x 0)) out).2 := by
    unfold weightDelta
    have hw' : c'.lossWeight = 0 := hw
    simp only [stepB, hw', mul_zero, add_zero, zero_add]
    refine Finset.sum_pos ?_ ⟨0, Finset.mem_range.2 (by rw [elements_shape]; exact hsh)⟩
    intro i hi
    have hi' := Finset.mem_range.1 hi
    obtain ⟨a, b, m, s, hin, rfl⟩ := offset_surj _ hi'
    have h1 := g1 a b m s (hs.inRange.2 hin)
    rw [get_eq_val (tensorOf_wf sh (x 0)) hin, Option.map_some] at h1
    have h2 := val_of_get h1
    unfold Tensor.val at h2
    rw [(hs.trans s1).offset] at h2
    rw [h2]
    have h3 := logistic_pos c'.a c'.b ((tensorOf sh (x 0)).data.getD ((tensorOf sh (x 0)).offset a b m s) 0)
    have h4 := logistic_lt_one c'.a c'.b ((tensorOf sh (x 0)).data.getD ((tensorOf sh (x 0)).offset a b m s) 0)
    exact mul_pos (sub_pos.2 h4) h3
  rw [hl0] at heq
  simp only [pair, zero_mul, Finset.sum_const_zero, mul_zero, add_zero, zero_add, ite_self, Finset.sum_range_succ,
    Finset.sum_range_zero, if_true, mul_one] at heq
  simp only [show ((0 : Nat) = 1) = False from by simp, if_false, mul_zero, zero_add] at heq
  rw [hb] at heq
  exact absurd heq.symm (mul_ne_zero hl hpos.ne')

/-- The hypotheses of the theorems above can be met. -/
example : ∃ (c : Config ℝ) (input output outputDelta inDelta : Tensor ℝ), c.lossWeight = 0 ∧ c.localLr ≠ 0 ∧
    c.a ≠ 0 ∧ 0 < input.shape.elements ∧ ActivationTensors input output outputDelta inDelta :=
  ⟨⟨1, 1, 1, 0, 1⟩, tensorOf ⟨2, 3, 4, 5⟩ fun i => i, buffer ⟨2, 3, 4, 5⟩, tensorOf ⟨2, 3, 4, 5⟩ fun _ => 1,
    buffer ⟨2, 3, 4, 5⟩, rfl, one_ne_zero, one_ne_zero, by decide, tensorOf_wf _ _, tensorOf_wf _ _,
    tensorOf_wf _ _, tensorOf_wf _ _, rfl, tensorOf_sh _ _ _, tensorOf_sh _ _ _⟩

end CN24.Net
