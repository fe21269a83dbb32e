import Verif.Proof.Activations
import Mathlib.Analysis.SpecialFunctions.Sigmoid
import Mathlib.Analysis.SpecialFunctions.Trigonometric.DerivHyp
import Mathlib.Algebra.BigOperators.Field
import Mathlib.Tactic.NormNum

/-! C49: activation layers propagate the derivative of their forward function.
C55: softmax outputs are probabilities. -/

namespace CN24.Props
open CN24 CN24.Tensor CN24.Activations

/-- Four tensors of an activation layer as the network provides them: the output has been accepted by
`Connect`, and each delta has the shape of its data. -/
structure ActivationTensors (input output outputDelta inputDelta : Tensor ℝ) : Prop where
  input_wf : input.WF
  output_wf : output.WF
  outputDelta_wf : outputDelta.WF
  inputDelta_wf : inputDelta.WF
  connected : connect input.shape output.shape = true
  outputDelta_sh : Sh output outputDelta
  inputDelta_sh : Sh input inputDelta

/-- The layer computes `F` element by element, and its backward pass, run after the forward pass,
writes the incoming delta times the derivative of `F` at the input, wherever `Smooth` holds. -/
def Differentiates (F : ℝ → ℝ) (Smooth : ℝ → Prop)
    (forward : Tensor ℝ → Tensor ℝ → Option (Tensor ℝ))
    (backward : Tensor ℝ → Tensor ℝ → Tensor ℝ → Tensor ℝ → Option (Tensor ℝ)) : Prop :=
  ∀ input output outputDelta inputDelta, ActivationTensors input output outputDelta inputDelta →
    ∃ out, forward input output = some out ∧ Sh output out ∧ out.WF ∧
    ∃ din, backward input out outputDelta inputDelta = some din ∧ Sh inputDelta din ∧
      ∀ x y m s, input.InRange x y m s →
        ∃ v d, input.get x y m s = some v ∧ outputDelta.get x y m s = some d ∧
          out.get x y m s = some (F v) ∧
          (Smooth v → ∃ F', HasDerivAt F F' v ∧ din.get x y m s = some (d * F'))

theorem differentiates {F : ℝ → ℝ} {Smooth : ℝ → Prop}
    {forward : Tensor ℝ → Tensor ℝ → Option (Tensor ℝ)}
    {backward : Tensor ℝ → Tensor ℝ → Tensor ℝ → Tensor ℝ → Option (Tensor ℝ)}
    (f : ℝ → ℝ) (g : ℝ → ℝ → ℝ → ℝ)
    (hf : ∀ input output, forward input output =
      elementwise input.elements (fun e => (rd input.data e).map f) output)
    (hb : ∀ input output outputDelta inputDelta, input.WF → output.WF → outputDelta.WF →
      inputDelta.WF → Sh input output → Sh output outputDelta → Sh input inputDelta →
      ∃ u, backward input output outputDelta inputDelta = some u ∧ Sh inputDelta u ∧
      ∀ x y m s, input.InRange x y m s → ∀ v o d, input.get x y m s = some v →
        output.get x y m s = some o → outputDelta.get x y m s = some d →
        u.get x y m s = some (g v o d))
    (hF : ∀ v, f v = F v)
    (hg : ∀ v d, Smooth v → ∃ F', HasDerivAt F F' v ∧ g v (F v) d = d * F') :
    Differentiates F Smooth forward backward := by
  intro input output outputDelta inputDelta h
  have hs := connect_sh h.connected
  obtain ⟨out, e1, s1, w1, g1⟩ := elementwise_map h.output_wf h.input_wf hs f
  obtain ⟨din, e2, s2, g2⟩ := hb input out outputDelta inputDelta h.input_wf w1 h.outputDelta_wf
    h.inputDelta_wf (hs.trans s1) (s1.symm.trans h.outputDelta_sh) h.inputDelta_sh
  refine ⟨out, by rw [hf, e1], s1, w1, din, e2, s2, ?_⟩
  intro x y m s hin
  obtain ⟨v, hv⟩ := Option.isSome_iff_exists.1 (get_isSome h.input_wf hin)
  obtain ⟨d, hd⟩ := Option.isSome_iff_exists.1
    (get_isSome h.outputDelta_wf (h.outputDelta_sh.inRange.2 (hs.inRange.2 hin)))
  have ho : out.get x y m s = some (F v) := by
    rw [g1 x y m s (hs.inRange.2 hin), hv, Option.map_some, hF]
  refine ⟨v, d, hv, hd, ho, ?_⟩
  intro hsm
  obtain ⟨F', h1, h2⟩ := hg v d hsm
  exact ⟨F', h1, by rw [g2 x y m s hin v _ d hv ho hd, h2]⟩

theorem sigmoid_eq (v : ℝ) : Activations.sigmoid Real.exp v = 1 / (1 + Real.exp (-v)) := rfl

/-- C49 for the sigmoid layer, at all inputs. -/
theorem C49_sigmoid : Differentiates (fun x => 1 / (1 + Real.exp (-x))) (fun _ => True)
    (sigmoidForward Real.exp) sigmoidBackward := by
  refine differentiates (Activations.sigmoid Real.exp) (fun _ o d => sigmoidDelta d o)
    (fun _ _ => rfl) ?_ (fun _ => rfl) ?_
  · intro input output outputDelta inputDelta h1 h2 h3 h4 s1 s2 s3
    obtain ⟨u, e, su, _, g⟩ := elementwise_map2 h4 h3 h2 ((s1.trans s2).symm.trans s3)
      (s1.symm.trans s3) (n := input.elements) s3.elements.symm (fun d o => sigmoidDelta d o)
    exact ⟨u, e, su, fun x y m s hin v o d _ ho hd => g x y m s (s3.inRange.2 hin) d o hd ho⟩
  · intro v d _
    have e : (fun x => 1 / (1 + Real.exp (-x))) = Real.sigmoid := by
      funext x; rw [Real.sigmoid_def, one_div]
    rw [e]
    refine ⟨_, Real.hasDerivAt_sigmoid v, ?_⟩
    rw [show 1 / (1 + Real.exp (-v)) = Real.sigmoid v by rw [Real.sigmoid_def, one_div]]
    unfold sigmoidDelta
    ring

/-- Sigmoid outputs lie in (0, 1). -/
theorem C49_sigmoid_range (input output : Tensor ℝ) (hi : input.WF) (ho : output.WF)
    (hc : connect input.shape output.shape = true) :
    ∃ out, sigmoidForward Real.exp input output = some out ∧
      ∀ x y m s, input.InRange x y m s → ∃ o, out.get x y m s = some o ∧ 0 < o ∧ o < 1 := by
  have hs := connect_sh hc
  obtain ⟨out, e1, _, _, g⟩ := elementwise_map ho hi hs (Activations.sigmoid Real.exp)
  refine ⟨out, e1, ?_⟩
  intro x y m s hin
  obtain ⟨v, hv⟩ := Option.isSome_iff_exists.1 (get_isSome hi hin)
  refine ⟨Activations.sigmoid Real.exp v, by rw [g x y m s (hs.inRange.2 hin), hv]; rfl, ?_, ?_⟩
  · rw [sigmoid_eq, one_div, ← Real.sigmoid_def]; exact Real.sigmoid_pos v
  · rw [sigmoid_eq, one_div, ← Real.sigmoid_def]; exact Real.sigmoid_lt_one v

theorem tanh_eq_tanh (v : ℝ) : Activations.tanh Real.exp v = Real.tanh v := by
  unfold Activations.tanh
  rw [Real.tanh_eq, two_mul, Real.exp_add, Real.exp_neg]
  have := Real.exp_pos v
  field_simp
  ring

theorem hasDerivAt_tanh' (v : ℝ) : HasDerivAt Real.tanh (1 - Real.tanh v * Real.tanh v) v := by
  have h := (Real.hasDerivAt_sinh v).div (Real.hasDerivAt_cosh v) (ne_of_gt (Real.cosh_pos v))
  have e : Real.tanh = fun x => Real.sinh x / Real.cosh x := by
    funext x; exact Real.tanh_eq_sinh_div_cosh x
  rw [e]
  refine h.congr_deriv ?_
  have := Real.cosh_pos v
  field_simp

/-- C49 for the hyperbolic tangent layer, at all inputs. -/
theorem C49_tanh : Differentiates Real.tanh (fun _ => True) (tanhForward Real.exp) tanhBackward := by
  refine differentiates (Activations.tanh Real.exp) (fun _ o d => tanhDelta d o)
    (fun _ _ => rfl) ?_ tanh_eq_tanh ?_
  · intro input output outputDelta inputDelta h1 h2 h3 h4 s1 s2 s3
    obtain ⟨u, e, su, _, g⟩ := elementwise_map2 h4 h3 h2 ((s1.trans s2).symm.trans s3)
      (s1.symm.trans s3) (n := input.elements) s3.elements.symm (fun d o => tanhDelta d o)
    exact ⟨u, e, su, fun x y m s hin v o d _ ho hd => g x y m s (s3.inRange.2 hin) d o hd ho⟩
  · intro v d _
    exact ⟨_, hasDerivAt_tanh' v, rfl⟩

/-- Outputs of the hyperbolic tangent layer lie in (-1, 1). -/
theorem C49_tanh_range (input output : Tensor ℝ) (hi : input.WF) (ho : output.WF)
    (hc : connect input.shape output.shape = true) :
    ∃ out, tanhForward Real.exp input output = some out ∧
      ∀ x y m s, input.InRange x y m s → ∃ o, out.get x y m s = some o ∧ -1 < o ∧ o < 1 := by
  have hs := connect_sh hc
  obtain ⟨out, e1, _, _, g⟩ := elementwise_map ho hi hs (Activations.tanh Real.exp)
  refine ⟨out, e1, ?_⟩
  intro x y m s hin
  obtain ⟨v, hv⟩ := Option.isSome_iff_exists.1 (get_isSome hi hin)
  refine ⟨Activations.tanh Real.exp v, by rw [g x y m s (hs.inRange.2 hin), hv]; rfl, ?_, ?_⟩
  · rw [tanh_eq_tanh]; exact Real.neg_one_lt_tanh v
  · rw [tanh_eq_tanh]; exact Real.tanh_lt_one v

/-- C49 for the rectifier layer, at all inputs except zero. -/
theorem C49_relu : Differentiates (fun x => max 0 x) (fun v => v ≠ 0) reluForward
    (fun input _ outputDelta inputDelta => reluBackward input outputDelta inputDelta) := by
  refine differentiates relu (fun v _ d => reluDelta d v) (fun _ _ => rfl) ?_ ?_ ?_
  · intro input output outputDelta inputDelta h1 h2 h3 h4 s1 s2 s3
    obtain ⟨u, e, su, _, g⟩ := elementwise_map2 h4 h3 h1 ((s1.trans s2).symm.trans s3)
      s3 (n := input.elements) s3.elements.symm (fun d v => reluDelta d v)
    exact ⟨u, e, su, fun x y m s hin v o d hv _ hd => g x y m s (s3.inRange.2 hin) d v hd hv⟩
  · intro v
    unfold relu
    split
    · rename_i h; exact (max_eq_right (le_of_lt h)).symm
    · rename_i h; exact (max_eq_left (not_lt.1 h)).symm
  · intro v d hv
    unfold reluDelta
    rcases lt_or_gt_of_ne hv with h | h
    · refine ⟨0, ?_, by rw [if_neg (not_lt.2 (le_of_lt h)), mul_zero]⟩
      refine (hasDerivAt_const v (0 : ℝ)).congr_of_eventuallyEq ?_
      filter_upwards [Iio_mem_nhds h] with x hx
      exact max_eq_left (le_of_lt hx)
    · refine ⟨1, ?_, by rw [if_pos h, mul_one]⟩
      refine (hasDerivAt_id v).congr_of_eventuallyEq ?_
      filter_upwards [Ioi_mem_nhds h] with x hx
      exact max_eq_right (le_of_lt hx)

/-- At the kink the rectifier's backward pass writes zero, which is the derivative from the left. -/
theorem C49_relu_kink (d : ℝ) : reluDelta d 0 = d * 0 ∧
    HasDerivWithinAt (fun x : ℝ => max 0 x) 0 (Set.Iic 0) 0 := by
  constructor
  · simp [reluDelta]
  · refine (hasDerivWithinAt_const (0 : ℝ) _ (0 : ℝ)).congr ?_ ?_
    · intro x hx; exact max_eq_left hx
    · simp

/-- Non-vacuity: tensors of two samples that meet the hypotheses. -/
example : ActivationTensors ⟨2, 1, 1, 1, [0, 1]⟩ ⟨2, 1, 1, 1, [5, 6]⟩ ⟨2, 1, 1, 1, [7, 8]⟩
    ⟨2, 1, 1, 1, [9, 9]⟩ :=
  ⟨rfl, rfl, rfl, rfl, by decide, ⟨rfl, rfl, rfl, rfl⟩, ⟨rfl, rfl, rfl, rfl⟩⟩

example : (reluForward (⟨1, 3, 1, 1, [-2, 0, 5]⟩ : Tensor Rat) ⟨1, 3, 1, 1, [9, 9, 9]⟩).map (·.data) =
    some [0, 0, 5] ∧
    (reluBackward (⟨1, 3, 1, 1, [-2, 0, 5]⟩ : Tensor Rat) ⟨1, 3, 1, 1, [7, 8, 9]⟩
      ⟨1, 3, 1, 1, [1, 1, 1]⟩).map (·.data) = some [0, 0, 9] := by
  constructor <;> decide +kernel

/-! ### Softmax -/

/-- What the softmax layer really computes, for all shapes: along the first row of the first map of
each sample the normalised exponentials, everything else stays as it was. -/
theorem C55_row (input output : Tensor ℝ) (hi : input.WF) (ho : output.WF)
    (hc : connect input.shape output.shape = true) (h1 : 0 < input.height) (h2 : 0 < input.maps) :
    ∃ u, softmaxForward Real.exp input output = some u ∧ Sh output u ∧
      (∀ x y m s, input.InRange x y m s → ¬ (y = 0 ∧ m = 0) →
        u.get x y m s = output.get x y m s) ∧
      (∀ x s, input.InRange x 0 0 s → ∃ v, input.get x 0 0 s = some v ∧
        u.get x 0 0 s = some (Real.exp v /
          ∑ x ∈ Finset.range input.width, Real.exp (input.val x 0 0 s))) := by
  have hs := connect_sh hc
  obtain ⟨u, e, hu⟩ := softmax_spec Real.exp hi ho hs h1 h2
  refine ⟨u, e, hu.sh, ?_, ?_⟩
  · intro x y m s hin hne
    exact hu.miss (hs.inRange.2 hin) (by rw [if_neg hne])
  · intro x s hin
    exact ⟨_, get_eq_val hi hin, hu.hit (hs.inRange.2 hin) (by rw [if_pos ⟨rfl, rfl⟩])⟩

/-- C55 where all values of a sample lie along its width: the outputs are positive, at most one, add up
to one, and are ordered like the inputs. -/
theorem C55_partial (input output : Tensor ℝ) (hi : input.WF) (ho : output.WF)
    (hc : connect input.shape output.shape = true) (h1 : input.height = 1) (h2 : input.maps = 1)
    (hw : 0 < input.width) :
    ∃ u, softmaxForward Real.exp input output = some u ∧
      (∀ x s, x < input.width → s < input.samples →
        ∃ o, u.get x 0 0 s = some o ∧ 0 < o ∧ o ≤ 1) ∧
      (∀ s, s < input.samples → ∑ x ∈ Finset.range input.width, u.val x 0 0 s = 1) ∧
      (∀ x x' s, x < input.width → x' < input.width → s < input.samples →
        (u.val x 0 0 s ≤ u.val x' 0 0 s ↔ input.val x 0 0 s ≤ input.val x' 0 0 s)) := by
  obtain ⟨u, e, hu, _, hrow⟩ := C55_row input output hi ho hc (by omega) (by omega)
  have hs := connect_sh hc
  have hpos : ∀ s, 0 < ∑ x ∈ Finset.range input.width, Real.exp (input.val x 0 0 s) := fun s =>
    Finset.sum_pos (fun x _ => Real.exp_pos _) ⟨0, Finset.mem_range.2 hw⟩
  have hin : ∀ x s, x < input.width → s < input.samples → input.InRange x 0 0 s :=
    fun x s hx hs => ⟨hx, by omega, by omega, hs⟩
  have hval : ∀ x s, x < input.width → s < input.samples →
      u.get x 0 0 s = some (Real.exp (input.val x 0 0 s) /
        ∑ x ∈ Finset.range input.width, Real.exp (input.val x 0 0 s)) := by
    intro x s hx hsl
    obtain ⟨v, hv, h⟩ := hrow x s (hin x s hx hsl)
    rw [get_eq_val hi (hin x s hx hsl)] at hv
    rw [Option.some.inj hv]
    exact h
  have hval' : ∀ x s, x < input.width → s < input.samples →
      u.val x 0 0 s = Real.exp (input.val x 0 0 s) /
        ∑ x ∈ Finset.range input.width, Real.exp (input.val x 0 0 s) := by
    intro x s hx hsl
    have := hval x s hx hsl
    unfold Tensor.val
    unfold Tensor.get rd at this
    rw [List.getD_eq_getElem?_getD, this]
    rfl
  refine ⟨u, e, ?_, ?_, ?_⟩
  · intro x s hx hsl
    refine ⟨_, hval x s hx hsl, div_pos (Real.exp_pos _) (hpos s), ?_⟩
    rw [div_le_one (hpos s)]
    exact Finset.single_le_sum (f := fun x => Real.exp (input.val x 0 0 s))
      (fun x _ => le_of_lt (Real.exp_pos _)) (Finset.mem_range.2 hx)
  · intro s hsl
    rw [Finset.sum_congr rfl (fun x hx => hval' x s (Finset.mem_range.1 hx) hsl), ← Finset.sum_div]
    exact div_self (ne_of_gt (hpos s))
  · intro x x' s hx hx' hsl
    rw [hval' x s hx hsl, hval' x' s hx' hsl, div_le_div_iff_of_pos_right (hpos s), Real.exp_le_exp]

/-- The full property fails when the values of a sample lie along its maps, the layout of all other
layers: with one pixel and two maps the second output is never written, for any exponential function
and any content of the output tensor. -/
theorem C55_maps_not_written (a b c d : ℝ) :
    ∃ u, softmaxForward Real.exp ⟨1, 1, 1, 2, [a, b]⟩ ⟨1, 1, 1, 2, [c, d]⟩ = some u ∧
      u.get 0 0 0 0 = some 1 ∧ u.get 0 0 1 0 = some d ∧ u.val 0 0 0 0 + u.val 0 0 1 0 = 1 + d := by
  obtain ⟨u, e, hu, hmiss, hrow⟩ := C55_row ⟨1, 1, 1, 2, [a, b]⟩ ⟨1, 1, 1, 2, [c, d]⟩ rfl rfl
    rfl Nat.one_pos Nat.two_pos
  have g0 : u.get 0 0 0 0 = some 1 := by
    obtain ⟨v, hv, h⟩ := hrow 0 0 ⟨Nat.one_pos, Nat.one_pos, Nat.two_pos, Nat.one_pos⟩
    have hv' : v = a := (Option.some.inj hv).symm
    have hs : (∑ x ∈ Finset.range 1, Real.exp ((⟨1, 1, 1, 2, [a, b]⟩ : Tensor ℝ).val x 0 0 0)) =
        Real.exp a := by rw [Finset.sum_range_one]; rfl
    rw [h, hv']
    show some (Real.exp a / ∑ x ∈ Finset.range 1, _) = _
    rw [hs, div_self (ne_of_gt (Real.exp_pos a))]
  have g1 : u.get 0 0 1 0 = some d :=
    hmiss 0 0 1 0 ⟨Nat.one_pos, Nat.one_pos, Nat.one_lt_two, Nat.one_pos⟩ (by omega)
  have v0 : u.val 0 0 0 0 = 1 := by
    unfold Tensor.val; unfold Tensor.get rd at g0; rw [List.getD_eq_getElem?_getD, g0]; rfl
  have v1 : u.val 0 0 1 0 = d := by
    unfold Tensor.val; unfold Tensor.get rd at g1; rw [List.getD_eq_getElem?_getD, g1]; rfl
  exact ⟨u, e, g0, g1, by rw [v0, v1]⟩

/-- Non-vacuity, with a rational stand-in for the exponential function: two samples. -/
example : (softmaxForward (fun v => v * v) (⟨2, 2, 1, 1, [1, 2, 3, 1]⟩ : Tensor Rat)
      ⟨2, 2, 1, 1, [9, 9, 9, 9]⟩).map (·.data) = some [1 / 5, 4 / 5, 9 / 10, 1 / 10] := by
  decide +kernel

/-- C49: the layer accepts the output it created, which has the shape of the input, and no other. -/
theorem C49_connect (input output : Shape) :
    (connect input (createOutput input) = true ∧ createOutput input = input) ∧ (connect input output = true → output = input) := by
  refine ⟨⟨by simp [connect, createOutput], rfl⟩, fun h => ?_⟩
  unfold connect at h
  simp only [Bool.and_eq_true, decide_eq_true_eq] at h
  obtain ⟨⟨⟨h1, h2⟩, h3⟩, h4⟩ := h
  cases input; cases output
  simp_all

end CN24.Props
