import Verif.Proof.Convolution
import Verif.Props.TensorMath

/-
Property theorems about the convolution layer: C35 (forward pass), C36 (accepted geometries),
C57 (gradients).
-/

namespace CN24.Props
open CN24 CN24.Tensor CN24.TensorMath CN24.Convolution

variable {R : Type _} [CommRing R]

/-! ## C35 -/

/-- A pixel of the image, zero outside. -/
def pixel {R : Type _} [Zero R] (t : Tensor R) (x y : Int) (m s : Nat) : R :=
  if 0 ≤ x ∧ x < t.width ∧ 0 ≤ y ∧ y < t.height then t.val x.toNat y.toNat m s else 0

theorem padded_eq_pixel (t : Tensor R) (x y : Int) (m s : Nat) :
    padded t x y m s = pixel t x y m s := by
  unfold padded pixel; simp only [and_assoc]

variable [DecidableEq R]

/-- C35: each output of the forward pass is the bias plus the sum over the kernel elements and the
input maps of the group of weight times padded input pixel; when testing, scaled by one minus the
dropout fraction.  Only the output and the two buffers change. -/
theorem C35_forward (l : Layer R) (h : l.Connected) (testing : Bool)
    (hp : testing = true ∨ l.dropout = 0) :
    ∃ l', l.feedForward testing = .done l' ∧ l'.Connected ∧
      (∃ a b c, l' = { l with im2colFf := a, smsFf := b, output := c }) ∧
      ∀ ox oy om s, ox < l.outputWidth → oy < l.outputHeight → om < l.params.outputMaps →
        s < l.input.samples →
        l'.output.get ox oy om s = some (
          let mapsPerGroup := l.inputMaps / l.params.group
          let firstMap := om / (l.params.outputMaps / l.params.group) * mapsPerGroup
          (if testing then 1 - l.dropout else 1) *
          (l.bias.val om 0 0 0 + ∑ im ∈ Finset.range mapsPerGroup,
            ∑ ky ∈ Finset.range l.params.kernelHeight, ∑ kx ∈ Finset.range l.params.kernelWidth,
              l.weights.val kx ky im om *
              pixel l.input ((ox : Int) * l.params.strideWidth + kx - l.params.padWidth)
                ((oy : Int) * l.params.strideHeight + ky - l.params.padHeight)
                (firstMap + im) s)) := by
  obtain ⟨l', h1, h2, h3, _, _, h6⟩ := forward_spec h testing hp
  refine ⟨l', h1, h3, h2, ?_⟩
  intro ox oy om s hox hoy hom hs
  rw [h6 ox oy om s ⟨by rw [h.output.2.1]; exact hox, by rw [h.output.2.2.1]; exact hoy,
    by rw [h.output.2.2.2.1]; exact hom, by rw [h.output.1]; exact hs⟩]
  unfold convAt
  simp only [padded_eq_pixel]

/-- Training with a dropout fraction is refused. -/
theorem C35_dropout_refused (l : Layer R) (h : l.Connected) (hp : l.dropout ≠ 0) :
    l.feedForward false = .fatal := by
  obtain ⟨l', h1, _⟩ := forward_spec (l := { l with dropout := 0 }) { h with } false (Or.inr rfl)
  unfold Layer.feedForward at h1 ⊢
  simp only [Bool.false_eq_true, if_false] at h1 ⊢
  simp only [if_neg hp]
  have hs : ({ l with dropout := 0 } : Layer R).shape = l.shape := rfl
  have hk : ({ l with dropout := 0 } : Layer R).kernelSize = l.kernelSize := rfl
  have hq : ({ l with dropout := 0 } : Layer R).positions = l.positions := rfl
  rw [hs] at h1
  cases e1 : im2col l.shape l.input l.im2colFf with
  | fatal => rw [e1] at h1; simp at h1
  | undefined => rw [e1] at h1; simp at h1
  | done P =>
    rw [e1] at h1
    simp only [Outcome.bind_done, hk, hq] at h1 ⊢
    revert h1
    generalize forO _ _ _ = o
    cases o with
    | fatal => simp
    | undefined => simp
    | done C =>
      simp only [Outcome.bind_done]
      generalize gemm true false false l.params.outputMaps l.positions 1 1 l.bias 0 1 l.ones 0
        l.positions 1 C 0 l.positions = o2
      cases o2 with
      | fatal => simp
      | undefined => simp
      | done D =>
        simp only [Outcome.bind_done]
        generalize TensorMath.sms _ _ = o3
        cases o3 with
        | none => simp
        | some out => simp

omit [DecidableEq R] in
/-- The layer built by `Connect` meets the hypotheses. -/
theorem connect_connected (p : Params) (dropout : R) (samples iw ih im ow oh : Nat)
    (hg : 0 < p.group) (hi : p.group ∣ im) (ho : p.group ∣ p.outputMaps)
    (hs : 0 < p.strideWidth ∧ 0 < p.strideHeight)
    (hw : (ow : Int) = outDim p.padWidth iw p.kernelWidth p.strideWidth)
    (hh : (oh : Int) = outDim p.padHeight ih p.kernelHeight p.strideHeight) :
    (Layer.connect p dropout samples iw ih im ow oh).Connected where
  group_pos := hg
  group_in := hi
  group_out := ho
  stride := hs
  width := hw
  height := hh
  input := Is.fill' ..
  inputDelta := Is.fill' ..
  output := Is.fill' ..
  outputDelta := Is.fill' ..
  weights := Is.fill' ..
  weightsDelta := Is.fill' ..
  bias := Is.fill' ..
  biasDelta := Is.fill' ..
  im2colFf := Is.fill' ..
  smsFf := Is.fill' ..
  sms2Bp := Is.fill' ..
  bpDeltax := Is.fill' ..
  ones := Is.fill' ..
  ones_one := by
    intro v hv
    exact (List.mem_replicate.1 hv).2

/-- A layer with two groups: 2 input maps, 2 output maps, kernel 2x1, image 3x1. -/
def exampleLayer : Layer Int :=
  { Layer.connect ⟨2, 2, 1, 1, 1, 0, 0, 2⟩ 0 1 3 1 2 2 1 with
    input := ⟨1, 3, 1, 2, [1, 2, 3, 4, 5, 6]⟩
    weights := ⟨2, 2, 1, 1, [10, 1, 2, 3]⟩
    bias := ⟨1, 2, 1, 1, [100, 200]⟩ }

example : exampleLayer.Connected :=
  { connect_connected (⟨2, 2, 1, 1, 1, 0, 0, 2⟩ : Params) (0 : Int) 1 3 1 2 2 1 (by decide) (by decide)
      (by decide) (by decide) (by decide) (by decide) with
    input := ⟨rfl, rfl, rfl, rfl, rfl⟩
    weights := ⟨rfl, rfl, rfl, rfl, rfl⟩
    bias := ⟨rfl, rfl, rfl, rfl, rfl⟩ }

/-- Output of the example: `100 + 10 a + b` on the first map and `200 + 2 a + 3 b` on the second. -/
example : (exampleLayer.feedForward false).bind (fun l => .done l.output) =
    .done ⟨1, 2, 1, 2, [112, 123, 223, 228]⟩ := by decide +kernel

/-! ## C36 -/

theorem outDim_spec {pad input kernel stride : Nat} (hs : 0 < stride) :
    (kernel ≤ input + 2 * pad →
      outDim pad input kernel stride = ((input + 2 * pad - kernel) / stride + 1 : Nat)) ∧
    (input + 2 * pad < kernel → outDim pad input kernel stride ≤ 1) := by
  unfold outDim
  constructor
  · intro h
    have e : (2 * (pad : Int) + input - kernel) = ((input + 2 * pad - kernel : Nat) : Int) := by omega
    rw [e, Int.tdiv_eq_ediv_of_nonneg (by omega), ← Int.natCast_ediv]
    push_cast
    rfl
  · intro h
    have : (2 * (pad : Int) + input - kernel).tdiv stride ≤ 0 := by
      have e : (2 * (pad : Int) + input - kernel) = -((kernel - (input + 2 * pad) : Nat) : Int) := by omega
      rw [e, Int.neg_tdiv]
      have := Int.tdiv_nonneg (a := ((kernel - (input + 2 * pad) : Nat) : Int)) (b := stride)
        (by omega) (by omega)
      omega
    omega

theorem connectDim_spec {pad input kernel stride w : Nat} (hs : 0 < stride)
    (hb : pad < 2 ^ 31 ∧ input < 2 ^ 31 ∧ kernel < 2 ^ 31 ∧ stride < 2 ^ 31)
    (hw : 0 < w) (hw1 : (w : Int) = outDim pad input kernel stride) :
    connectDim pad input kernel stride w = true ↔ kernel ≤ input + 2 * pad := by
  obtain ⟨h1, h2⟩ := outDim_spec (pad := pad) (input := input) (kernel := kernel) hs
  unfold connectDim
  rw [decide_eq_true_iff]
  constructor
  · intro h
    apply Classical.byContradiction
    intro hlt
    have hle := h2 (by omega)
    have hw' : w = 1 := by omega
    have hu : u64 ((pad : Int) + pad + input - kernel) = 2 ^ 64 - (kernel - (input + 2 * pad)) := by
      unfold u64; omega
    rw [hu, hw'] at h
    have hq : 2 ^ 32 ≤ (2 ^ 64 - (kernel - (input + 2 * pad))) / stride := by
      rw [Nat.le_div_iff_mul_le hs]
      have : 2 ^ 32 * stride ≤ 2 ^ 32 * 2 ^ 31 := Nat.mul_le_mul_left _ (by omega)
      omega
    have hq2 : (2 ^ 64 - (kernel - (input + 2 * pad))) / stride ≤ 2 ^ 64 - 1 := by
      refine Nat.le_trans (Nat.div_le_self _ _) ?_
      omega
    generalize (2 ^ 64 - (kernel - (input + 2 * pad))) / stride = q at *
    unfold u64 at h
    omega
  · intro hle
    have e := h1 hle
    have hu : u64 ((pad : Int) + pad + input - kernel) = input + 2 * pad - kernel := by
      unfold u64; omega
    rw [hu]
    have hq := Nat.div_le_self (input + 2 * pad - kernel) stride
    generalize (input + 2 * pad - kernel) / stride = q at *
    unfold u64
    omega

/-- C36, convolution: the constructor refuses exactly the zero kernels, the zero strides and the
output map counts that cannot be split into groups (a zero group count divides by zero), and keeps
all other parameters as they are. -/
theorem C36_constructor (p : Params) :
    (construct p = .done p ↔ 0 < p.kernelWidth ∧ 0 < p.kernelHeight ∧ 0 < p.strideWidth ∧
      0 < p.strideHeight ∧ 0 < p.group ∧ p.group ∣ p.outputMaps) ∧
    (construct p = .undefined ↔ 0 < p.kernelWidth ∧ 0 < p.kernelHeight ∧ 0 < p.strideWidth ∧
      0 < p.strideHeight ∧ p.group = 0) ∧
    (∀ q, construct p = .done q → q = p) := by
  unfold construct
  rw [Nat.dvd_iff_mod_eq_zero]
  split
  · refine ⟨⟨nofun, fun h => by omega⟩, ⟨nofun, fun h => by omega⟩, nofun⟩
  split
  · refine ⟨⟨nofun, fun h => by omega⟩, ⟨nofun, fun h => by omega⟩, nofun⟩
  split
  · refine ⟨⟨nofun, fun h => by omega⟩, ⟨fun _ => by omega, fun _ => rfl⟩, nofun⟩
  split
  · refine ⟨⟨nofun, fun h => by omega⟩, ⟨nofun, fun h => by omega⟩, nofun⟩
  · refine ⟨⟨fun _ => by omega, fun _ => rfl⟩, ⟨nofun, fun h => by omega⟩, ?_⟩
    intro q h
    exact (Outcome.done.inj h).symm

/-- C36, convolution: the layer is initialised exactly if at least one kernel position fits into
the padded input in both directions (the size is refused otherwise), and the numbers of rows and
columns of the output are the numbers of fitting positions.  Sizes below 2^31, where the `int`
conversions of the code are exact. -/
theorem C36_convolution (p : Params) (iw ih im : Nat)
    (hs : 0 < p.strideWidth ∧ 0 < p.strideHeight) (hg : 0 < p.group) (hi : p.group ∣ im)
    (hb1 : p.padWidth < 2 ^ 31 ∧ iw < 2 ^ 31 ∧ p.kernelWidth < 2 ^ 31 ∧ p.strideWidth < 2 ^ 31)
    (hb2 : p.padHeight < 2 ^ 31 ∧ ih < 2 ^ 31 ∧ p.kernelHeight < 2 ^ 31 ∧ p.strideHeight < 2 ^ 31) :
    (p.kernelWidth ≤ iw + 2 * p.padWidth ∧ p.kernelHeight ≤ ih + 2 * p.padHeight ∧
      ∃ w h, initialise p iw ih im = .done (some (w, h)) ∧
        (∀ q, q < w ↔ q * p.strideWidth + p.kernelWidth ≤ iw + 2 * p.padWidth) ∧
        (∀ q, q < h ↔ q * p.strideHeight + p.kernelHeight ≤ ih + 2 * p.padHeight)) ∨
    (¬ (p.kernelWidth ≤ iw + 2 * p.padWidth ∧ p.kernelHeight ≤ ih + 2 * p.padHeight) ∧
      initialise p iw ih im = .done none) := by
  obtain ⟨s1, s2⟩ := hs
  obtain ⟨w1, w2⟩ := outDim_spec (pad := p.padWidth) (input := iw) (kernel := p.kernelWidth) s1
  obtain ⟨h1, h2⟩ := outDim_spec (pad := p.padHeight) (input := ih) (kernel := p.kernelHeight) s2
  have hmod : im % p.group = 0 := Nat.mod_eq_zero_of_dvd hi
  have hcount : ∀ {n k s : Nat}, 0 < s → k ≤ n → ∀ q, q < (n - k) / s + 1 ↔ q * s + k ≤ n := by
    intro n k s hs hk q
    rw [Nat.lt_succ_iff, Nat.le_div_iff_mul_le hs]
    omega
  by_cases hfit : p.kernelWidth ≤ iw + 2 * p.padWidth ∧ p.kernelHeight ≤ ih + 2 * p.padHeight
  · left
    refine ⟨hfit.1, hfit.2, (iw + 2 * p.padWidth - p.kernelWidth) / p.strideWidth + 1,
      (ih + 2 * p.padHeight - p.kernelHeight) / p.strideHeight + 1, ?_, hcount s1 hfit.1,
      hcount s2 hfit.2⟩
    have cw := (connectDim_spec s1 hb1 (Nat.succ_pos _) (w1 hfit.1).symm).2 hfit.1
    have ch := (connectDim_spec s2 hb2 (Nat.succ_pos _) (h1 hfit.2).symm).2 hfit.2
    unfold initialise createOutputs
    rw [if_neg (by omega)]
    simp only [w1 hfit.1, h1 hfit.2]
    revert cw ch
    generalize (iw + 2 * p.padWidth - p.kernelWidth) / p.strideWidth = qw
    generalize (ih + 2 * p.padHeight - p.kernelHeight) / p.strideHeight = qh
    intro cw ch
    rw [if_neg (by omega), if_neg (by omega), if_neg (by omega)]
    simp only [Outcome.bind_done, Int.toNat_natCast]
    unfold connectValid
    rw [cw, ch]
    rfl
  · right
    refine ⟨hfit, ?_⟩
    unfold initialise createOutputs
    rw [if_neg (by omega)]
    by_cases hneg : outDim p.padWidth iw p.kernelWidth p.strideWidth ≤ 0 ∨
        outDim p.padHeight ih p.kernelHeight p.strideHeight ≤ 0
    · simp only [if_pos hneg, Outcome.bind_done]
    · simp only [if_neg hneg]
      rw [if_neg (by omega), if_neg (by omega)]
      simp only [Outcome.bind_done]
      rw [if_neg]
      unfold connectValid
      rw [Bool.and_eq_true, connectDim_spec s1 hb1 (by omega) (by omega),
        connectDim_spec s2 hb2 (by omega) (by omega)]
      exact hfit

/-- The rounding case: a 5x5 kernel with stride 4 on a 3x3 image gets an output of size 1 from
`CreateOutputs` and is only refused by `Connect`. -/
example : createOutputs ⟨1, 5, 5, 4, 4, 0, 0, 1⟩ 3 3 1 = .done (some (1, 1)) ∧
    initialise ⟨1, 5, 5, 4, 4, 0, 0, 1⟩ 3 3 1 = .done none := by decide +kernel
example : initialise ⟨1, 5, 5, 4, 4, 1, 1, 1⟩ 8 3 1 = .done (some (2, 1)) := by decide +kernel

/-! ## C57 -/

/-- The column test of `COL2IM` (`iy < width`) agrees with the intended one (`ix < width`) at all
positions of the layer. -/
def ColumnTestAgrees (l : Layer R) : Prop :=
  ∀ tm ox oy, tm < l.shape.targetMaps → ox < l.outputWidth → oy < l.outputHeight →
    0 ≤ l.shape.iy tm oy → l.shape.iy tm oy < l.shape.sourceHeight → 0 ≤ l.shape.ix tm ox →
    (l.shape.iy tm oy < l.shape.sourceWidth ↔ l.shape.ix tm ox < l.shape.sourceWidth)

omit [DecidableEq R] in
theorem col2im_defined {l : Layer R} (h : l.Connected) (hc : ColumnTestAgrees l) (y : Tensor R)
    (hy : y.Is l.kernelSize l.outputWidth l.outputHeight l.input.samples) :
    ∃ q, col2im l.shape l.inputDelta y = .done q ∧
      q.Is l.input.samples l.inputWidth l.inputHeight l.inputMaps := by
  obtain ⟨p, q, _, h2, _, h4, _⟩ := col2im_adjoint (x := l.inputDelta) (g0 := l.inputDelta) (y := y)
    (t0 := y) h.stride (fits_source h.inputDelta) (fits_source h.inputDelta) (fits_target h hy)
    (fits_target h hy) (by
      intro tm ox oy a b c
      rw [hy.2.1] at b
      rw [hy.2.2.1] at c
      exact hc tm ox oy a b c)
  refine ⟨q, h2, h.inputDelta.of_sh h4 ?_⟩
  rw [col2im_eq h.stride.1 h.stride.2 (fits_source h.inputDelta) (fits_target h hy)] at h2
  rw [Outcome.ofOption_eq_done] at h2
  have := mods_length h2
  simpa using this

/-- C57: after a forward and a backward pass the weight and bias gradients are exact: for any
other weights (bias) the scalar product of the change of the output with the delta equals the
scalar product of the change of the weights (bias) with the gradient.  For a layer that need not
propagate to its input, or whose geometry makes the column test of `COL2IM` harmless. -/
theorem C57_parameter_gradients_partial (l : Layer R) (h : l.Connected) (hdrop : l.dropout = 0)
    (d : Tensor R) (hd : d.Is l.input.samples l.outputWidth l.outputHeight l.params.outputMaps)
    (bp : Bool) (hc : bp = true → ColumnTestAgrees l) :
    ∃ l1 l2, l.feedForward false = .done l1 ∧
      ({ l1 with outputDelta := d } : Layer R).backPropagate bp = .done l2 ∧ l2.Connected ∧
      l2.inputDelta.Is l.input.samples l.inputWidth l.inputHeight l.inputMaps ∧
      l2.weightsDelta.Is l.params.outputMaps l.params.kernelWidth l.params.kernelHeight
        (l.inputMaps / l.params.group) ∧
      l2.biasDelta.Is 1 l.params.outputMaps 1 1 ∧
      (∀ W : Tensor R, W.Is l.params.outputMaps l.params.kernelWidth l.params.kernelHeight
          (l.inputMaps / l.params.group) →
        ∃ l3, ({ l with weights := W } : Layer R).feedForward false = .done l3 ∧
          dot l3.output d - dot l1.output d = dot W l2.weightsDelta - dot l.weights l2.weightsDelta) ∧
      (∀ b : Tensor R, b.Is 1 l.params.outputMaps 1 1 →
        ∃ l3, ({ l with bias := b } : Layer R).feedForward false = .done l3 ∧
          dot l3.output d - dot l1.output d = dot b l2.biasDelta - dot l.bias l2.biasDelta) := by
  obtain ⟨l1, f1, f2, ⟨P, f3, f4, f5⟩, f6, f7⟩ := forward_dot h hdrop
  have hl1 : ({ l1 with outputDelta := d } : Layer R).Connected := by
    subst f5; exact { f2 with outputDelta := hd }
  obtain ⟨l2, S, b1, b2, b3, ⟨b4a, b4b, b4c, b4d, b4e, b5⟩, b6, b7, b8, b9⟩ := backward_spec hl1 bp (by
    intro hbp y hy
    subst f5
    exact col2im_defined hl1 (hc hbp) y hy)
  refine ⟨l1, l2, f1, b1, b3, by subst f5 b5; exact b3.inputDelta, by subst f5 b5; exact b3.weightsDelta,
    by subst f5 b5; exact b3.biasDelta, ?_, ?_⟩
  · intro W hW
    have hl3 : ({ l with weights := W } : Layer R).Connected := { h with weights := hW }
    obtain ⟨l3, g1, g2, ⟨P', g3, g4, g5⟩, g6, g7⟩ := forward_dot hl3 hdrop
    refine ⟨l3, g1, ?_⟩
    have hP : l3.im2colFf = l1.im2colFf := by
      have e : im2col l.shape l.input l.im2colFf = .done l3.im2colFf := g6
      rw [f6] at e
      injection e with e
      exact e.symm
    have hdWI := b3.weightsDelta
    subst f5
    have hdot1 := f7 d (fun i => S.data.getD i 0) b9
    have hdot3 : dot l3.output d = ∑ om ∈ Finset.range l.params.outputMaps,
          ∑ j ∈ Finset.range l.positions,
            (l.bias.data.getD om 0 + ∑ k ∈ Finset.range (l.kernelSize / l.params.group),
              W.data.getD (om * (l.kernelSize / l.params.group) + k) 0 *
              l3.im2colFf.data.getD ((om / (l.params.outputMaps / l.params.group) *
                (l.kernelSize / l.params.group) + k) * l.positions + j) 0) *
            S.data.getD (om * l.positions + j) 0 := g7 d (fun i => S.data.getD i 0) b9
    have b7' : ∀ om k, om < l.params.outputMaps → k < l.kernelSize / l.params.group →
        l2.weightsDelta.data.getD (om * (l.kernelSize / l.params.group) + k) 0 =
          ∑ j ∈ Finset.range l.positions, S.data.getD (om * l.positions + j) 0 *
            P.data.getD ((om / (l.params.outputMaps / l.params.group) *
              (l.kernelSize / l.params.group) + k) * l.positions + j) 0 := b7
    rw [hdot1, hdot3, hP, dot_weights h hW (by subst b5; exact hdWI),
      dot_weights h h.weights (by subst b5; exact hdWI), ← Finset.sum_sub_distrib,
      ← Finset.sum_sub_distrib]
    refine Finset.sum_congr rfl fun om hom => ?_
    have hom' := Finset.mem_range.1 hom
    rw [← Finset.sum_sub_distrib, ← Finset.sum_sub_distrib]
    have lhs : ∀ j ∈ Finset.range l.positions,
        (l.bias.data.getD om 0 + ∑ k ∈ Finset.range (l.kernelSize / l.params.group),
          W.data.getD (om * (l.kernelSize / l.params.group) + k) 0 *
          P.data.getD ((om / (l.params.outputMaps / l.params.group) *
            (l.kernelSize / l.params.group) + k) * l.positions + j) 0) *
          S.data.getD (om * l.positions + j) 0 -
        (l.bias.data.getD om 0 + ∑ k ∈ Finset.range (l.kernelSize / l.params.group),
          l.weights.data.getD (om * (l.kernelSize / l.params.group) + k) 0 *
          P.data.getD ((om / (l.params.outputMaps / l.params.group) *
            (l.kernelSize / l.params.group) + k) * l.positions + j) 0) *
          S.data.getD (om * l.positions + j) 0 =
        ∑ k ∈ Finset.range (l.kernelSize / l.params.group),
          (W.data.getD (om * (l.kernelSize / l.params.group) + k) 0 -
            l.weights.data.getD (om * (l.kernelSize / l.params.group) + k) 0) *
          (S.data.getD (om * l.positions + j) 0 *
            P.data.getD ((om / (l.params.outputMaps / l.params.group) *
            (l.kernelSize / l.params.group) + k) * l.positions + j) 0) := by
      intro j _
      rw [← sub_mul, add_sub_add_left_eq_sub, ← Finset.sum_sub_distrib, Finset.sum_mul]
      refine Finset.sum_congr rfl fun k _ => ?_
      ring
    rw [Finset.sum_congr rfl lhs, Finset.sum_comm]
    refine Finset.sum_congr rfl fun k hk => ?_
    rw [← sub_mul, b7' om k hom' (Finset.mem_range.1 hk), ← Finset.mul_sum]
  · intro b hb
    have hl3 : ({ l with bias := b } : Layer R).Connected := { h with bias := hb }
    obtain ⟨l3, g1, g2, ⟨P', g3, g4, g5⟩, g6, g7⟩ := forward_dot hl3 hdrop
    refine ⟨l3, g1, ?_⟩
    have hP : l3.im2colFf = l1.im2colFf := by
      have e : im2col l.shape l.input l.im2colFf = .done l3.im2colFf := g6
      rw [f6] at e
      injection e with e
      exact e.symm
    have hdbI := b3.biasDelta
    subst f5
    have hdot1 := f7 d (fun i => S.data.getD i 0) b9
    have hdot3 : dot l3.output d = ∑ om ∈ Finset.range l.params.outputMaps,
          ∑ j ∈ Finset.range l.positions,
            (b.data.getD om 0 + ∑ k ∈ Finset.range (l.kernelSize / l.params.group),
              l.weights.data.getD (om * (l.kernelSize / l.params.group) + k) 0 *
              l3.im2colFf.data.getD ((om / (l.params.outputMaps / l.params.group) *
                (l.kernelSize / l.params.group) + k) * l.positions + j) 0) *
            S.data.getD (om * l.positions + j) 0 := g7 d (fun i => S.data.getD i 0) b9
    have b8' : ∀ om, om < l.params.outputMaps → l2.biasDelta.data.getD om 0 =
          ∑ j ∈ Finset.range l.positions, S.data.getD (om * l.positions + j) 0 := b8
    have hbias : ∀ c : Tensor R, c.Is 1 l.params.outputMaps 1 1 → dot c l2.biasDelta =
        ∑ om ∈ Finset.range l.params.outputMaps, c.data.getD om 0 * l2.biasDelta.data.getD om 0 := by
      intro c hcI
      have hdbI' : l2.biasDelta.Is 1 l.params.outputMaps 1 1 := by subst b5; exact hdbI
      rw [dot_eq (by
        obtain ⟨a1, a2, a3, a4, _⟩ := hcI
        obtain ⟨c1, c2, c3, c4, _⟩ := hdbI'
        exact ⟨by omega, by omega, by omega, by omega⟩), elements_eq, hcI.1, hcI.2.1, hcI.2.2.1,
        hcI.2.2.2.1]
      congr 2
      omega
    rw [hdot1, hdot3, hP, hbias b hb, hbias _ h.bias, ← Finset.sum_sub_distrib,
      ← Finset.sum_sub_distrib]
    refine Finset.sum_congr rfl fun om hom => ?_
    have hom' := Finset.mem_range.1 hom
    rw [← Finset.sum_sub_distrib, ← sub_mul, b8' om hom', Finset.mul_sum]
    refine Finset.sum_congr rfl fun j _ => ?_
    rw [← sub_mul, add_sub_add_right_eq_sub]

omit [DecidableEq R] in
/-- Exchange of the sums over output maps and kernel elements, group by group. -/
theorem sum_groups (G OG KK L : Nat) (W P S : Nat → R) :
    ∑ om ∈ Finset.range (G * OG), ∑ j ∈ Finset.range L,
      (∑ k ∈ Finset.range KK, W (om * KK + k) * P ((om / OG * KK + k) * L + j)) * S (om * L + j) =
    ∑ tm ∈ Finset.range (G * KK), ∑ j ∈ Finset.range L, P (tm * L + j) *
      ∑ o ∈ Finset.range OG, W ((tm / KK * OG + o) * KK + tm % KK) *
        S ((tm / KK * OG + o) * L + j) := by
  rw [sum_range_mul, sum_range_mul]
  refine Finset.sum_congr rfl fun g _ => ?_
  have e1 : ∀ o ∈ Finset.range OG, ∑ j ∈ Finset.range L,
      (∑ k ∈ Finset.range KK, W ((g * OG + o) * KK + k) * P (((g * OG + o) / OG * KK + k) * L + j)) *
        S ((g * OG + o) * L + j) =
      ∑ k ∈ Finset.range KK, ∑ j ∈ Finset.range L,
        W ((g * OG + o) * KK + k) * P ((g * KK + k) * L + j) * S ((g * OG + o) * L + j) := by
    intro o ho
    rw [add_div_group (Finset.mem_range.1 ho), Finset.sum_comm]
    exact Finset.sum_congr rfl fun j _ => Finset.sum_mul ..
  have e2 : ∀ k ∈ Finset.range KK, ∑ j ∈ Finset.range L, P ((g * KK + k) * L + j) *
      ∑ o ∈ Finset.range OG, W (((g * KK + k) / KK * OG + o) * KK + (g * KK + k) % KK) *
        S (((g * KK + k) / KK * OG + o) * L + j) =
      ∑ o ∈ Finset.range OG, ∑ j ∈ Finset.range L,
        W ((g * OG + o) * KK + k) * P ((g * KK + k) * L + j) * S ((g * OG + o) * L + j) := by
    intro k hk
    have hk' := Finset.mem_range.1 hk
    have hm : (g * KK + k) % KK = k := by
      rw [Nat.add_comm, Nat.add_mul_mod_self_right, Nat.mod_eq_of_lt hk']
    rw [add_div_group hk', hm, Finset.sum_comm]
    refine Finset.sum_congr rfl fun j _ => ?_
    rw [Finset.mul_sum]
    exact Finset.sum_congr rfl fun o _ => by ring
  rw [Finset.sum_congr rfl e1, Finset.sum_congr rfl e2, Finset.sum_comm]

omit [DecidableEq R] in
theorem dot_columns {l : Layer R} {P Y : Tensor R}
    (hP : P.Is l.kernelSize l.outputWidth l.outputHeight l.input.samples)
    (hY : Y.Is l.kernelSize l.outputWidth l.outputHeight l.input.samples) :
    dot P Y = ∑ tm ∈ Finset.range l.kernelSize, ∑ j ∈ Finset.range l.positions,
      P.data.getD (tm * l.positions + j) 0 * Y.data.getD (tm * l.positions + j) 0 := by
  rw [dot_eq (by
    obtain ⟨a1, a2, a3, a4, _⟩ := hP
    obtain ⟨c1, c2, c3, c4, _⟩ := hY
    exact ⟨by omega, by omega, by omega, by omega⟩), elements_eq, hP.1, hP.2.1, hP.2.2.1, hP.2.2.2.1]
  have e : l.kernelSize * l.input.samples * l.outputHeight * l.outputWidth =
      l.kernelSize * l.positions := by unfold Layer.positions; ring
  rw [e, sum_range_mul]

/-- C57, input: the gradient passed to the input is exact, for any other image of the same shape
the scalar product of the change of the output with the delta equals the scalar product of the
change of the image with the gradient.  Missing for the full property: the geometries excluded by
`ColumnTestAgrees`, for which it is false, see `C57_input_gradient_undefined`. -/
theorem C57_input_gradient_partial (l : Layer R) (h : l.Connected) (hdrop : l.dropout = 0)
    (d : Tensor R) (hd : d.Is l.input.samples l.outputWidth l.outputHeight l.params.outputMaps)
    (hc : ColumnTestAgrees l) :
    ∃ l1 l2, l.feedForward false = .done l1 ∧
      ({ l1 with outputDelta := d } : Layer R).backPropagate true = .done l2 ∧
      (∀ x : Tensor R, x.Is l.input.samples l.inputWidth l.inputHeight l.inputMaps →
        ∃ l3, ({ l with input := x } : Layer R).feedForward false = .done l3 ∧
          dot l3.output d - dot l1.output d = dot x l2.inputDelta - dot l.input l2.inputDelta) := by
  obtain ⟨l1, f1, f2, ⟨P, f3, f4, f5⟩, f6, f7⟩ := forward_dot h hdrop
  have hl1 : ({ l1 with outputDelta := d } : Layer R).Connected := by
    subst f5; exact { f2 with outputDelta := hd }
  obtain ⟨l2, S, b1, b2, b3, ⟨b4a, b4b, b4c, b4d, b4e, b5⟩, b6, b7, b8, b9⟩ :=
    backward_spec hl1 true (by
      intro hbp y hy
      subst f5
      exact col2im_defined hl1 hc y hy)
  refine ⟨l1, l2, f1, b1, ?_⟩
  intro x hx
  subst f5
  rw [if_pos rfl] at b6
  obtain ⟨b6, bcol⟩ := b6
  have bcol' : col2im l.shape l.inputDelta l2.bpDeltax = .done l2.inputDelta := bcol
  have hY : l2.bpDeltax.Is l.kernelSize l.outputWidth l.outputHeight l.input.samples := by
    have := b3.bpDeltax
    subst b5
    exact this
  obtain ⟨OG, hOG⟩ := h.group_out
  obtain ⟨IG, hIG⟩ := h.group_in
  have hG := h.group_pos
  have hOG' : l.params.outputMaps / l.params.group = OG := by
    rw [hOG, Nat.mul_div_cancel_left _ hG]
  obtain ⟨KK, hKK⟩ : ∃ KK, l.kernelSize = l.params.group * KK :=
    ⟨l.params.kernelWidth * l.params.kernelHeight * IG, by unfold Layer.kernelSize; rw [hIG]; ring⟩
  have hKK' : l.kernelSize / l.params.group = KK := by rw [hKK, Nat.mul_div_cancel_left _ hG]
  have key : ∀ z P' : Tensor R, z.Is l.input.samples l.inputWidth l.inputHeight l.inputMaps →
      im2col l.shape z l.im2colFf = .done P' →
      ∑ om ∈ Finset.range l.params.outputMaps, ∑ j ∈ Finset.range l.positions,
        (∑ k ∈ Finset.range KK, l.weights.data.getD (om * KK + k) 0 *
          P'.data.getD ((om / OG * KK + k) * l.positions + j) 0) *
          S.data.getD (om * l.positions + j) 0 = dot z l2.inputDelta := by
    intro z P' hz hP'
    obtain ⟨p, q, h1, h2, h3, h4, h5⟩ := col2im_adjoint (x := z) (g0 := l.inputDelta)
      (y := l2.bpDeltax) (t0 := l.im2colFf) h.stride (fits_source hz) (fits_source h.inputDelta)
      (fits_target h hY) (fits_target h h.im2colFf) (by
        intro tm ox oy a b c
        rw [hY.2.1] at b
        rw [hY.2.2.1] at c
        exact hc tm ox oy a b c)
    rw [bcol'] at h2
    injection h2 with h2
    rw [hP'] at h1
    injection h1 with h1
    subst h1 h2
    have hPI : P'.Is l.kernelSize l.outputWidth l.outputHeight l.input.samples := by
      obtain ⟨p, hp1, _, hp3, _⟩ := im2col_spec h.stride.1 h.stride.2 (fits_source hz)
        (fits_target h h.im2colFf)
      rw [hP'] at hp1
      injection hp1 with hp1
      subst hp1
      refine hY.of_sh h3 ?_
      rw [hp3]
      obtain ⟨c1, c2, c3, c4⟩ := h3
      rw [hY.2.2.2.2, elements_eq, elements_eq, c1, c2, c3, c4]
    rw [← h5, dot_columns hPI hY, hOG, sum_groups l.params.group OG KK l.positions
      (fun i => l.weights.data.getD i 0) (fun i => P'.data.getD i 0) (fun i => S.data.getD i 0), hKK]
    refine Finset.sum_congr rfl fun tm htm => Finset.sum_congr rfl fun j hj => ?_
    have e := b6 tm j (by
      show tm < l.kernelSize
      rw [hKK]; exact Finset.mem_range.1 htm) (Finset.mem_range.1 hj)
    have e' : l2.bpDeltax.data.getD (tm * l.positions + j) 0 =
            ∑ o ∈ Finset.range (l.params.outputMaps / l.params.group),
              l.weights.data.getD ((tm / (l.kernelSize / l.params.group) *
                (l.params.outputMaps / l.params.group) + o) * (l.kernelSize / l.params.group) +
                tm % (l.kernelSize / l.params.group)) 0 *
              S.data.getD ((tm / (l.kernelSize / l.params.group) *
                (l.params.outputMaps / l.params.group) + o) * l.positions + j) 0 := e
    rw [e', hOG', hKK']
  have hl3 : ({ l with input := x } : Layer R).Connected := by
    obtain ⟨x1, x2, x3, x4, x5⟩ := hx
    have e : ({ l with input := x } : Layer R).input.samples = l.input.samples := x1
    have e2 : ({ l with input := x } : Layer R).positions = l.positions := by
      unfold Layer.positions; rw [e]
    exact
      { h with
        input := ⟨rfl, x2, x3, x4, x5⟩
        inputDelta := by rw [e]; exact h.inputDelta
        output := by rw [e]; exact h.output
        outputDelta := by rw [e]; exact h.outputDelta
        im2colFf := by rw [e]; exact h.im2colFf
        smsFf := by rw [e]; exact h.smsFf
        sms2Bp := by rw [e]; exact h.sms2Bp
        bpDeltax := by rw [e]; exact h.bpDeltax
        ones := by rw [e2]; exact h.ones }
  obtain ⟨l3, g1, g2, ⟨P', g3, g4, g5⟩, g6, g7⟩ := forward_dot hl3 hdrop
  refine ⟨l3, g1, ?_⟩
  have hpos : ({ l with input := x } : Layer R).positions = l.positions := by
    unfold Layer.positions; show _ * _ * x.samples = _; rw [hx.1]
  have hshape : ({ l with input := x } : Layer R).shape = l.shape := by
    unfold Layer.shape; simp only [hx.1]
  rw [hshape] at g6
  have hdot1 := f7 d (fun i => S.data.getD i 0) b9
  have hdot3 := g7 d (fun i => S.data.getD i 0) (by
    intro ox oy om s hox hoy hom hs
    rw [hpos]
    exact b9 ox oy om s hox hoy hom (by rw [← hx.1]; exact hs))
  rw [hpos] at hdot3
  have hdot3' : dot l3.output d = ∑ om ∈ Finset.range l.params.outputMaps,
          ∑ j ∈ Finset.range l.positions,
            (l.bias.data.getD om 0 + ∑ k ∈ Finset.range (l.kernelSize / l.params.group),
              l.weights.data.getD (om * (l.kernelSize / l.params.group) + k) 0 *
              l3.im2colFf.data.getD ((om / (l.params.outputMaps / l.params.group) *
                (l.kernelSize / l.params.group) + k) * l.positions + j) 0) *
            S.data.getD (om * l.positions + j) 0 := hdot3
  rw [hdot1, hdot3', hOG', hKK', ← key x l3.im2colFf hx g6, ← key l.input P h.input f6,
    ← Finset.sum_sub_distrib, ← Finset.sum_sub_distrib]
  refine Finset.sum_congr rfl fun om _ => ?_
  rw [← Finset.sum_sub_distrib, ← Finset.sum_sub_distrib]
  refine Finset.sum_congr rfl fun j _ => ?_
  ring

/-- The full property fails: the backward pass of a 3x3 convolution with padding 1 and stride 1 on
square images writes outside its buffers, whatever the values are. -/
theorem C57_input_gradient_undefined (l : Layer R) (h : l.Connected) (n : Nat) (hn : 0 < n)
    (hw : l.inputWidth = n) (hh : l.inputHeight = n) (hm : 0 < l.inputMaps)
    (hs : 0 < l.input.samples)
    (hk : l.params.kernelWidth = 3 ∧ l.params.kernelHeight = 3)
    (hstride : l.params.strideWidth = 1 ∧ l.params.strideHeight = 1)
    (hpad : l.params.padWidth = 1 ∧ l.params.padHeight = 1) :
    l.backPropagate true = .undefined := by
  obtain ⟨S, D, dW, db, h1, _, _, h4, _⟩ := backward_prefix h true
  have hshape : l.shape = ⟨n, n, l.inputMaps, l.input.samples, 3, 3, 1, 1, 1, 1⟩ := by
    unfold Layer.shape
    rw [hw, hh, hk.1, hk.2, hstride.1, hstride.2, hpad.1, hpad.2]
  have hf1 := fits_source h.inputDelta
  have hf2 := fits_target h h4
  rw [hshape] at hf1 hf2
  rw [h1, if_pos rfl, hshape, C33_same_convolution_undefined n _ _ hn hm hs _ _ hf1 hf2]
  rfl

/-- Non-vacuity: such a layer. -/
example : (Layer.connect ⟨1, 3, 3, 1, 1, 1, 1, 1⟩ (0 : Int) 1 2 2 1 2 2).Connected :=
  connect_connected _ _ _ _ _ _ _ _ (by decide) (by decide) (by decide) (by decide) (by decide)
    (by decide)

/-- Non-vacuity of the gradient theorems: the geometry of the example is harmless. -/
example : ColumnTestAgrees exampleLayer := by
  have : ∀ tm < exampleLayer.shape.targetMaps, ∀ ox < exampleLayer.outputWidth,
      ∀ oy < exampleLayer.outputHeight,
      (exampleLayer.shape.iy tm oy < exampleLayer.shape.sourceWidth ↔
        exampleLayer.shape.ix tm ox < exampleLayer.shape.sourceWidth) := by decide +kernel
  exact fun tm ox oy h1 h2 h3 _ _ _ => this tm h1 ox h2 oy h3

/-- The gradients of the example for a delta. -/
example : ((exampleLayer.feedForward false).bind fun l =>
    ({ l with outputDelta := ⟨1, 2, 1, 2, [1, 2, 0, 1]⟩ } : Layer Int).backPropagate true).bind
      (fun l => .done (l.weightsDelta.data, l.biasDelta.data, l.inputDelta.data)) =
    .done ([5, 8, 5, 6], [3, 1], [10, 21, 2, 0, 2, 3]) := by decide +kernel

end CN24.Props
