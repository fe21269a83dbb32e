import Verif.Props.GradientLayers

/-
C65 for a segmentation network as users train it: convolution, tanh, convolution, sigmoid and an error layer that
compares with the labels of the data set.
-/

namespace CN24.Net
open CN24 CN24.Tensor CN24.Props Finset

/-- Without horizontal padding and for images that are no higher than wide the column test of `COL2IM` does no
harm. -/
theorem columnTestAgrees_of_unpadded {R : Type _} [CommRing R] [DecidableEq R] (l : Convolution.Layer R)
    (h : l.Connected) (hp : l.params.padWidth = 0) (hk : l.params.kernelWidth ≤ l.inputWidth)
    (hh : l.inputHeight ≤ l.inputWidth) : ColumnTestAgrees l := by
  intro tm ox oy htm hox hoy h1 h2 h3
  have hw := h.width
  obtain ⟨hs, -⟩ := h.stride
  have e : (l.outputWidth : Int) = (((l.inputWidth - l.params.kernelWidth) / l.params.strideWidth + 1 : Nat) : Int) := by
    rw [hw]
    unfold TensorMath.outDim
    rw [hp]
    have : (2 * ((0 : Nat) : Int) + l.inputWidth - l.params.kernelWidth) =
      ((l.inputWidth - l.params.kernelWidth : Nat) : Int) := by omega
    rw [this, Int.tdiv_eq_ediv_of_nonneg (by omega), ← Int.natCast_ediv]
    push_cast
    rfl
  have hkpos : 0 < l.params.kernelWidth := by
    rcases Nat.eq_zero_or_pos l.params.kernelWidth with h0 | h0
    · exfalso
      have : l.shape.targetMaps = 0 := by
        unfold TensorMath.ColShape.targetMaps Convolution.Layer.shape
        rw [h0]
        simp
      omega
    · exact h0
  have hox' : ox ≤ (l.inputWidth - l.params.kernelWidth) / l.params.strideWidth := by omega
  have hmul : ox * l.params.strideWidth ≤ l.inputWidth - l.params.kernelWidth :=
    (Nat.le_div_iff_mul_le hs).1 hox'
  have hmod : tm % l.params.kernelWidth < l.params.kernelWidth := Nat.mod_lt _ hkpos
  have hix : l.shape.ix tm ox = ((ox * l.params.strideWidth + tm % l.params.kernelWidth : Nat) : Int) := by
    unfold TensorMath.ColShape.ix Convolution.Layer.shape
    simp only [hp]
    push_cast
    ring
  have hW : l.shape.sourceWidth = l.inputWidth := rfl
  have hH : l.shape.sourceHeight = l.inputHeight := rfl
  rw [hH] at h2
  rw [hW, hix]
  constructor
  · intro _
    omega
  · intro _
    omega

/-- The network: the data set input (image, labels, helper and weights), convolution, tanh, convolution, sigmoid,
and an error layer on the prediction, the labels and the weights. -/
def seg : Graph :=
  { heap := heapOf [{ isInput := true, buffers := 4 }, { inputs := [⟨0, 0, true⟩], buffers := 1 },
      { inputs := [⟨1, 0, true⟩], buffers := 1 }, { inputs := [⟨2, 0, true⟩], buffers := 1 },
      { inputs := [⟨3, 0, true⟩], buffers := 1, isOutput := true },
      { inputs := [⟨4, 0, true⟩, ⟨0, 1, true⟩, ⟨0, 3, true⟩], buffers := 0 }], next := 6 }

/-- A layer with constant data (`DatasetInputLayer` between two calls of `SelectAndLoadSamples`). -/
def dataLayer (data : Nat → Vec) : LayerSem where
  forward _ _ b := data b
  loss _ _ := 0
  backward _ _ _ _ _ := (fun _ => none, 0)

/-- The layers of `seg`. -/
noncomputable def segLayers (data : Nat → Vec) (l1 l2 : Convolution.Layer ℝ) (lw : ℝ) (wsh : Shape) :
    Nat → LayerSem := fun n =>
  if n = 0 then dataLayer data else if n = 1 then convSem l1 else if n = 2 then tanhSem l1.output.shape
  else if n = 3 then convSem l2 else if n = 4 then sigmoidSem l2.output.shape
  else errorSem lw l2.output.shape wsh

/-- The number of their parameters. -/
def segParams (l1 l2 : Convolution.Layer ℝ) : Nat → Nat := fun n =>
  if n = 1 then l1.weights.elements + l1.bias.elements
  else if n = 3 then l2.weights.elements + l2.bias.elements else 0

/-- The sizes of their outputs. -/
def segSizes (l1 l2 : Convolution.Layer ℝ) (wsh : Shape) : Nat → Nat → Nat := fun n b =>
  if n = 0 then (if b = 0 then l1.input.elements else if b = 1 then l2.output.elements else wsh.elements)
  else if n = 1 ∨ n = 2 then l1.output.elements else l2.output.elements

theorem seg_wired : Wired seg [0, 1, 2, 3, 4, 5] := by
  refine ⟨⟨rfl, ?_⟩, by decide, by decide, by decide, by decide, by decide⟩
  intro n
  match n with
  | 0 => rfl
  | 1 => rfl
  | 2 => rfl
  | 3 => rfl
  | 4 => rfl
  | 5 => rfl
  | n + 6 => rfl

theorem seg_acyclic : Acyclic (addNodes seg [0, 1, 2, 3, 4, 5]) := by
  have hlt : ∀ a b, Reads (addNodes seg [0, 1, 2, 3, 4, 5]) a b → b < a := by
    rintro a b ⟨ha, c, hc, rfl⟩
    have key : ∀ a ∈ (addNodes seg [0, 1, 2, 3, 4, 5]).nodes,
        ∀ c ∈ ((addNodes seg [0, 1, 2, 3, 4, 5]).heap a).inputs, c.node < a := by decide
    exact key a ha c hc
  intro n hn
  have : ∀ a b, Relation.TransGen (Reads (addNodes seg [0, 1, 2, 3, 4, 5])) a b → b < a := by
    intro a b h
    induction h with
    | single h => exact hlt _ _ h
    | tail _ h ih => exact Nat.lt_trans (hlt _ _ h) ih
  exact Nat.lt_irrefl _ (this n n hn)

/-- C65 for this network: for layers of any size that fit together, any data, any parameters and any direction in
which the parameters may change, the gradients that a forward and a backward pass leave give the derivative of
the value of the error layer. -/
theorem C65_segmentation_network (l1 l2 : Convolution.Layer ℝ) (h1 : l1.Connected) (h2 : l2.Connected)
    (hd1 : l1.dropout = 0) (hd2 : l2.dropout = 0) (hc : ColumnTestAgrees l2)
    (hfit : l2.input.shape = l1.output.shape) (lw : ℝ) (wsh : Shape)
    (hw : wsh.samples = l2.output.samples ∧ wsh.width = l2.output.width ∧ wsh.height = l2.output.height ∧
      0 < wsh.maps) :
    ∃ g' N flog blog, (∀ fuel, 2 ≤ fuel → insertAll fuel (addNodes seg [0, 1, 2, 3, 4, 5]) = some g') ∧
      (∀ fuel, N ≤ fuel → ∀ flags, ∃ v, feedForward g' fuel flags = some ⟨v, flog⟩) ∧
      (∀ fuel, N ≤ fuel → ∀ flags, ∃ v, backPropagate g' fuel flags = some ⟨v, blog⟩) ∧
      ∀ (data : Nat → Vec) (θ : ℝ → Nat → Vec) (θ' : Nat → Vec),
        (∀ n, n = 1 ∨ n = 3 → ∀ i < segParams l1 l2 n, HasDerivAt (fun s => θ s n i) (θ' n i) 0) →
        (∀ n, segParams l1 l2 n = 0 → ∀ s, θ s n = θ 0 n) →
        ∀ (y : ℝ → Nat → Nat → Vec), (∀ s, Solves (addNodes seg [0, 1, 2, 3, 4, 5])
          (segLayers data l1 l2 lw wsh) (θ s) (y s)) →
        ∀ (env : Nat → Nat → Vec) (st0 : Deltas),
        HasDerivAt (fun s => (errorSem lw l2.output.shape wsh).loss (θ s 5) (fun j =>
            if j = 0 then y s 4 0 else if j = 1 then data 1 else data 3))
          (∑ n ∈ {1, 3}, pair (segParams l1 l2 n) ((runBack g'
            (withAccumulation g' [0, 1, 2, 3, 4, 5] (segLayers data l1 l2 lw wsh)) (θ 0)
            (runLayers g' (layerForward (withAccumulation g' [0, 1, 2, 3, 4, 5] (segLayers data l1 l2 lw wsh)) (θ 0))
              flog env) blog st0).grad n) (θ' n)) 0 := by
  obtain ⟨g', N, flog, blog, r1, r2, r3, r4⟩ := C65_gradient_partial seg [0, 1, 2, 3, 4, 5] seg_wired seg_acyclic
  refine ⟨g', N, flog, blog, r1, r2, r3, ?_⟩
  intro data θ θ' hθ hθ0 y hy env st0
  have h0 : Fixed (addNodes seg [0, 1, 2, 3, 4, 5]) (segParams l1 l2) 0 :=
    Fixed.mk 0 rfl (fun c hc => by
      have : ((addNodes seg [0, 1, 2, 3, 4, 5]).heap 0).inputs = [] := by decide
      rw [this] at hc
      cases hc)
  have hel : l2.input.elements = l1.output.elements := by
    rw [← shape_elements l2.input, hfit, shape_elements]
  obtain ⟨-, key⟩ := r4 (segLayers data l1 l2 lw wsh) (segParams l1 l2) (segSizes l1 l2 wsh) (by decide) (by
      intro n hn c hc hb
      have key : ∀ n ∈ [0, 1, 2, 3, 4, 5], ∀ c ∈ ((addNodes seg [0, 1, 2, 3, 4, 5]).heap n).inputs,
        c.backprop = false → c.node = 0 := by decide
      rw [key n hn c hc hb]
      exact h0) θ θ' (by
      intro n hn i hi
      by_cases h : n = 1 ∨ n = 3
      · exact hθ n h i hi
      · have : segParams l1 l2 n = 0 := by
          unfold segParams
          rw [if_neg (fun e => h (Or.inl e)), if_neg (fun e => h (Or.inr e))]
        omega) (fun n _ hz s => hθ0 n hz s) y hy (by
      intro n hn hf
      simp only [List.mem_cons, List.not_mem_nil, or_false] at hn
      rcases hn with rfl | rfl | rfl | rfl | rfl | rfl
      · exact absurd h0 hf
      · exact C65_convolution l1 h1 hd1 false (by simp) _ _
      · have := C65_tanh l1.output.shape true (θ 0 2) (inputData (addNodes seg [0, 1, 2, 3, 4, 5]) (y 0) 2)
        rw [shape_elements] at this
        exact this
      · have := C65_convolution l2 h2 hd2 true (fun _ => hc) (θ 0 3)
          (inputData (addNodes seg [0, 1, 2, 3, 4, 5]) (y 0) 3)
        rw [hel] at this
        exact this
      · have := C65_sigmoid l2.output.shape true (θ 0 4) (inputData (addNodes seg [0, 1, 2, 3, 4, 5]) (y 0) 4)
        rw [shape_elements] at this
        exact this
      · have := C65_error lw l2.output.shape wsh hw true (segSizes l1 l2 wsh 5) (θ 0 5)
          (inputData (addNodes seg [0, 1, 2, 3, 4, 5]) (y 0) 5)
        rw [shape_elements] at this
        exact this) env st0
  have hdata : ∀ s, y s 0 = data := fun s => hy s 0 (by decide)
  have hfin : ([0, 1, 2, 3, 4, 5] : List Nat).toFinset = {0, 1, 2, 3, 4, 5} := by decide
  have hnodes : (addNodes seg [0, 1, 2, 3, 4, 5]).nodes.toFinset = {0, 1, 2, 3, 4, 5} := by decide
  have hcons : ∀ n ∈ ({1, 2, 3, 4} : Finset Nat), Consumed (addNodes seg [0, 1, 2, 3, 4, 5]) n 0 := by
    intro n hn
    simp only [Finset.mem_insert, Finset.mem_singleton] at hn
    rcases hn with rfl | rfl | rfl | rfl
    · exact ⟨2, by decide, by decide⟩
    · exact ⟨3, by decide, by decide⟩
    · exact ⟨4, by decide, by decide⟩
    · exact ⟨5, by decide, by decide⟩
  have hbuf : (seg.heap 0).buffers = 4 ∧ (seg.heap 1).buffers = 1 ∧ (seg.heap 2).buffers = 1 ∧
    (seg.heap 3).buffers = 1 ∧ (seg.heap 4).buffers = 1 ∧ (seg.heap 5).buffers = 0 := by decide
  obtain ⟨b0, b1, b2, b3, b4, b5⟩ := hbuf
  have hin : ∀ s, inputData (addNodes seg [0, 1, 2, 3, 4, 5]) (y s) 5 = fun j =>
      if j = 0 then y s 4 0 else if j = 1 then data 1 else if j = 2 then data 3 else 0 := by
    intro s
    funext j
    have hi : ((addNodes seg [0, 1, 2, 3, 4, 5]).heap 5).inputs = [⟨4, 0, true⟩, ⟨0, 1, false⟩, ⟨0, 3, false⟩] := by
      decide
    unfold inputData
    rw [hi]
    match j with
    | 0 => rfl
    | 1 => show y s 0 1 = _; rw [hdata]; rfl
    | 2 => show y s 0 3 = _; rw [hdata]; rfl
    | j + 3 => rfl
  have htot : ∀ s, totalLoss (addNodes seg [0, 1, 2, 3, 4, 5]) (segLayers data l1 l2 lw wsh)
      (fun n => (seg.heap n).buffers) (segSizes l1 l2 wsh) st0.delta (θ s) (y s) =
      (errorSem lw l2.output.shape wsh).loss (θ s 5) (fun j =>
            if j = 0 then y s 4 0 else if j = 1 then data 1 else data 3) +
      (∑ b ∈ range 4, open Classical in if Consumed (addNodes seg [0, 1, 2, 3, 4, 5]) 0 b then 0
        else pair (segSizes l1 l2 wsh 0 b) (st0.delta 0 b) (data b)) := by
    intro s
    unfold totalLoss
    rw [hnodes]
    simp only [Finset.sum_insert (by decide : (0 : Nat) ∉ ({1, 2, 3, 4, 5} : Finset Nat)),
      Finset.sum_insert (by decide : (1 : Nat) ∉ ({2, 3, 4, 5} : Finset Nat)),
      Finset.sum_insert (by decide : (2 : Nat) ∉ ({3, 4, 5} : Finset Nat)),
      Finset.sum_insert (by decide : (3 : Nat) ∉ ({4, 5} : Finset Nat)),
      Finset.sum_insert (by decide : (4 : Nat) ∉ ({5} : Finset Nat)), Finset.sum_singleton]
    rw [b0, b1, b2, b3, b4, b5, hin, hdata]
    simp only [Finset.sum_range_one, Finset.sum_range_zero, if_pos (hcons 1 (by decide)),
      if_pos (hcons 2 (by decide)), if_pos (hcons 3 (by decide)), if_pos (hcons 4 (by decide))]
    have hz : ∀ n : Nat, n < 5 → (segLayers data l1 l2 lw wsh n).loss = fun _ _ => 0 := by
      intro n hn
      match n with
      | 0 => rfl
      | 1 => rfl
      | 2 => rfl
      | 3 => rfl
      | 4 => rfl
    rw [hz 0 (by omega), hz 1 (by omega), hz 2 (by omega), hz 3 (by omega), hz 4 (by omega)]
    simp only [zero_add, add_zero]
    rfl
  have hgrad : ∀ G : Nat → Vec, (∑ n ∈ ([0, 1, 2, 3, 4, 5] : List Nat).toFinset,
      pair (segParams l1 l2 n) (G n) (θ' n)) = ∑ n ∈ {1, 3}, pair (segParams l1 l2 n) (G n) (θ' n) := by
    intro G
    rw [hfin]
    refine (Finset.sum_subset (by decide) ?_).symm
    intro n _ hn
    have : segParams l1 l2 n = 0 := by
      unfold segParams
      rw [if_neg (fun e => hn (by rw [e]; decide)), if_neg (fun e => hn (by rw [e]; decide))]
    rw [this]
    simp [pair]
  rw [hgrad] at key
  simp only [htot] at key
  have := key.sub_const (∑ b ∈ range 4, open Classical in if Consumed (addNodes seg [0, 1, 2, 3, 4, 5]) 0 b then 0
        else pair (segSizes l1 l2 wsh 0 b) (st0.delta 0 b) (data b))
  simpa only [add_sub_cancel_right] using this

/-- Non-vacuity: 16 maps on 12 x 12 pixels in two groups of 3 x 3 kernels, then 2 maps, in batches of 2. -/
example : ∃ l1 l2 : Convolution.Layer ℝ, l1.Connected ∧ l2.Connected ∧ l1.dropout = 0 ∧ l2.dropout = 0 ∧
    ColumnTestAgrees l2 ∧ l2.input.shape = l1.output.shape ∧ l2.weights.elements = 2 * 3 * 3 * 16 := by
  have c2 : (Convolution.Layer.connect ⟨2, 3, 3, 1, 1, 0, 0, 1⟩ (0 : ℝ) 2 10 10 16 8 8).Connected :=
    connect_connected _ _ _ _ _ _ _ _ (by decide) (by decide) (by decide) (by decide) (by decide) (by decide)
  refine ⟨Convolution.Layer.connect ⟨16, 3, 3, 1, 1, 0, 0, 2⟩ 0 2 12 12 4 10 10,
    Convolution.Layer.connect ⟨2, 3, 3, 1, 1, 0, 0, 1⟩ 0 2 10 10 16 8 8,
    connect_connected _ _ _ _ _ _ _ _ (by decide) (by decide) (by decide) (by decide) (by decide) (by decide), c2,
    rfl, rfl, columnTestAgrees_of_unpadded _ c2 rfl ?_ ?_, rfl, rfl⟩
  · show 3 ≤ 10
    omega
  · show 10 ≤ 10
    omega

/-- Softmax layers do not back-propagate exactly, wherever the input is: on one element the output is constant,
but the delta of the output is handed on. -/
theorem C65_softmax_copies (p : Vec) (x : Nat → Vec) :
    ¬ ExactAt (softmaxSem ⟨1, 1, 1, 1⟩) 0 [(1, true)] 1 (fun _ => 1) p x := by
  intro h
  obtain ⟨Y', l', hY, hl', hd⟩ := h (fun _ => p) 0 (fun t j i => x j i + t) (fun _ _ => 1) rfl
    (by funext j i; exact add_zero _) (by intro i hi; omega)
    (by intro j k pr _ i _; exact (hasDerivAt_id (0 : ℝ)).const_add _)
    (by
      intro j k hj
      match j with
      | 0 => simp at hj
      | j + 1 => simp at hj)
  have hone : ∀ z : Nat → Vec, (softmaxSem ⟨1, 1, 1, 1⟩).forward p z 0 0 = 1 := by
    intro z
    show vecOfOption (Activations.softmaxForward Real.exp (tensorOf ⟨1, 1, 1, 1⟩ (z 0)) (buffer ⟨1, 1, 1, 1⟩)) 0 = 1
    have : Activations.softmaxForward Real.exp (tensorOf ⟨1, 1, 1, 1⟩ (z 0)) (buffer ⟨1, 1, 1, 1⟩) =
        some ⟨1, 1, 1, 1, [1]⟩ := by
      have hne : Real.exp (z 0 0) ≠ 0 := Real.exp_ne_zero _
      simp [Activations.softmaxForward, Activations.softmaxSum, forLoop, Tensor.get, rd, Tensor.offset, tensorOf,
        Tensor.put, buffer, wr, hne]
    rw [this]
    rfl
  have h0 : Y' 0 0 = 0 := by
    have h1 := hY 0 Nat.one_pos 0 Nat.one_pos
    simp only [hone] at h1
    exact h1.unique (hasDerivAt_const _ _)
  obtain ⟨r, hr, heq⟩ := hd fun _ _ => 1
  have hr0 := hr 0 1 rfl
  have hb : ((softmaxSem ⟨1, 1, 1, 1⟩).backward ([((1 : Nat), true)].any (·.2)) p x
      ((softmaxSem ⟨1, 1, 1, 1⟩).forward p x) (fun _ _ => 1)).1 0 = some (vecOf ⟨1, 1, 1, 1, [1]⟩) := by
    show (Activations.softmaxBackward (tensorOf ⟨1, 1, 1, 1⟩ (x 0)) (tensorOf ⟨1, 1, 1, 1⟩ fun _ => 1)
      (buffer ⟨1, 1, 1, 1⟩)).map vecOf = _
    rfl
  rw [hb] at hr0
  have hr1 : r 0 = vecOf ⟨1, 1, 1, 1, [1]⟩ := (Option.some.inj hr0).symm
  have hl : l' = 0 := hl'.unique (hasDerivAt_const _ _)
  simp [pair, h0, hr1, hl, vecOf] at heq

end CN24.Net
