import Verif.Proof.Parallel
import Verif.Proof.Pooling
import Verif.Props.TensorMath

/-!
C51: the loops marked for parallel execution.

`EverySchedule P m m'` (Verif/Base/Parallel.lean) says of iterations `P` started together on the memory
`m`: each schedule ends after a bounded number of accesses, at no point are two iterations about to
access the same element one of them writing, no access leaves its buffer, and the final memory is
`m'`.  Below, `m'` is always the result of the sequential model of the function, which the theorems of
the other properties describe.
-/

namespace CN24.Props
open CN24 CN24.Tensor CN24.Parallel

variable {R : Type}

/-! ## Any loop -/

/-- C51, any loop: iterations that read only memory no iteration writes and parts of their own, where
the parts of different iterations are disjoint, end under every schedule as they end in order. -/
theorem C51_disjoint_parts {B : Type} [DecidableEq B] {V : B → Type} {n : Nat} {P : Nat → Prog V Unit}
    {m m' : Mem V} {readOnly : B → Prop} {part : Nat → B → Nat → Prop}
    (hw : ∀ i, i < n → (P i).Within m readOnly (part i))
    (hd : ∀ i j, i < n → j < n → i ≠ j → ∀ b k, part i b k → ¬ part j b k)
    (h : inOrder n P m = some m') : EverySchedule (fun i : Fin n => P i) m m' :=
  everySchedule_of_inOrder hw hd h

/-- C51, progress: under every schedule the loop can be continued to its end, with the same memory. -/
theorem C51_reaches_end {B : Type} [DecidableEq B] {V : B → Type} {n : Nat} {P : Fin n → Prog V Unit}
    {m m' : Mem V} (h : EverySchedule P m m') {k : Nat} {c : Config V n}
    (hc : Config.Steps k ⟨m, P⟩ c) :
    ∃ l d, k ≤ l ∧ Config.Steps l ⟨m, P⟩ d ∧ d.Finished ∧ d.mem = m' := by
  obtain ⟨N, hN⟩ := h.ends
  suffices ∀ r k (c : Config V n), N - k = r → Config.Steps k ⟨m, P⟩ c →
      ∃ l d, k ≤ l ∧ Config.Steps l ⟨m, P⟩ d ∧ d.Finished ∧ d.mem = m' from this _ _ _ rfl hc
  intro r
  induction r with
  | zero =>
    intro k c hk hc
    refine ⟨k, c, Nat.le_refl _, hc, ?_, ?_⟩ <;> by_cases hf : c.Finished
    · exact hf
    · exfalso
      obtain ⟨d, hd⟩ := Config.step_of_not_finished hf (h.defined k c hc)
      have := hN _ _ (.snoc hc hd)
      omega
    · exact h.result k c hc hf
    · exfalso
      obtain ⟨d, hd⟩ := Config.step_of_not_finished hf (h.defined k c hc)
      have := hN _ _ (.snoc hc hd)
      omega
  | succ r ih =>
    intro k c hk hc
    by_cases hf : c.Finished
    · exact ⟨k, c, Nat.le_refl _, hc, hf, h.result k c hc hf⟩
    · obtain ⟨d, hd⟩ := Config.step_of_not_finished hf (h.defined k c hc)
      obtain ⟨l, e, h1, h2⟩ := ih (k + 1) d (by omega) (.snoc hc hd)
      exact ⟨l, e, by omega, h2⟩

/-! ## Matrices -/

/-- C51, GEMM: under every schedule the target ends as the model of C34 leaves it. -/
theorem C51_gemm [CommRing R] [DecidableEq R] (tA tB : Bool) (M N K : Nat) (alpha : R)
    (A : Tensor R) (smA ldA : Nat) (B : Tensor R) (smB ldB : Nat) (beta : R) (C C' : Tensor R)
    (smC ldC : Nat) (hld : N ≤ ldC)
    (h : TensorMath.gemm true tA tB M N K alpha A smA ldA B smB ldB beta C smC ldC = .done C') :
    EverySchedule (fun i : Fin M => gemmRow tA tB N K alpha A smA ldA B smB ldB beta C smC ldC i)
      (memOf [C.data, A.data, B.data] []) (memOf [C'.data, A.data, B.data] []) :=
  gemm_schedule tA tB M N K alpha A smA ldA B smB ldB beta C C' smC ldC hld h

/-- C51 and C34, GEMM: every schedule computes the matrix product. -/
theorem C51_gemm_product [CommRing R] [DecidableEq R] (tA tB : Bool) (M N K : Nat) (alpha beta : R)
    (A B C : Tensor R) (smA ldA smB ldB smC ldC : Nat)
    (hA : if tA then HasMatrix A (sampleStart A smA) ldA K M else HasMatrix A (sampleStart A smA) ldA M K)
    (hB : if tB then HasMatrix B (sampleStart B smB) ldB N K else HasMatrix B (sampleStart B smB) ldB K N)
    (hC : HasMatrix C (sampleStart C smC) ldC M N) (hld : N ≤ ldC) (k : Nat)
    (c : Config (Cell R) M)
    (hc : Config.Steps k ⟨memOf [C.data, A.data, B.data] [],
      fun i => gemmRow tA tB N K alpha A smA ldA B smB ldB beta C smC ldC i⟩ c) (hf : c.Finished) :
    matrixOf { C with data := c.mem (.val 0) } (sampleStart C smC) ldC M N =
      alpha • ((if tA then (matrixOf A (sampleStart A smA) ldA K M).transpose
                else matrixOf A (sampleStart A smA) ldA M K) *
               (if tB then (matrixOf B (sampleStart B smB) ldB N K).transpose
                else matrixOf B (sampleStart B smB) ldB K N)) +
      beta • matrixOf C (sampleStart C smC) ldC M N := by
  obtain ⟨C', h1, h2, _, h4, _⟩ := C34_gemm tA tB M N K alpha beta A B C smA ldA smB ldB smC ldC hA hB hC hld
  have h := (gemm_schedule tA tB M N K alpha A smA ldA B smB ldB beta C C' smC ldC hld h1).result k c hc hf
  rw [← h4, h]
  rfl

/-- C51, GEMM: the condition on the row distance is needed.  With rows at distance 1 and two columns
the last element of a row is the first of the next, and the iterations race. -/
theorem C51_gemm_overlapping_rows_race :
    ∃ k c, Config.Steps k (n := 2) ⟨memOf [[0, 0, 0], [], []] [], fun i =>
      gemmRow (R := Int) false false 2 0 1 ⟨1, 0, 0, 0, []⟩ 0 0 ⟨1, 0, 0, 0, []⟩ 0 0 0
        ⟨1, 3, 1, 1, [0, 0, 0]⟩ 0 1 i⟩ c ∧ c.Race := by
  refine ⟨1, ⟨(memOf [[0, 0, 0], [], []] [] : Mem (Cell Int)).set (.val 0) [0, 0, 0],
    fun j => if j = 0 then store 0 1 0 else (store 0 1 0).bind fun _ => store 0 2 0⟩,
    .snoc (.refl _) ⟨0, store 0 1 0, rfl, ?_⟩, 0, 1, by decide, .val 0, 1, ⟨rfl, rfl⟩, ⟨rfl, rfl⟩⟩
  funext j
  rcases Fin.exists_fin_two.1 ⟨j, rfl⟩ with rfl | rfl <;> rfl

/-- C51, GEMV. -/
theorem C51_gemv [CommRing R] [DecidableEq R] (tA : Bool) (M N : Nat) (alpha : R)
    (A : Tensor R) (smA ldA : Nat) (X : Tensor R) (smX incX : Nat) (beta : R) (Y Y' : Tensor R)
    (smY incY : Nat) (hinc : 0 < incY)
    (h : TensorMath.gemv true tA M N alpha A smA ldA X smX incX beta Y smY incY = .done Y') :
    EverySchedule (fun i : Fin M => gemvRow tA N alpha A smA ldA X smX incX beta Y smY incY i)
      (memOf [Y.data, A.data, X.data] []) (memOf [Y'.data, A.data, X.data] []) :=
  gemv_schedule tA M N alpha A smA ldA X smX incX beta Y Y' smY incY hinc h

/-- C51, IM2COL, for a target of the shape it needs. -/
theorem C51_im2col [CommRing R] (c : TensorMath.ColShape) (source t t' : Tensor R)
    (ht : c.FitsTarget t) (h : TensorMath.im2col c source t = .done t') :
    EverySchedule (fun s : Fin c.samples => im2colSample c source t s)
      (memOf [t.data, source.data] []) (memOf [t'.data, source.data] []) :=
  im2col_schedule c source t t' ht h

/-- C51, ADD. -/
theorem C51_add [CommRing R] (a b t t' : Tensor R) (h : TensorMath.add a b t = .done t') :
    EverySchedule (fun e : Fin a.elements => addElement e)
      (memOf [t.data, a.data, b.data] []) (memOf [t'.data, a.data, b.data] []) :=
  add_schedule a b t t' h

/-! ## Activation functions -/

/-- C51, the forward passes of the activation layers. -/
theorem C51_activation_forward [Field R] [LinearOrder R] (exp : R → R) (input t t' : Tensor R) :
    (Activations.sigmoidForward exp input t = some t' →
      EverySchedule (fun e : Fin input.elements => mapElement (Activations.sigmoid exp) e)
        (memOf [t.data, input.data] []) (memOf [t'.data, input.data] [])) ∧
    (Activations.tanhForward exp input t = some t' →
      EverySchedule (fun e : Fin input.elements => mapElement (Activations.tanh exp) e)
        (memOf [t.data, input.data] []) (memOf [t'.data, input.data] [])) ∧
    (Activations.reluForward input t = some t' →
      EverySchedule (fun e : Fin input.elements => mapElement Activations.relu e)
        (memOf [t.data, input.data] []) (memOf [t'.data, input.data] [])) :=
  ⟨map_schedule _ _ input t t', map_schedule _ _ input t t', map_schedule _ _ input t t'⟩

/-- C51, the backward passes of the activation layers. -/
theorem C51_activation_backward [Field R] [LinearOrder R] (input output outputDelta t t' : Tensor R) :
    (Activations.sigmoidBackward input output outputDelta t = some t' →
      EverySchedule (fun e : Fin input.elements => map2Element Activations.sigmoidDelta e)
        (memOf [t.data, outputDelta.data, output.data] [])
        (memOf [t'.data, outputDelta.data, output.data] [])) ∧
    (Activations.tanhBackward input output outputDelta t = some t' →
      EverySchedule (fun e : Fin input.elements => map2Element Activations.tanhDelta e)
        (memOf [t.data, outputDelta.data, output.data] [])
        (memOf [t'.data, outputDelta.data, output.data] [])) ∧
    (Activations.reluBackward input outputDelta t = some t' →
      EverySchedule (fun e : Fin input.elements => map2Element Activations.reluDelta e)
        (memOf [t.data, outputDelta.data, input.data] [])
        (memOf [t'.data, outputDelta.data, input.data] [])) ∧
    (Activations.softmaxBackward input outputDelta t = some t' →
      EverySchedule (fun e : Fin input.elements => mapElement id e)
        (memOf [t.data, outputDelta.data] []) (memOf [t'.data, outputDelta.data] [])) := by
  refine ⟨map2_schedule _ _ outputDelta output t t', map2_schedule _ _ outputDelta output t t',
    map2_schedule _ _ outputDelta input t t', fun h => map_schedule _ _ outputDelta t t' ?_⟩
  simp only [Option.map_id_fun, id]
  exact h

/-- C51, softmax. -/
theorem C51_softmax [Field R] (exp : R → R) (input t t' : Tensor R) (hw : input.width ≤ t.width)
    (hh : 0 < t.height) (hm : 0 < t.maps) (h : Activations.softmaxForward exp input t = some t') :
    EverySchedule (fun s : Fin input.samples => softmaxSample exp input t s)
      (memOf [t.data, input.data] []) (memOf [t'.data, input.data] []) :=
  softmax_schedule exp input t t' hw hh hm h

/-! ## Layers that move data -/

/-- C51, padding, forward; the clearing of the output before the loop is not parallel. -/
theorem C51_resize_forward [Zero R] (bx by' : Nat) (input t t' : Tensor R)
    (hm : input.maps ≤ t.maps) (hw : input.width + bx = t.width) (hh : input.height + by' = t.height)
    (h : Layers.resizeForward bx by' input t = some t') :
    ∃ c, t.clear 0 none = some c ∧
      EverySchedule (fun s : Fin input.samples => resizeForwardSample bx by' input t s)
        (memOf [c.data, input.data] []) (memOf [t'.data, input.data] []) :=
  resizeForward_schedule bx by' input t t' hm hw hh h

/-- C51, padding, backward. -/
theorem C51_resize_backward [Zero R] (bx by' : Nat) (outputDelta t t' : Tensor R)
    (h : Layers.resizeBackward bx by' true outputDelta t = some t') :
    ∃ c, t.clear 0 none = some c ∧
      EverySchedule (fun s : Fin t.samples => resizeBackwardSample bx by' outputDelta t s)
        (memOf [c.data, outputDelta.data] []) (memOf [t'.data, outputDelta.data] []) :=
  resizeBackward_schedule bx by' outputDelta t t' h

/-- C51, concatenation, forward. -/
theorem C51_concat_forward [Zero R] (a b t t' : Tensor R) (hm : t.maps = a.maps + b.maps)
    (h : Layers.concatForward a b t = some t') :
    EverySchedule (fun s : Fin a.samples => concatForwardSample a b t s)
      (memOf [t.data, a.data, b.data] []) (memOf [t'.data, a.data, b.data] []) :=
  concatForward_schedule a b t t' hm h

/-- C51, concatenation, backward: two tensors are written. -/
theorem C51_concat_backward [Zero R] (outputDelta da db da' db' : Tensor R)
    (h : Layers.concatBackward outputDelta (da, db) = some (da', db')) :
    EverySchedule (fun s : Fin da.samples => concatBackwardSample outputDelta da db s)
      (memOf [da.data, db.data, outputDelta.data] [])
      (memOf [da'.data, db'.data, outputDelta.data] []) :=
  concatBackward_schedule outputDelta (da, db) (da', db') h

/-- C51, spatial prior, forward. -/
theorem C51_spatial_forward [Field R] (input t t' : Tensor R) (hm : t.maps = input.maps + 2)
    (hw : input.width ≤ t.width) (hh : input.height ≤ t.height)
    (h : Layers.spatialForward input t = some t') :
    ∃ c, t.clear 1 none = some c ∧
      EverySchedule (fun s : Fin input.samples => spatialForwardSample input c s)
        (memOf [c.data, input.data] []) (memOf [t'.data, input.data] []) :=
  spatialForward_schedule input t t' hm hw hh h

/-- C51, spatial prior, backward. -/
theorem C51_spatial_backward [Zero R] (outputDelta t t' : Tensor R)
    (h : Layers.spatialBackward outputDelta t = some t') :
    EverySchedule (fun s : Fin t.samples => spatialBackwardSample outputDelta t s)
      (memOf [t.data, outputDelta.data] []) (memOf [t'.data, outputDelta.data] []) :=
  spatialBackward_schedule outputDelta t t' h

/-- C51, gradient accumulation, any number of consumers. -/
theorem C51_accumulate [AddZeroClass R] (outputDeltas : List (Tensor R)) (t t' : Tensor R)
    (h : Layers.accumulate outputDeltas t = some t') :
    ∃ c, t.clear 0 none = some c ∧
      EverySchedule (fun s : Fin t.samples => accumulateSample outputDeltas.length t s)
        (memOf (c.data :: outputDeltas.map (·.data)) [])
        (memOf (t'.data :: outputDeltas.map (·.data)) []) :=
  accumulate_schedule outputDeltas t t' h

/-! ## Local response normalisation -/

/-- C51, local response normalisation, forward: region sums and output are written.  On images higher
than wide the loop leaves its sample (C46), so these are excluded. -/
theorem C51_lrn_forward_partial [Field R] (pow : R → R → R) (c : Lrn.Config R)
    (input sums output sums' output' : Tensor R) (hsq : input.height ≤ input.width)
    (h1 : Sh input sums) (h2 : Sh input output)
    (h : Lrn.forward pow c input (sums, output) = some (sums', output')) :
    EverySchedule (fun s : Fin input.samples => lrnForwardSample pow c input sums output s)
      (memOf [sums.data, output.data, input.data] [])
      (memOf [sums'.data, output'.data, input.data] []) :=
  lrnForward_schedule pow c input (sums, output) (sums', output') hsq h1 h2 h

/-- C51, local response normalisation, backward. -/
theorem C51_lrn_backward_partial [Field R] (pow : R → R → R) (c : Lrn.Config R)
    (input sums outputDelta t t' : Tensor R) (hsq : input.height ≤ input.width) (h1 : Sh input t)
    (h : Lrn.backward pow c input sums outputDelta t = some t') :
    ∃ d, TensorMath.setSample t none 0 = some d ∧
      EverySchedule (fun s : Fin input.samples => lrnBackwardSample pow c input sums outputDelta d s)
        (memOf [d.data, input.data, sums.data, outputDelta.data] [])
        (memOf [t'.data, input.data, sums.data, outputDelta.data] []) :=
  lrnBackward_schedule pow c input sums outputDelta t t' hsq h1 h

/-- The two samples of an image of width 1 and height 2, size 1, both methods. -/
def tallSamples (method : Lrn.Method) : Config (Cell ℚ) 2 :=
  ⟨memOf [[0, 0, 0, 0], [0, 0, 0, 0], [1, 1, 1, 1]] [], fun s =>
    lrnForwardSample (fun _ _ => 1) ⟨1, 1, 1, method⟩ ⟨2, 1, 2, 1, [1, 1, 1, 1]⟩
      ⟨2, 1, 2, 1, [0, 0, 0, 0]⟩ ⟨2, 1, 2, 1, [0, 0, 0, 0]⟩ s⟩

/-- C51, local response normalisation: the restriction is needed.  On an image higher than wide the
column loop runs to the height, so the iteration of one sample writes elements of the next sample,
whose iteration writes them too. -/
theorem C51_lrn_tall_image_race (method : Lrn.Method) :
    ∃ k c, Config.Steps k (tallSamples method) c ∧ c.Race := by
  have key : ∀ (k l : Nat) (c : Config (Cell ℚ) 2) (a : Buf × Nat),
      ((Config.advance 0 k c).bind (Config.advance 1 l)).any (fun d =>
        decide ((d.thread 0).target = some a) && decide ((d.thread 1).target = some a)) = true →
      ∃ k d, Config.Steps k c d ∧ d.Race := by
    intro k l c a h
    rw [Option.any_eq_true] at h
    obtain ⟨d, h1, h2⟩ := h
    rw [Option.bind_eq_some_iff] at h1
    obtain ⟨e, h0, h1⟩ := h1
    rw [Bool.and_eq_true, decide_eq_true_eq, decide_eq_true_eq] at h2
    exact ⟨_, d, Config.steps_of_advance (Config.steps_of_advance (.refl c) h0) h1,
      Config.race_of_target (by decide) h2.1 h2.2⟩
  cases method with
  | withinChannels => exact key 11 1 _ (.val 0, 2) (by decide +kernel)
  | acrossChannels => exact key 13 1 _ (.val 0, 2) (by decide +kernel)

/-! ## Pooling -/

/-- C51, max-pooling: both passes, the backward pass with the positions of the forward pass. -/
theorem C51_max_pooling [LinearOrder R] [Zero R] (input out d dx dx' : Tensor R) (mx my : Tensor Nat)
    (lowest : R) (rw rh : Nat)
    (hi : input.WF) (hm : mx.WF) (hy : my.WF) (ho : out.WF) (h1 : Sh out mx) (h2 : Sh out my)
    (hs : out.samples = input.samples) (hmaps : out.maps = input.maps)
    (hw : input.width = out.width * rw) (hh : input.height = out.height * rh)
    (hsize : input.width ≤ 2 ^ 24 ∧ input.height ≤ 2 ^ 24)
    (hd1 : Sh out d) (hd2 : Sh input dx) :
    ∃ mx' my' out', Pooling.forward lowest rw rh input ((mx, my), out) = some ((mx', my'), out') ∧
      EverySchedule (fun s : Fin input.samples => maxForwardSample lowest rw rh input out mx my s)
        (memOf [out.data, input.data] [mx.data, my.data])
        (memOf [out'.data, input.data] [mx'.data, my'.data]) ∧
      (0 < rw → 0 < rh → Pooling.backward mx' my' d dx = some dx' →
        ∃ c, dx.clear 0 none = some c ∧
          EverySchedule (fun s : Fin dx.samples => maxBackwardSample mx' my' d dx s)
            (memOf [c.data, d.data] [mx'.data, my'.data])
            (memOf [dx'.data, d.data] [mx'.data, my'.data])) := by
  obtain ⟨mx', my', out', g1, g2, g3, g4, g5, g6, g7, g8⟩ :=
    Pooling.forward_spec (lowest := lowest) hi hm hy ho h1 h2 hs hmaps hw hh
  refine ⟨mx', my', out', g1, maxForward_schedule lowest rw rh input ((mx, my), out) _ h1 h2
    (Nat.le_of_eq hmaps.symm) g1, fun hrw hrh hb => maxBackward_schedule mx' my' d dx dx' ?_ hb⟩
  intro ox oy m s ix iy a1 a2 a3 a4 e1 e2
  obtain ⟨q1, q2, q3, q4⟩ := hd1
  obtain ⟨p1, p2, p3, p4⟩ := hd2
  have i1 : ox < out.width := by omega
  have i2 : oy < out.height := by omega
  obtain ⟨r, f1, _, f3, f4⟩ := g8 ox oy m s ⟨i1, i2, by omega, by omega⟩
  obtain rfl := Option.some.inj (e1.symm.trans f3)
  obtain rfl := Option.some.inj (e2.symm.trans f4)
  have z1 := radix_lt i1 hrw
  have z2 := radix_lt i2 hrh
  rcases f1 with ⟨_, hr⟩ | ⟨i, j, hi', hj', hr, _⟩
  · rw [hr]
    dsimp only
    rw [Pooling.toF32_of_lt (by omega)]
    omega
  · have w1 := radix_lt i1 hi'
    have w2 := radix_lt i2 hj'
    rw [hr]
    dsimp only
    rw [Pooling.toF32_of_lt (by omega), Pooling.toF32_of_lt (by omega)]
    omega

/-- C51, strided max-pooling, forward. -/
theorem C51_strided_pooling_forward [LT R] [DecidableLT R] (lowest : R) (rw rh sw sh : Nat)
    (input out out' : Tensor R) (mask mask' : Tensor Nat) (h1 : Sh out mask)
    (hm : input.maps ≤ out.maps)
    (h : Pooling.advForward lowest rw rh sw sh input (mask, out) = some (mask', out')) :
    EverySchedule (fun s : Fin input.samples => advForwardSample lowest rw rh sw sh input out mask s)
      (memOf [out.data, input.data] [mask.data]) (memOf [out'.data, input.data] [mask'.data]) :=
  advForward_schedule lowest rw rh sw sh input (mask, out) (mask', out') h1 hm h

/-- C51, strided max-pooling, backward, for any mask. -/
theorem C51_strided_pooling_backward [Zero R] [Add R] (rw rh sw sh : Nat) (mask : Tensor Nat)
    (outputDelta t t' : Tensor R)
    (h : Pooling.advBackward rw rh sw sh mask outputDelta t = some t') :
    EverySchedule (fun s : Fin t.samples => advBackwardSample rw rh sw sh mask outputDelta t s)
      (memOf [t.data, outputDelta.data] [mask.data])
      (memOf [t'.data, outputDelta.data] [mask.data]) :=
  advBackward_schedule rw rh sw sh mask outputDelta t t' h

/-! ## Statistics and data -/

/-- C51, the binary statistics layer: one iteration per threshold, four arrays of counters. -/
theorem C51_binary_stat [Field R] [LinearOrder R] (first second third : Tensor R)
    (st st' : BinaryStat.State R)
    (h : BinaryStat.feedForward false first second third st = some st') :
    EverySchedule (fun t : Fin st.values.length => binaryThreshold (R := R) first.elements t)
      (memOf [st.counts.map (·.tp), st.counts.map (·.fp), st.counts.map (·.tn),
        st.counts.map (·.fn), st.values, first.data, second.data, third.data] [])
      (memOf [st'.counts.map (·.tp), st'.counts.map (·.fp), st'.counts.map (·.tn),
        st'.counts.map (·.fn), st.values, first.data, second.data, third.data] []) :=
  binary_schedule first second third st st' h

/-- C51, the error weights of a dataset sample, row by row. -/
theorem C51_error_weights [Field R] [LinearOrder R] (lowest : R)
    (errorFunction : Nat → Nat → Nat → Nat → R) (classWeights : List R) (label : Tensor R)
    (dataWidth dataHeight sample : Nat) (weight weight' : Tensor R) (hw : dataWidth ≤ weight.width)
    (h : TensorStreamDataset.writeWeights lowest errorFunction classWeights label dataWidth dataHeight
      sample weight = some weight') :
    ∃ c, weight.clear 0 (some sample) = some c ∧
      EverySchedule (fun y : Fin dataHeight =>
          weightRow lowest errorFunction label dataWidth dataHeight sample weight y)
        (memOf [c.data, label.data, classWeights] [])
        (memOf [weight'.data, label.data, classWeights] []) :=
  weights_schedule lowest errorFunction classWeights label dataWidth dataHeight sample weight weight' hw h

/-! ## Examples -/

/-- Two rows, two columns, rows at distance three. -/
example : EverySchedule (fun i : Fin 2 =>
      gemmRow (R := Int) false false 2 1 1 ⟨1, 2, 1, 1, [2, 3]⟩ 0 1 ⟨1, 2, 1, 1, [5, 7]⟩ 0 2 0
        ⟨1, 5, 1, 1, [0, 0, 9, 0, 0]⟩ 0 3 i)
    (memOf [[0, 0, 9, 0, 0], [2, 3], [5, 7]] []) (memOf [[10, 14, 9, 15, 21], [2, 3], [5, 7]] []) :=
  C51_gemm false false 2 2 1 1 ⟨1, 2, 1, 1, [2, 3]⟩ 0 1 ⟨1, 2, 1, 1, [5, 7]⟩ 0 2 0
    ⟨1, 5, 1, 1, [0, 0, 9, 0, 0]⟩ ⟨1, 5, 1, 1, [10, 14, 9, 15, 21]⟩ 0 3 (by omega) (by decide +kernel)

/-- Two samples, concatenated and split. -/
example : EverySchedule (fun s : Fin 2 =>
      concatBackwardSample (R := Int) ⟨2, 1, 1, 2, [1, 2, 3, 4]⟩ ⟨2, 1, 1, 1, [0, 0]⟩
        ⟨2, 1, 1, 1, [0, 0]⟩ s)
    (memOf [[0, 0], [0, 0], [1, 2, 3, 4]] []) (memOf [[1, 3], [2, 4], [1, 2, 3, 4]] []) :=
  C51_concat_backward ⟨2, 1, 1, 2, [1, 2, 3, 4]⟩ ⟨2, 1, 1, 1, [0, 0]⟩ ⟨2, 1, 1, 1, [0, 0]⟩
    ⟨2, 1, 1, 1, [1, 3]⟩ ⟨2, 1, 1, 1, [2, 4]⟩ (by decide +kernel)

/-- Two samples of two columns each, pooled to one. -/
example : EverySchedule (fun s : Fin 2 =>
      advForwardSample (R := Int) (-10) 2 1 1 1 ⟨2, 2, 1, 1, [4, 3, 5, 6]⟩ ⟨2, 1, 1, 1, [0, 0]⟩
        ⟨2, 1, 1, 1, [0, 0]⟩ s)
    (memOf [[0, 0], [4, 3, 5, 6]] [[0, 0]]) (memOf [[4, 6], [4, 3, 5, 6]] [[0, 1]]) :=
  C51_strided_pooling_forward (-10) 2 1 1 1 ⟨2, 2, 1, 1, [4, 3, 5, 6]⟩ ⟨2, 1, 1, 1, [0, 0]⟩
    ⟨2, 1, 1, 1, [4, 6]⟩ ⟨2, 1, 1, 1, [0, 0]⟩ ⟨2, 1, 1, 1, [0, 1]⟩ (Sh.rfl' _) (by decide)
    (by decide +kernel)

/-- Two thresholds, three elements. -/
example : EverySchedule (fun t : Fin 2 => binaryThreshold (R := ℚ) 3 t)
    (memOf [[0, 0], [0, 0], [0, 0], [0, 0], [0, 1/2], [1, 1/4, -1], [1, -1, 1], [1, 2, 3]] [])
    (memOf [[1, 1], [2, 0], [0, 2], [3, 3], [0, 1/2], [1, 1/4, -1], [1, -1, 1], [1, 2, 3]] []) :=
  C51_binary_stat ⟨3, 1, 1, 1, [1, 1/4, -1]⟩ ⟨3, 1, 1, 1, [1, -1, 1]⟩ ⟨3, 1, 1, 1, [1, 2, 3]⟩
    ⟨[0, 1/2], [⟨0, 0, 0, 0⟩, ⟨0, 0, 0, 0⟩]⟩ ⟨[0, 1/2], [⟨1, 2, 0, 3⟩, ⟨1, 0, 2, 3⟩]⟩
    (by decide +kernel)

end CN24.Props
