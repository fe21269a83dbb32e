import Verif.Proof.Lrn
import Mathlib.Data.Finset.Prod
import Mathlib.Analysis.SpecialFunctions.Pow.Deriv
import Mathlib.Analysis.Calculus.Deriv.Inv
import Mathlib.Tactic.NormNum
import Mathlib.Tactic.Positivity

/-! C46: the forward pass of local response normalisation.  C64: its backward pass. -/

namespace CN24.Props
open CN24 CN24.Tensor CN24.Lrn

/-- `j` lies in the window of `size` elements around `i`: up to `(size - 1) / 2` before it and up to
`size / 2` behind it. -/
def NearBy (size i j : Nat) : Prop := i ≤ j + (size - 1) / 2 ∧ j ≤ i + size / 2

instance (size i j : Nat) : Decidable (NearBy size i j) := by unfold NearBy; infer_instance

/-- Window membership for the two methods; an element is (column, row, map). -/
def InNeighbourhood (method : Method) (size : Nat) (p q : Nat × Nat × Nat) : Prop :=
  match method with
  | .withinChannels => NearBy size p.1 q.1 ∧ NearBy size p.2.1 q.2.1 ∧ q.2.2 = p.2.2
  | .acrossChannels => q.1 = p.1 ∧ q.2.1 = p.2.1 ∧ NearBy size p.2.2 q.2.2

instance (method : Method) (size : Nat) (p q : Nat × Nat × Nat) :
    Decidable (InNeighbourhood method size p q) := by
  unfold InNeighbourhood; cases method <;> dsimp only <;> infer_instance

/-- The window of an element, clipped to the image. -/
def neighbourhood {R : Type _} (c : Config R) (w h maps : Nat) (p : Nat × Nat × Nat) :
    Finset (Nat × Nat × Nat) :=
  (Finset.range w ×ˢ Finset.range h ×ˢ Finset.range maps).filter (InNeighbourhood c.method c.size p)

/-- Local response normalisation of one sample given as a function of (column, row, map). -/
noncomputable def normalised (c : Config ℝ) (w h maps : Nat) (f : Nat × Nat × Nat → ℝ)
    (p : Nat × Nat × Nat) : ℝ :=
  f p / (1 + c.alpha / ((neighbourhood c w h maps p).card : ℝ) *
    ∑ q ∈ neighbourhood c w h maps p, f q ^ 2) ^ c.beta

/-- One sample of a tensor as a function. -/
noncomputable def sampleOf (t : Tensor ℝ) (s : Nat) (p : Nat × Nat × Nat) : ℝ := t.val p.1 p.2.1 p.2.2 s

theorem regionSet_eq {R : Type _} {c : Config R} (hsize : 0 < c.size) {input : Tensor R} {x y m s : Nat}
    (hin : input.InRange x y m s) :
    regionSet c input x y m = neighbourhood c input.width input.height input.maps (x, y, m) := by
  have hsub : sub c.size = (c.size - 1) / 2 := by unfold sub; rw [if_neg (by omega)]
  obtain ⟨h1, h2, h3, _⟩ := hin
  ext p
  obtain ⟨a, b, d⟩ := p
  unfold regionSet neighbourhood
  rw [List.mem_toFinset, mem_regionList, Finset.mem_filter]
  unfold InNeighbourhood
  simp only [Finset.mem_product, Finset.mem_range]
  cases c.method with
  | acrossChannels =>
    simp only [mem_windowList, hsub, NearBy, add]
    constructor
    · rintro ⟨rfl, rfl, h⟩; exact ⟨⟨h1, h2, h.1⟩, rfl, rfl, h.2⟩
    · rintro ⟨⟨_, _, h⟩, rfl, rfl, h'⟩; exact ⟨rfl, rfl, h, h'⟩
  | withinChannels =>
    simp only [mem_windowList, hsub, NearBy, add]
    constructor
    · rintro ⟨ha, hb, rfl⟩; exact ⟨⟨ha.1, hb.1, h3⟩, ha.2, hb.2, rfl⟩
    · rintro ⟨⟨ha, hb, _⟩, ha', hb', rfl⟩; exact ⟨⟨ha, ha'⟩, ⟨hb, hb'⟩, rfl⟩

/-- The layer's tensors: input, output and region sums have one shape, as `CreateOutputs` and `Connect`
make them. -/
structure LrnTensors (input sums output : Tensor ℝ) : Prop where
  input_wf : input.WF
  sums_wf : sums.WF
  output_wf : output.WF
  sums_sh : Sh input sums
  output_sh : Sh input output

theorem outValue_eq {c : Config ℝ} (hsize : 0 < c.size) {input : Tensor ℝ} {x y m s : Nat}
    (hin : input.InRange x y m s) :
    outValue (fun a b : ℝ => a ^ b) c input x y m s =
      normalised c input.width input.height input.maps (sampleOf input s) (x, y, m) := by
  unfold outValue normalised base regionSum sampleOf
  rw [regionSet_eq hsize hin]
  simp only [pow_two]

/-- What the forward pass computes on every image that is not taller than wide: the columns before
`height` are normalised, the others keep what the output tensor held before. -/
theorem C46_columns (c : Config ℝ) (input sums output : Tensor ℝ) (h : LrnTensors input sums output)
    (hsize : 0 < c.size) (hle : input.height ≤ input.width) :
    ∃ sums' output', forward (fun a b : ℝ => a ^ b) c input (sums, output) = some (sums', output') ∧
      Sh output output' ∧
      ∀ x y m s, input.InRange x y m s → output'.get x y m s =
        if x < input.height then
          some (normalised c input.width input.height input.maps (sampleOf input s) (x, y, m))
        else output.get x y m s := by
  obtain ⟨a, b, e, _, hb⟩ := forward_spec (fun a b : ℝ => a ^ b) c h.input_wf h.sums_wf h.output_wf
    h.sums_sh h.output_sh hle
  refine ⟨a, b, e, hb.sh, ?_⟩
  intro x y m s hin
  by_cases hx : x < input.height
  · rw [if_pos hx, ← outValue_eq hsize hin]
    exact hb.hit (h.output_sh.inRange.2 hin) (by rw [if_pos hx])
  · rw [if_neg hx]
    exact hb.miss (h.output_sh.inRange.2 hin) (by rw [if_neg hx])

/-- C46 for square images: every output pixel is its input pixel, divided by a power of one plus the
scaled mean square of its window clipped to the image. -/
theorem C46_square_partial (c : Config ℝ) (input sums output : Tensor ℝ)
    (h : LrnTensors input sums output) (hsize : 0 < c.size) (hsq : input.width = input.height) :
    ∃ sums' output', forward (fun a b : ℝ => a ^ b) c input (sums, output) = some (sums', output') ∧
      Sh output output' ∧
      ∀ x y m s, input.InRange x y m s → output'.get x y m s =
        some (normalised c input.width input.height input.maps (sampleOf input s) (x, y, m)) := by
  obtain ⟨a, b, e, hs, hg⟩ := C46_columns c input sums output h hsize (by omega)
  refine ⟨a, b, e, hs, ?_⟩
  intro x y m s hin
  rw [hg x y m s hin, if_pos (by have := hin.1; omega)]

/-- The full property fails on wide images: with one row and two columns the second output pixel keeps
the old content `w` of the output tensor, whatever the input. -/
theorem C46_wide_image_stale (c : Config ℝ) (hsize : 0 < c.size) (a b z v w : ℝ) :
    ∃ sums' output', forward (fun a b : ℝ => a ^ b) c ⟨1, 2, 1, 1, [a, b]⟩
        (⟨1, 2, 1, 1, [z, z]⟩, ⟨1, 2, 1, 1, [v, w]⟩) = some (sums', output') ∧
      output'.get 1 0 0 0 = some w := by
  obtain ⟨s', o', e, _, hg⟩ := C46_columns c ⟨1, 2, 1, 1, [a, b]⟩ ⟨1, 2, 1, 1, [z, z]⟩
    ⟨1, 2, 1, 1, [v, w]⟩ ⟨rfl, rfl, rfl, ⟨rfl, rfl, rfl, rfl⟩, ⟨rfl, rfl, rfl, rfl⟩⟩ hsize
    (Nat.le_of_lt Nat.one_lt_two)
  exact ⟨s', o', e, hg 1 0 0 0 ⟨Nat.one_lt_two, Nat.one_pos, Nat.one_pos, Nat.one_pos⟩⟩

/-- The full property fails on tall images: on every image that is taller than wide the forward pass
reads behind the input buffer. -/
theorem C46_tall_image_overrun (c : Config ℝ) (input : Tensor ℝ) (st : Tensor ℝ × Tensor ℝ)
    (hi : input.WF) (h1 : 0 < input.samples) (h2 : 0 < input.maps) (hlt : input.width < input.height) :
    forward (fun a b : ℝ => a ^ b) c input st = none :=
  forward_tall _ c hi st h1 h2 hlt

/-- With a non-negative scale the output never exceeds the input in magnitude and keeps its sign
(exponent non-negative). -/
theorem C46_shrinks (c : Config ℝ) (w h maps : Nat) (f : Nat × Nat × Nat → ℝ) (p : Nat × Nat × Nat)
    (ha : 0 ≤ c.alpha) (hb : 0 ≤ c.beta) :
    |normalised c w h maps f p| ≤ |f p| ∧ 0 ≤ normalised c w h maps f p * f p := by
  unfold normalised
  have hbase : 1 ≤ 1 + c.alpha / ((neighbourhood c w h maps p).card : ℝ) *
      ∑ q ∈ neighbourhood c w h maps p, f q ^ 2 := by
    have : 0 ≤ ∑ q ∈ neighbourhood c w h maps p, f q ^ 2 := Finset.sum_nonneg fun q _ => sq_nonneg _
    have : 0 ≤ c.alpha / ((neighbourhood c w h maps p).card : ℝ) *
      ∑ q ∈ neighbourhood c w h maps p, f q ^ 2 := by positivity
    linarith
  have hp := Real.one_le_rpow hbase hb
  generalize (1 + c.alpha / ((neighbourhood c w h maps p).card : ℝ) *
      ∑ q ∈ neighbourhood c w h maps p, f q ^ 2) ^ c.beta = d at hp
  have hd : 0 < d := by linarith
  constructor
  · rw [abs_div, abs_of_pos hd, div_le_iff₀ hd]
    nlinarith [abs_nonneg (f p)]
  · rw [div_mul_eq_mul_div]
    exact div_nonneg (mul_self_nonneg _) (le_of_lt hd)

/-- Non-vacuity, with a rational stand-in for the power function: a 2 x 2 image, window 3. -/
example : (Lrn.forward (fun a _ => a) (⟨3, 4, 1, .withinChannels⟩ : Config Rat)
      ⟨1, 2, 2, 1, [1, 2, 3, 4]⟩ (⟨1, 2, 2, 1, [0, 0, 0, 0]⟩, ⟨1, 2, 2, 1, [0, 0, 0, 0]⟩)).map
      (fun r => (r.1.data, r.2.data)) =
    some ([30, 30, 30, 30], [1 / 31, 2 / 31, 3 / 31, 4 / 31]) := by decide +kernel

/-- Non-vacuity across channels: a window of 2 takes the element itself and the next map. -/
example : (Lrn.forward (fun a _ => a) (⟨2, 2, 1, .acrossChannels⟩ : Config Rat)
      ⟨1, 1, 1, 3, [1, 2, 3]⟩ (⟨1, 1, 1, 3, [0, 0, 0]⟩, ⟨1, 1, 1, 3, [0, 0, 0]⟩)).map
      (fun r => (r.1.data, r.2.data)) =
    some ([5, 13, 9], [1 / 6, 2 / 14, 3 / 19]) := by decide +kernel

/-! ### C64 -/

/-- The sum of all outputs of the layer, weighted with the incoming deltas. -/
noncomputable def weightedOutput (c : Config ℝ) (input : Tensor ℝ) (delta : Tensor ℝ)
    (f : Nat → Nat × Nat × Nat → ℝ) : ℝ :=
  ∑ s ∈ Finset.range input.samples, ∑ m ∈ Finset.range input.maps,
    ∑ y ∈ Finset.range input.height, ∑ x ∈ Finset.range input.width,
      delta.val x y m s * normalised c input.width input.height input.maps (f s) (x, y, m)

/-- The input with `t` added to one element. -/
noncomputable def nudged (input : Tensor ℝ) (p0 : Nat × Nat × Nat) (s0 : Nat) (t : ℝ) (s : Nat)
    (p : Nat × Nat × Nat) : ℝ := sampleOf input s p + if s = s0 ∧ p = p0 then t else 0

theorem hasDerivAt_nudged (input : Tensor ℝ) (p0 : Nat × Nat × Nat) (s0 s : Nat) (p : Nat × Nat × Nat) :
    HasDerivAt (fun t => nudged input p0 s0 t s p) (if s = s0 ∧ p = p0 then 1 else 0) 0 := by
  unfold nudged
  split
  · exact (hasDerivAt_id (0 : ℝ)).const_add _
  · exact hasDerivAt_const _ _

theorem nudged_zero (input : Tensor ℝ) (p0 : Nat × Nat × Nat) (s0 s : Nat) (p : Nat × Nat × Nat) :
    nudged input p0 s0 0 s p = sampleOf input s p := by
  unfold nudged; split <;> simp

theorem hasDerivAt_normalised (c : Config ℝ) (ha : 0 ≤ c.alpha) (input : Tensor ℝ) (w h maps : Nat)
    (p0 : Nat × Nat × Nat) (s0 s : Nat) (p : Nat × Nat × Nat) :
    HasDerivAt (fun t => normalised c w h maps (nudged input p0 s0 t s) p)
      (((if s = s0 ∧ p = p0 then 1 else 0) *
          (1 + c.alpha / ((neighbourhood c w h maps p).card : ℝ) *
            ∑ q ∈ neighbourhood c w h maps p, sampleOf input s q ^ 2) ^ c.beta -
        sampleOf input s p * (c.alpha / ((neighbourhood c w h maps p).card : ℝ) *
          (if s = s0 ∧ p0 ∈ neighbourhood c w h maps p then 2 * sampleOf input s p0 else 0) * c.beta *
          (1 + c.alpha / ((neighbourhood c w h maps p).card : ℝ) *
            ∑ q ∈ neighbourhood c w h maps p, sampleOf input s q ^ 2) ^ (c.beta - 1))) /
        ((1 + c.alpha / ((neighbourhood c w h maps p).card : ℝ) *
            ∑ q ∈ neighbourhood c w h maps p, sampleOf input s q ^ 2) ^ c.beta) ^ 2) 0 := by
  have hsum : HasDerivAt (fun t => ∑ q ∈ neighbourhood c w h maps p, nudged input p0 s0 t s q ^ 2)
      (if s = s0 ∧ p0 ∈ neighbourhood c w h maps p then 2 * sampleOf input s p0 else 0) 0 := by
    have h1 : HasDerivAt (fun t => ∑ q ∈ neighbourhood c w h maps p, nudged input p0 s0 t s q ^ 2)
        (∑ q ∈ neighbourhood c w h maps p, 2 * nudged input p0 s0 0 s q *
          (if s = s0 ∧ q = p0 then 1 else 0)) 0 := by
      refine HasDerivAt.fun_sum fun q _ => ?_
      have := (hasDerivAt_nudged input p0 s0 s q).fun_pow 2
      simpa using this
    refine h1.congr_deriv ?_
    by_cases hs : s = s0
    · by_cases hm : p0 ∈ neighbourhood c w h maps p
      · rw [if_pos ⟨hs, hm⟩, Finset.sum_eq_single_of_mem p0 hm]
        · rw [if_pos ⟨hs, rfl⟩, mul_one, nudged_zero]
        · intro q _ hq
          rw [if_neg (fun h => hq h.2), mul_zero]
      · rw [if_neg (fun h => hm h.2)]
        refine Finset.sum_eq_zero fun q hq => ?_
        rw [if_neg (fun (h : s = s0 ∧ q = p0) => hm (h.2 ▸ hq)), mul_zero]
    · rw [if_neg (fun h => hs h.1)]
      refine Finset.sum_eq_zero fun q hq => ?_
      rw [if_neg (fun h => hs h.1), mul_zero]
  have hsum0 : ∑ q ∈ neighbourhood c w h maps p, nudged input p0 s0 0 s q ^ 2 =
      ∑ q ∈ neighbourhood c w h maps p, sampleOf input s q ^ 2 :=
    Finset.sum_congr rfl fun q _ => by rw [nudged_zero]
  have hpos : 0 < 1 + c.alpha / ((neighbourhood c w h maps p).card : ℝ) *
      ∑ q ∈ neighbourhood c w h maps p, sampleOf input s q ^ 2 := by
    have : 0 ≤ ∑ q ∈ neighbourhood c w h maps p, sampleOf input s q ^ 2 :=
      Finset.sum_nonneg fun q _ => sq_nonneg _
    positivity
  have hbase := (hsum.const_mul (c.alpha / ((neighbourhood c w h maps p).card : ℝ))).const_add (1 : ℝ)
  have hpow := hbase.rpow_const (p := c.beta) (Or.inl (by rw [hsum0]; exact ne_of_gt hpos))
  have hdiv := (hasDerivAt_nudged input p0 s0 s p).div hpow (by
    rw [hsum0]; exact ne_of_gt (Real.rpow_pos_of_pos hpos _))
  rw [hsum0, nudged_zero] at hdiv
  exact hdiv

theorem contribution_eq (c : Config ℝ) (ha : 0 ≤ c.alpha) (hsize : 0 < c.size) {input sums delta : Tensor ℝ}
    {x0 y0 m0 s0 x y m s : Nat} (hin : input.InRange x y m s)
    (hsum : sums.val x y m s = regionSum c input x y m s) :
    contribution (fun a b : ℝ => a ^ b) c input sums delta x0 y0 m0 s0 s m y x =
      delta.val x y m s *
      (((if s = s0 ∧ (x, y, m) = (x0, y0, m0) then 1 else 0) *
          (1 + c.alpha / ((neighbourhood c input.width input.height input.maps (x, y, m)).card : ℝ) *
            ∑ q ∈ neighbourhood c input.width input.height input.maps (x, y, m),
              sampleOf input s q ^ 2) ^ c.beta -
        sampleOf input s (x, y, m) *
          (c.alpha / ((neighbourhood c input.width input.height input.maps (x, y, m)).card : ℝ) *
          (if s = s0 ∧ (x0, y0, m0) ∈ neighbourhood c input.width input.height input.maps (x, y, m)
            then 2 * sampleOf input s (x0, y0, m0) else 0) * c.beta *
          (1 + c.alpha / ((neighbourhood c input.width input.height input.maps (x, y, m)).card : ℝ) *
            ∑ q ∈ neighbourhood c input.width input.height input.maps (x, y, m),
              sampleOf input s q ^ 2) ^ (c.beta - 1))) /
        ((1 + c.alpha / ((neighbourhood c input.width input.height input.maps (x, y, m)).card : ℝ) *
            ∑ q ∈ neighbourhood c input.width input.height input.maps (x, y, m),
              sampleOf input s q ^ 2) ^ c.beta) ^ 2) := by
  have hb : base c (regionSet c input x y m).card (sums.val x y m s) =
      1 + c.alpha / ((neighbourhood c input.width input.height input.maps (x, y, m)).card : ℝ) *
        ∑ q ∈ neighbourhood c input.width input.height input.maps (x, y, m), sampleOf input s q ^ 2 := by
    unfold base
    rw [hsum]
    unfold regionSum sampleOf
    rw [regionSet_eq hsize hin]
    simp only [pow_two]
  have hpos : 0 < 1 + c.alpha /
      ((neighbourhood c input.width input.height input.maps (x, y, m)).card : ℝ) *
      ∑ q ∈ neighbourhood c input.width input.height input.maps (x, y, m), sampleOf input s q ^ 2 := by
    have : 0 ≤ ∑ q ∈ neighbourhood c input.width input.height input.maps (x, y, m),
        sampleOf input s q ^ 2 := Finset.sum_nonneg fun q _ => sq_nonneg _
    positivity
  unfold contribution penalty
  dsimp only
  rw [hb, regionSet_eq hsize hin]
  generalize (1 + c.alpha / ((neighbourhood c input.width input.height input.maps (x, y, m)).card : ℝ) *
    ∑ q ∈ neighbourhood c input.width input.height input.maps (x, y, m), sampleOf input s q ^ 2) = B
    at hpos
  have hB : (0 : ℝ) < B ^ c.beta := Real.rpow_pos_of_pos hpos _
  generalize B ^ c.beta = D at hB
  generalize B ^ (c.beta - 1) = E
  have hD : D ≠ 0 := ne_of_gt hB
  have e1 : (if s = s0 ∧ m = m0 ∧ y = y0 ∧ x = x0 then delta.val x y m s / D else 0) =
      delta.val x y m s * ((if s = s0 ∧ (x, y, m) = (x0, y0, m0) then 1 else 0) * D / D ^ 2) := by
    by_cases hc : s = s0 ∧ m = m0 ∧ y = y0 ∧ x = x0
    · obtain ⟨rfl, rfl, rfl, rfl⟩ := hc
      simp only [and_self, if_true]
      field_simp
    · rw [if_neg hc, if_neg (by
        rintro ⟨h1, h2⟩
        simp only [Prod.mk.injEq] at h2
        exact hc ⟨h1, h2.2.2, h2.2.1, h2.1⟩)]
      ring
  rw [e1]
  by_cases hc : s = s0 ∧ (x0, y0, m0) ∈ neighbourhood c input.width input.height input.maps (x, y, m)
  · rw [if_pos hc, if_pos hc]
    obtain ⟨rfl, _⟩ := hc
    unfold sampleOf
    dsimp only
    generalize c.alpha / _ = K
    generalize (if s = s ∧ (x, y, m) = (x0, y0, m0) then (1 : ℝ) else 0) = I
    ring
  · rw [if_neg hc, if_neg hc]
    generalize c.alpha / _ = K
    generalize (if s = s0 ∧ (x, y, m) = (x0, y0, m0) then (1 : ℝ) else 0) = I
    ring

/-- C64: on a square image, with a non-negative scale, the backward pass run after the forward pass
writes to every input delta the partial derivative, with respect to that input element, of the sum of
all outputs weighted with the incoming deltas. -/
theorem C64_square_partial (c : Config ℝ) (input sums output outputDelta inputDelta : Tensor ℝ)
    (h : LrnTensors input sums output) (hd : outputDelta.WF) (hdi : inputDelta.WF)
    (sd : Sh output outputDelta) (sdi : Sh input inputDelta) (hsize : 0 < c.size) (ha : 0 ≤ c.alpha)
    (hsq : input.width = input.height) :
    ∃ sums' output', forward (fun a b : ℝ => a ^ b) c input (sums, output) = some (sums', output') ∧
    ∃ din, backward (fun a b : ℝ => a ^ b) c input sums' outputDelta inputDelta = some din ∧
      Sh inputDelta din ∧
      ∀ x y m s, input.InRange x y m s → ∃ g, din.get x y m s = some g ∧
        HasDerivAt (fun t => weightedOutput c input outputDelta (nudged input (x, y, m) s t)) g 0 := by
  obtain ⟨a, b, e, ha', hb⟩ := forward_spec (fun a b : ℝ => a ^ b) c h.input_wf h.sums_wf h.output_wf
    h.sums_sh h.output_sh (by omega)
  obtain ⟨din, e2, hs2, _, hg⟩ := backward_spec (fun a b : ℝ => a ^ b) c h.input_wf ha'.wf hd hdi
    (h.sums_sh.trans ha'.sh) (h.output_sh.trans sd) sdi (by omega)
  refine ⟨a, b, e, din, e2, hs2, ?_⟩
  intro x0 y0 m0 s0 hin0
  refine ⟨_, hg x0 y0 m0 s0 hin0, ?_⟩
  unfold weightedOutput
  refine HasDerivAt.fun_sum fun s hs => ?_
  refine HasDerivAt.fun_sum fun m hm => ?_
  refine HasDerivAt.fun_sum fun y hy => ?_
  rw [hsq]
  refine HasDerivAt.fun_sum fun x hx => ?_
  rw [Finset.mem_range] at hs hm hy hx
  have hin : input.InRange x y m s := ⟨by omega, hy, hm, hs⟩
  have hsum : a.val x y m s = regionSum c input x y m s :=
    val_of_get (ha'.hit (h.sums_sh.inRange.2 hin) (by rw [if_pos hx]))
  have h2 := contribution_eq c ha hsize (delta := outputDelta) (x0 := x0) (y0 := y0) (m0 := m0)
    (s0 := s0) hin hsum
  rw [h2, ← hsq]
  exact (hasDerivAt_normalised c ha input _ _ _ (x0, y0, m0) s0 s (x, y, m)).const_mul _

/-- On a wide image the backward pass ignores the columns from `height` on: their own incoming delta
never reaches the input.  Here the second of two columns, outside every window, gets delta zero. -/
theorem C64_wide_image_ignored :
    (forward (fun a _ => a) (⟨1, 0, 1, .withinChannels⟩ : Config Rat) ⟨1, 2, 1, 1, [1, 1]⟩
      (⟨1, 2, 1, 1, [0, 0]⟩, ⟨1, 2, 1, 1, [0, 0]⟩)).bind (fun r =>
      (backward (fun a _ => a) (⟨1, 0, 1, .withinChannels⟩ : Config Rat) ⟨1, 2, 1, 1, [1, 1]⟩ r.1
        ⟨1, 2, 1, 1, [5, 7]⟩ ⟨1, 2, 1, 1, [0, 0]⟩).map (·.data)) = some [5, 0] := by
  decide +kernel

/-- Non-vacuity of the hypotheses. -/
example : LrnTensors ⟨1, 2, 2, 1, [1, 2, 3, 4]⟩ ⟨1, 2, 2, 1, [0, 0, 0, 0]⟩ ⟨1, 2, 2, 1, [0, 0, 0, 0]⟩ :=
  ⟨rfl, rfl, rfl, ⟨rfl, rfl, rfl, rfl⟩, ⟨rfl, rfl, rfl, rfl⟩⟩

end CN24.Props
