import Verif.Proof.Rounding
import Verif.Props.Counting
import Verif.Props.Convolution
import Verif.Props.Pooling
import Verif.Props.Activations

/-
C94: how far the single precision results of the layers of a network are from the exact ones.
-/

namespace CN24.Rounding
open CN24 CN24.Tensor CN24.TensorMath CN24.Convolution CN24.Props CN24.Counting

theorem val_value (t : Tensor Single) (x y m s : Nat) : (valueTensor t).val x y m s = (t.val x y m s).value := by
  unfold val valueTensor
  show (t.data.map Flt.value).getD (t.offset x y m s) 0 = _
  rw [List.getD_eq_getElem?_getD, List.getD_eq_getElem?_getD, List.getElem?_map]
  cases t.data[t.offset x y m s]? with
  | none => exact Flt.value_zero.symm
  | some v => rfl

/-- The absolute values of a tensor. -/
def absTensor (t : Tensor ℚ) : Tensor ℚ := ⟨t.samples, t.width, t.height, t.maps, t.data.map fun v => |v|⟩

theorem val_abs (t : Tensor ℚ) (x y m s : Nat) : (absTensor t).val x y m s = |t.val x y m s| := by
  unfold val absTensor
  show (t.data.map fun v => |v|).getD (t.offset x y m s) 0 = _
  rw [List.getD_eq_getElem?_getD, List.getD_eq_getElem?_getD, List.getElem?_map]
  cases t.data[t.offset x y m s]? with
  | none => simp
  | some v => rfl

/-- What a convolution layer computes without rounding from an image `x` and the weights and the bias given. -/
def exactAt (p : Params) (inputMaps : Nat) (w b x : Tensor ℚ) (ox oy om s : Nat) : ℚ :=
  let mapsPerGroup := inputMaps / p.group
  let firstMap := om / (p.outputMaps / p.group) * mapsPerGroup
  b.val om 0 0 0 + ∑ im ∈ Finset.range mapsPerGroup, ∑ ky ∈ Finset.range p.kernelHeight,
    ∑ kx ∈ Finset.range p.kernelWidth, w.val kx ky im om *
      Props.pixel x ((ox : Int) * p.strideWidth + kx - p.padWidth) ((oy : Int) * p.strideHeight + ky - p.padHeight)
        (firstMap + im) s

/-- The number of products in one output. -/
def products (p : Params) (inputMaps : Nat) : Nat := p.kernelWidth * p.kernelHeight * (inputMaps / p.group)

theorem padded_value (x : Tensor Single) (ix iy : Int) (m s : Nat) :
    padded (valueTensor x) ix iy m s = (padded x ix iy m s).value := by
  unfold padded
  show (if (0 ≤ ix ∧ ix < x.width) ∧ (0 ≤ iy ∧ iy < x.height) then _ else _) = _
  split
  · exact val_value x _ _ _ _
  · exact Flt.value_zero.symm

theorem padded_abs (x : Tensor ℚ) (ix iy : Int) (m s : Nat) :
    padded (absTensor x) ix iy m s = |padded x ix iy m s| := by
  unfold padded
  show (if (0 ≤ ix ∧ ix < x.width) ∧ (0 ≤ iy ∧ iy < x.height) then _ else _) = _
  split
  · exact val_abs x _ _ _ _
  · simp

theorem termAt_abs (w x : Tensor ℚ) (p : Params) (IG OG ox oy om s k : Nat) :
    termAt (absTensor w) (absTensor x) p IG OG ox oy om s k = |termAt w x p IG OG ox oy om s k| := by
  unfold termAt
  rw [val_abs, padded_abs, abs_mul]

theorem exactAt_eq (p : Params) (inputMaps : Nat) (w b x : Tensor ℚ) (ox oy om s : Nat) :
    exactAt p inputMaps w b x ox oy om s = b.val om 0 0 0 + ∑ k ∈ Finset.range (products p inputMaps),
      termAt w x p (inputMaps / p.group) (p.outputMaps / p.group) ox oy om s k := by
  unfold exactAt products
  rw [sum_termAt]
  unfold convAt
  simp only [padded_eq_pixel]

theorem single_one_ne_zero : (1 : Single) ≠ 0 := fun h => single_zero_ne_one h.symm

theorem one_sub_zero : (1 : Single) - 0 = 1 := by decide +kernel

/-- The output that the code computes, as a function of weights, bias and image. -/
def outputOf {R : Type _} [Zero R] [One R] [Add R] [Mul R] [DecidableEq R] (w b x : Tensor R) (p : Params) (inputMaps ox oy om s : Nat) : R :=
  gemmValue 1 1 (1 * sumTo (termAt w x p (inputMaps / p.group) (p.outputMaps / p.group) ox oy om s) (products p inputMaps))
    (0 + b.val om 0 0 0 * 1)

theorem output_err (w b x : Tensor Single) (p : Params) (inputMaps ox oy om s : Nat) (hN : products p inputMaps + 4 ≤ 2 ^ 23) :
    |(outputOf w b x p inputMaps ox oy om s).value - exactAt p inputMaps (valueTensor w) (valueTensor b) (valueTensor x) ox oy om s| ≤
      (products p inputMaps + 4) / 2 ^ 23 *
        exactAt p inputMaps (absTensor (valueTensor w)) (absTensor (valueTensor b)) (absTensor (valueTensor x)) ox oy om s +
      (products p inputMaps + 4) / 2 ^ 149 := by
  unfold outputOf gemmValue
  rw [if_neg single_one_ne_zero]
  have hp : 1 ≤ 24 := by omega
  have hu := Flt.ulp_pos 24
  have ht := Flt.tiny_pos 149
  generalize hn : products p inputMaps = n at *
  let T := termAt (valueTensor w) (valueTensor x) p (inputMaps / p.group)
    (p.outputMaps / p.group) ox oy om s
  have a1 : ∀ k, k < n → Flt.Approx (termAt w x p (inputMaps / p.group)
      (p.outputMaps / p.group) ox oy om s k) (T k) |T k| 1 (Flt.tiny 149) := by
    intro k _
    have := Flt.Approx.mul (p := 24) (e := 149) hp
      (w.val (k % p.kernelWidth) (k / p.kernelWidth % p.kernelHeight)
        (k / (p.kernelWidth * p.kernelHeight)) om)
      (padded x ((ox : Int) * p.strideWidth + ((k % p.kernelWidth : Nat) : Int) - p.padWidth)
        ((oy : Int) * p.strideHeight + ((k / p.kernelWidth % p.kernelHeight : Nat) : Int) -
          p.padHeight)
        (om / (p.outputMaps / p.group) * (inputMaps / p.group) +
          k / (p.kernelWidth * p.kernelHeight)) s)
    rw [← val_value, ← padded_value] at this
    exact this
  have a2 := Flt.Approx.sumTo hp ht.le n a1
  have a3 := (a2.one_mul hp).one_mul hp
  have hb : (b.val om 0 0 0).value = (valueTensor b).val om 0 0 0 := (val_value _ _ _ _ _).symm
  have b1 := Flt.Approx.mul (p := 24) (e := 149) hp (b.val om 0 0 0) 1
  rw [Flt.value_one, mul_one, hb] at b1
  have b0 : Flt.Approx (0 : Single) 0 0 1 0 := ⟨by rw [Flt.value_zero]; simp, by simp, le_refl _⟩
  have b2 := (b0.add hp b1).one_mul hp
  rw [zero_add, zero_add, zero_add] at b2
  have c1 := a3.add hp (b2.mono (c' := 1 + n + 1 + 1) (by omega) (le_refl _))
  have herr := c1.err
  rw [exactAt_eq, exactAt_eq, hn, val_abs]
  have hT : ∑ k ∈ Finset.range n, termAt (absTensor (valueTensor w)) (absTensor (valueTensor x)) p
      (inputMaps / p.group) (p.outputMaps / p.group) ox oy om s k =
      ∑ k ∈ Finset.range n, |T k| := Finset.sum_congr rfl fun k _ => termAt_abs _ _ _ _ _ _ _ _ _ _
  rw [hT]
  have hA : 0 ≤ ∑ k ∈ Finset.range n, |T k| + |(valueTensor b).val om 0 0 0| :=
    add_nonneg (Finset.sum_nonneg fun k _ => abs_nonneg _) (abs_nonneg _)
  have hlin := Flt.pow_le_two_mul 24 (n + 4) (by
    have : ((n + 4 : Nat) : ℚ) ≤ 2 ^ 23 := by exact_mod_cast hN
    unfold Flt.ulp
    have := mul_le_mul_of_nonneg_right this (show (0 : ℚ) ≤ 1 / 2 ^ 24 by positivity)
    calc _ ≤ _ := this
      _ = _ := by norm_num)
  have hcomm : ∀ z : ℚ, ∀ v : Single, |v.value - ((∑ k ∈ Finset.range n, T k) + z)| = |v.value - (z + ∑ k ∈ Finset.range n, T k)| :=
    fun z v => by rw [add_comm z]
  refine (show |_ - (_ + ∑ k ∈ Finset.range n, T k)| ≤ _ from ?_)
  rw [← hcomm]
  refine herr.trans ?_
  rw [show 1 + n + 1 + 1 + 1 = n + 4 by omega]
  generalize (valueTensor b).val om 0 0 0 = β at *
  have hg1 : (1 + Flt.ulp 24) ^ (n + 4) - 1 ≤ ((n : ℚ) + 4) / 2 ^ 23 := by
    unfold Flt.ulp at hlin ⊢
    push_cast at hlin
    calc _ ≤ 2 * ((n : ℚ) + 4) * (1 / 2 ^ 24) := by linarith
      _ = _ := by ring
  have hg2 : (1 + Flt.ulp 24) ^ (n + 4) ≤ 2 := by
    have : ((n : ℚ) + 4) ≤ 2 ^ 23 := by exact_mod_cast hN
    have : ((n : ℚ) + 4) / 2 ^ 23 ≤ 1 := by rw [div_le_one (by positivity)]; exact this
    linarith
  have hd' : (1 + Flt.ulp 24) * ((1 + Flt.ulp 24) * ((1 + Flt.ulp 24) * ((n : ℚ) * (1 + Flt.ulp 24) ^ n * Flt.tiny 149) + Flt.tiny 149) +
      Flt.tiny 149 + ((1 + Flt.ulp 24) * ((1 + Flt.ulp 24) * Flt.tiny 149) + Flt.tiny 149)) ≤ ((n : ℚ) + 4) / 2 ^ 149 := by
    have e1 : Flt.tiny 149 * 2 = 1 / 2 ^ 149 := by unfold Flt.tiny; norm_num
    have e2 : ((n : ℚ) + 4) / 2 ^ 149 = ((n : ℚ) + 4) * 2 * Flt.tiny 149 := by
      rw [div_eq_mul_one_div, ← e1]; ring
    rw [e2]
    have k1 : (1 + Flt.ulp 24) ^ 1 ≤ 2 := (Flt.pow_mono 24 (by omega : 1 ≤ n + 4)).trans hg2
    have k2 : (1 + Flt.ulp 24) ^ 2 ≤ 2 := (Flt.pow_mono 24 (by omega : 2 ≤ n + 4)).trans hg2
    have k3 : (1 + Flt.ulp 24) ^ 3 ≤ 2 := (Flt.pow_mono 24 (by omega : 3 ≤ n + 4)).trans hg2
    have k4 : (1 + Flt.ulp 24) ^ (n + 3) ≤ 2 := (Flt.pow_mono 24 (by omega : n + 3 ≤ n + 4)).trans hg2
    rw [pow_add] at k4
    have hn0 : (0 : ℚ) ≤ n := by positivity
    have k5 := mul_le_mul_of_nonneg_left k4 hn0
    generalize (1 + Flt.ulp 24) ^ n = q at *
    generalize Flt.tiny 149 = τ at *
    generalize Flt.ulp 24 = u at *
    have : (1 + u) * ((1 + u) * ((1 + u) * ((n : ℚ) * q * τ) + τ) + τ + ((1 + u) * ((1 + u) * τ) + τ)) =
        (n * (q * (1 + u) ^ 3) + (1 + u) ^ 2 + (1 + u) ^ 1 + (1 + u) ^ 3 + (1 + u) ^ 1) * τ := by ring
    rw [this]
    apply mul_le_mul_of_nonneg_right _ ht.le
    linarith
  refine add_le_add ?_ ?_
  · rw [add_comm (|β|)]
    exact mul_le_mul_of_nonneg_right hg1 hA
  · exact hd'

/-- C94: every output of the forward pass of a convolution layer, computed in single precision, is the exact output
(bias plus sum of the products of weights and pixels) up to 2^-23 of the sum of the absolute values of what is added,
for each product, and a few of the smallest numbers. -/
theorem C94_forward (l : Layer Single) (h : l.Connected) (hd : l.dropout = 0) (testing : Bool)
    (hN : products l.params l.inputMaps + 4 ≤ 2 ^ 23) :
    ∃ l', l.feedForward testing = .done l' ∧ l'.Connected ∧
      (∃ a b c, l' = { l with im2colFf := a, smsFf := b, output := c }) ∧
      ∀ ox oy om s, ox < l.outputWidth → oy < l.outputHeight → om < l.params.outputMaps → s < l.input.samples →
        ∃ v, l'.output.get ox oy om s = some v ∧
        |v.value - exactAt l.params l.inputMaps (valueTensor l.weights) (valueTensor l.bias) (valueTensor l.input) ox oy om s| ≤
          (products l.params l.inputMaps + 4) / 2 ^ 23 *
            exactAt l.params l.inputMaps (absTensor (valueTensor l.weights)) (absTensor (valueTensor l.bias))
              (absTensor (valueTensor l.input)) ox oy om s +
          (products l.params l.inputMaps + 4) / 2 ^ 149 := by
  obtain ⟨l', h1, h2, h3, _, _, h6⟩ := forward_fold_spec h testing (Or.inr hd)
  refine ⟨l', h1, h3, h2, ?_⟩
  intro ox oy om s hox hoy hom hs
  have h7 := h6 ox oy om s ⟨by rw [h.output.2.1]; exact hox, by rw [h.output.2.2.1]; exact hoy,
    by rw [h.output.2.2.2.1]; exact hom, by rw [h.output.1]; exact hs⟩
  have hw : (if testing = true then 1 - l.dropout else (1 : Single)) = 1 := by
    rw [hd, one_sub_zero]; exact ite_self _
  rw [hw] at h7
  exact ⟨_, h7, output_err _ _ _ _ _ _ _ _ _ hN⟩

/-! ### Overflow -/

/-- The numbers of a tensor as results that did not overflow. -/
def checked (t : Tensor Single) : Tensor Checked := ⟨t.samples, t.width, t.height, t.maps, t.data.map Checked.of⟩

theorem val_checked (t : Tensor Single) (x y m s : Nat) : (checked t).val x y m s = Checked.of (t.val x y m s) := by
  unfold val checked
  show (t.data.map Checked.of).getD (t.offset x y m s) (Checked.of 0) = _
  rw [List.getD_eq_getElem?_getD, List.getD_eq_getElem?_getD, List.getElem?_map]
  cases t.data[t.offset x y m s]? <;> rfl

theorem padded_checked (x : Tensor Single) (ix iy : Int) (m s : Nat) : padded (checked x) ix iy m s = Checked.of (padded x ix iy m s) := by
  unfold padded
  show (if (0 ≤ ix ∧ ix < x.width) ∧ (0 ≤ iy ∧ iy < x.height) then _ else _) = _
  split
  · exact val_checked x _ _ _ _
  · rfl

theorem finite_of_value {a : Single} (h : |a.value| < 2 ^ 128) : a.Finite := by
  unfold Single.Finite
  unfold Flt.value at h
  rw [abs_div, abs_of_pos (show (0 : ℚ) < 2 ^ 149 by positivity), div_lt_iff₀ (by positivity), ← pow_add] at h
  have : ((a.units.natAbs : ℕ) : ℚ) < 2 ^ (128 + 149) := by
    rw [Nat.cast_natAbs]
    push_cast
    exact h
  exact_mod_cast this

/-- Numbers close to moderate ones are finite. -/
theorem finite_of_approx {v : Single} {x A d : ℚ} {c : Nat} (h : Flt.Approx v x A c d) (hc : (1 + Flt.ulp 24) ^ c ≤ 2) (hA : A ≤ 2 ^ 126)
    (hd : d ≤ 2 ^ 126) : v.Finite := by
  apply finite_of_value
  have hA0 : 0 ≤ A := (abs_nonneg x).trans h.size
  have h1 := h.err
  have h2 := h.size
  have h3 : |v.value| ≤ |v.value - x| + |x| := by
    have := abs_add_le (v.value - x) x
    simpa using this
  have h4 : ((1 + Flt.ulp 24) ^ c - 1) * A ≤ 1 * A := mul_le_mul_of_nonneg_right (by linarith) hA0
  have : (2 : ℚ) ^ 126 + 2 ^ 126 + 2 ^ 126 < 2 ^ 128 := by norm_num
  linarith

theorem check_finite {a : Single} (h : a.Finite) : Checked.check a = Checked.of a := if_pos h

theorem bind_both (a b : Single) (g : Single → Single → Checked) :
    (Option.bind (Checked.of a) fun x => Option.bind (Checked.of b) fun y => g x y : Checked) = g a b := rfl

theorem checked_mul (a b : Single) : Checked.of a * Checked.of b = Checked.check (a * b) :=
  bind_both a b fun x y => Checked.check (x * y)

theorem checked_add (a b : Single) : Checked.of a + Checked.of b = Checked.check (a + b) :=
  bind_both a b fun x y => Checked.check (x + y)

/-- Without overflow the numbers with overflow behave like those without. -/
theorem output_finite (w b x : Tensor Single) (p : Params) (inputMaps ox oy om s : Nat) (hN : products p inputMaps + 4 ≤ 2 ^ 23)
    (hA : exactAt p inputMaps (absTensor (valueTensor w)) (absTensor (valueTensor b)) (absTensor (valueTensor x)) ox oy om s ≤ 2 ^ 126) :
    outputOf (checked w) (checked b) (checked x) p inputMaps ox oy om s = Checked.of (outputOf w b x p inputMaps ox oy om s) ∧
      (outputOf w b x p inputMaps ox oy om s).Finite := by
  have hp : 1 ≤ 24 := by omega
  have hu := Flt.ulp_pos 24
  have ht := Flt.tiny_pos 149
  rw [exactAt_eq, val_abs] at hA
  unfold outputOf
  generalize products p inputMaps = n at *
  have hlin := Flt.pow_le_two_mul 24 (n + 4) (by
    have : ((n + 4 : Nat) : ℚ) ≤ 2 ^ 23 := by exact_mod_cast hN
    unfold Flt.ulp
    have := mul_le_mul_of_nonneg_right this (show (0 : ℚ) ≤ 1 / 2 ^ 24 by positivity)
    calc _ ≤ _ := this
      _ = _ := by norm_num)
  have hg2 : (1 + Flt.ulp 24) ^ (n + 4) ≤ 2 := by
    have : ((n : ℚ) + 4) ≤ 2 ^ 23 := by exact_mod_cast hN
    unfold Flt.ulp at hlin ⊢
    push_cast at hlin
    have e : 2 * ((n : ℚ) + 4) * (1 / 2 ^ 24) = ((n : ℚ) + 4) / 2 ^ 23 := by ring
    have : ((n : ℚ) + 4) / 2 ^ 23 ≤ 1 := by rw [div_le_one (by positivity)]; exact this
    linarith
  have pw : ∀ k, k ≤ n + 4 → (1 + Flt.ulp 24) ^ k ≤ 2 := fun k hk => (Flt.pow_mono 24 hk).trans hg2
  let T := termAt (valueTensor w) (valueTensor x) p (inputMaps / p.group) (p.outputMaps / p.group) ox oy om s
  let t := termAt w x p (inputMaps / p.group) (p.outputMaps / p.group) ox oy om s
  let β := b.val om 0 0 0
  have hT : ∑ k ∈ Finset.range n, termAt (absTensor (valueTensor w)) (absTensor (valueTensor x)) p
      (inputMaps / p.group) (p.outputMaps / p.group) ox oy om s k =
      ∑ k ∈ Finset.range n, |T k| := Finset.sum_congr rfl fun k _ => termAt_abs _ _ _ _ _ _ _ _ _ _
  rw [hT] at hA
  have hb : β.value = (valueTensor b).val om 0 0 0 := (val_value _ _ _ _ _).symm
  rw [← hb] at hA
  have hβ0 : 0 ≤ |β.value| := abs_nonneg _
  have hS0 : 0 ≤ ∑ k ∈ Finset.range n, |T k| := Finset.sum_nonneg fun k _ => abs_nonneg _
  have hτ : Flt.tiny 149 ≤ 1 := by unfold Flt.tiny; norm_num
  have a1 : ∀ k, Flt.Approx (t k) (T k) |T k| 1 (Flt.tiny 149) := by
    intro k
    have := Flt.Approx.mul (p := 24) (e := 149) hp
      (w.val (k % p.kernelWidth) (k / p.kernelWidth % p.kernelHeight) (k / (p.kernelWidth * p.kernelHeight)) om)
      (padded x ((ox : Int) * p.strideWidth + ((k % p.kernelWidth : Nat) : Int) - p.padWidth)
        ((oy : Int) * p.strideHeight + ((k / p.kernelWidth % p.kernelHeight : Nat) : Int) - p.padHeight)
        (om / (p.outputMaps / p.group) * (inputMaps / p.group) + k / (p.kernelWidth * p.kernelHeight)) s)
    rw [← val_value, ← padded_value] at this
    exact this
  have part : ∀ m, m ≤ n → ∑ k ∈ Finset.range m, |T k| ≤ 2 ^ 126 := by
    intro m hm
    have : ∑ k ∈ Finset.range m, |T k| ≤ ∑ k ∈ Finset.range n, |T k| :=
      Finset.sum_le_sum_of_subset_of_nonneg (Finset.range_mono hm) fun k _ _ => abs_nonneg _
    linarith
  have one : ∀ k, k < n → |T k| ≤ 2 ^ 126 := by
    intro k hk
    have := Finset.single_le_sum (f := fun k => |T k|) (s := Finset.range n) (fun k _ => abs_nonneg _) (Finset.mem_range.2 hk)
    linarith
  have dsum : ∀ m, m ≤ n → (m : ℚ) * (1 + Flt.ulp 24) ^ m * Flt.tiny 149 ≤ 2 ^ 24 := by
    intro m hm
    have h1 := pw m (by omega)
    have h2 : (m : ℚ) ≤ 2 ^ 23 := by
      have : m ≤ 2 ^ 23 := by omega
      exact_mod_cast this
    have h3 : (0 : ℚ) ≤ m := by positivity
    have h5 := Flt.pow_ge 24 m
    have h4 : (m : ℚ) * (1 + Flt.ulp 24) ^ m ≤ 2 ^ 23 * 2 := mul_le_mul h2 h1 (by linarith) (by positivity)
    calc (m : ℚ) * (1 + Flt.ulp 24) ^ m * Flt.tiny 149 ≤ (2 ^ 23 * 2) * 1 := mul_le_mul h4 hτ ht.le (by positivity)
      _ = 2 ^ 24 := by norm_num
  -- products
  have c1 : ∀ k, k < n → termAt (checked w) (checked x) p (inputMaps / p.group) (p.outputMaps / p.group) ox oy om s k = Checked.of (t k) := by
    intro k hk
    unfold termAt
    rw [val_checked, padded_checked, checked_mul]
    exact check_finite (finite_of_approx (a1 k) (pw 1 (by omega)) (one k hk) (by linarith [show (1 : ℚ) ≤ 2 ^ 126 by norm_num]))
  -- sums
  have c2 : ∀ m, m ≤ n → sumTo (termAt (checked w) (checked x) p (inputMaps / p.group) (p.outputMaps / p.group) ox oy om s) m =
      Checked.of (sumTo t m) := by
    intro m
    induction m with
    | zero => intro _; rfl
    | succ m ih =>
      intro hm
      show sumTo _ m + _ = _
      rw [ih (by omega), c1 m (by omega), checked_add]
      have := Flt.Approx.sumTo hp ht.le (m + 1) (fun k _ => a1 k)
      exact check_finite (finite_of_approx this (pw _ (by omega)) (part _ hm) ((dsum _ hm).trans (by norm_num)))
  have a2 := Flt.Approx.sumTo hp ht.le n (fun k _ => a1 k)
  have u2 : 1 + Flt.ulp 24 ≤ 2 := by simpa using pw 1 (by omega)
  have dbound : ∀ d e : ℚ, 0 ≤ d → d ≤ e → (1 + Flt.ulp 24) * d + Flt.tiny 149 ≤ 2 * e + 1 := by
    intro d e hd hde
    have : (1 + Flt.ulp 24) * d ≤ 2 * d := mul_le_mul_of_nonneg_right u2 hd
    linarith
  have a3 := a2.one_mul hp
  have d3 := dbound _ _ a2.nonneg (dsum n (le_refl _))
  have a4 := a3.one_mul hp
  have d4 := dbound _ _ a3.nonneg d3
  have b1 := Flt.Approx.mul (p := 24) (e := 149) hp β 1
  rw [Flt.value_one, mul_one] at b1
  have b0 : Flt.Approx (0 : Single) 0 0 1 0 := ⟨by rw [Flt.value_zero]; simp, by simp, le_refl _⟩
  have b2 := b0.add hp b1
  rw [zero_add, zero_add, zero_add] at b2
  have e2 : (1 + Flt.ulp 24) * Flt.tiny 149 ≤ 2 := by
    calc _ ≤ 2 * 1 := mul_le_mul u2 hτ ht.le (by norm_num)
      _ = 2 := by norm_num
  have b3 := b2.one_mul hp
  have e3 := dbound _ _ b2.nonneg e2
  have v1 := a4.add hp (b3.mono (c' := 1 + n + 1 + 1) (by omega) (le_refl _))
  have e4 := mul_le_mul u2 (add_le_add d4 e3) (add_nonneg a4.nonneg b3.nonneg) (by norm_num)
  have big : (2 : ℚ) * (2 * (2 * 2 ^ 24 + 1) + 1 + (2 * 2 + 1)) ≤ 2 ^ 126 := by norm_num
  have f1 := check_finite (finite_of_approx a3 (pw _ (by omega)) (part n (le_refl _)) (by
    have : (2 : ℚ) * 2 ^ 24 + 1 ≤ 2 ^ 126 := by norm_num
    linarith))
  have f2 := check_finite (finite_of_approx a4 (pw _ (by omega)) (part n (le_refl _)) (by
    have : (2 : ℚ) * (2 * 2 ^ 24 + 1) + 1 ≤ 2 ^ 126 := by norm_num
    linarith))
  have hβ : |β.value| ≤ 2 ^ 126 := by linarith
  have f3 := check_finite (finite_of_approx b1 (pw _ (by omega)) hβ (by linarith [show (1 : ℚ) ≤ 2 ^ 126 by norm_num]))
  have f4 := check_finite (finite_of_approx b2 (pw _ (by omega)) hβ (by linarith [show (2 : ℚ) ≤ 2 ^ 126 by norm_num]))
  have f5 := check_finite (finite_of_approx b3 (pw _ (by omega)) hβ (by linarith [show (2 : ℚ) * 2 + 1 ≤ 2 ^ 126 by norm_num]))
  have fin := finite_of_approx v1 (pw _ (by omega)) (by linarith) (e4.trans big)
  have f6 := check_finite fin
  unfold gemmValue
  rw [if_neg single_one_ne_zero, if_neg (show (1 : Checked) ≠ 0 by decide +kernel), c2 n (le_refl _), val_checked]
  refine ⟨?_, fin⟩
  show Checked.of 1 * (Checked.of 1 * Checked.of (sumTo t n)) +
    Checked.of 1 * (Checked.of 0 + Checked.of β * Checked.of 1) = _
  rw [checked_mul 1, f1, checked_mul, f2, checked_mul, f3, checked_add, f4, checked_mul, f5, checked_add]
  exact f6

/-- C94 with overflow: if for every output the absolute values of what is added have a sum of at most 2^126, no operation of
the forward pass overflows: all outputs are finite numbers, with the errors of `C94_forward`. -/
theorem C94_no_overflow (l : Layer Checked) (h : l.Connected) (hd : l.dropout = 0) (testing : Bool) (w b x : Tensor Single)
    (hw : l.weights = checked w) (hb : l.bias = checked b) (hx : l.input = checked x)
    (hN : products l.params l.inputMaps + 4 ≤ 2 ^ 23)
    (hA : ∀ ox oy om s, ox < l.outputWidth → oy < l.outputHeight → om < l.params.outputMaps → s < l.input.samples →
      exactAt l.params l.inputMaps (absTensor (valueTensor w)) (absTensor (valueTensor b)) (absTensor (valueTensor x)) ox oy om s ≤
        2 ^ 126) :
    ∃ l', l.feedForward testing = .done l' ∧ l'.Connected ∧
      ∀ ox oy om s, ox < l.outputWidth → oy < l.outputHeight → om < l.params.outputMaps → s < l.input.samples →
        ∃ v : Single, l'.output.get ox oy om s = some (Checked.of v) ∧ v.Finite ∧
        |v.value - exactAt l.params l.inputMaps (valueTensor w) (valueTensor b) (valueTensor x) ox oy om s| ≤
          (products l.params l.inputMaps + 4) / 2 ^ 23 *
            exactAt l.params l.inputMaps (absTensor (valueTensor w)) (absTensor (valueTensor b)) (absTensor (valueTensor x)) ox oy om s +
          (products l.params l.inputMaps + 4) / 2 ^ 149 := by
  obtain ⟨l', h1, h2, h3, _, _, h6⟩ := forward_fold_spec h testing (Or.inr hd)
  refine ⟨l', h1, h3, ?_⟩
  intro ox oy om s hox hoy hom hs
  have h7 := h6 ox oy om s ⟨by rw [h.output.2.1]; exact hox, by rw [h.output.2.2.1]; exact hoy,
    by rw [h.output.2.2.2.1]; exact hom, by rw [h.output.1]; exact hs⟩
  have hwt : (if testing = true then 1 - l.dropout else (1 : Checked)) = 1 := by
    rw [hd, show (1 : Checked) - 0 = 1 by decide +kernel]; exact ite_self _
  rw [hwt, hw, hb, hx] at h7
  obtain ⟨k1, k2⟩ := output_finite w b x l.params l.inputMaps ox oy om s hN (hA ox oy om s hox hoy hom hs)
  exact ⟨_, h7.trans (congrArg some k1), k2, output_err _ _ _ _ _ _ _ _ _ hN⟩

/-- The bound cannot be left out: the product of two numbers of the format can be infinite, and then the output is not a number
of the format at all. -/
theorem C94_overflow : ∃ a b : Single, a.Finite ∧ b.Finite ∧ Checked.of a * Checked.of b = Checked.overflow :=
  ⟨⟨2 ^ (64 + 149)⟩, ⟨2 ^ (64 + 149)⟩, by decide +kernel, by decide +kernel, by decide +kernel⟩

/-! ### Errors through the layers -/

/-- The single precision tensor holds the numbers of the exact one up to `ε`. -/
def Near (ε : ℚ) (t : Tensor Single) (x : Tensor ℚ) : Prop :=
  Sh t x ∧ x.WF ∧ ∀ i j m s, x.InRange i j m s → |(t.val i j m s).value - x.val i j m s| ≤ ε

theorem pixel_near {ε : ℚ} (hε : 0 ≤ ε) {t : Tensor Single} {x : Tensor ℚ} (h : Near ε t x) {i j : Int} {m s : Nat} (hm : m < x.maps)
    (hs : s < x.samples) : |Props.pixel (valueTensor t) i j m s - Props.pixel x i j m s| ≤ ε := by
  obtain ⟨h1, h2, h3⟩ := h
  unfold Props.pixel
  show |(if 0 ≤ i ∧ i < t.width ∧ 0 ≤ j ∧ j < t.height then _ else _) - _| ≤ ε
  rw [h1.2.1, h1.2.2.1]
  split
  · rw [val_value]
    exact h3 _ _ _ _ ⟨by omega, by omega, hm, hs⟩
  · simpa using hε

theorem pixel_bound {X : ℚ} (hX : 0 ≤ X) {x : Tensor ℚ} (h : ∀ i j m s, x.InRange i j m s → |x.val i j m s| ≤ X) {i j : Int} {m s : Nat}
    (hm : m < x.maps) (hs : s < x.samples) : |Props.pixel x i j m s| ≤ X := by
  unfold Props.pixel
  split
  · exact h _ _ _ _ ⟨by omega, by omega, hm, hs⟩
  · simpa using hX

/-- The sum of the absolute values of the weights of an output map. -/
def weightSum (p : Params) (inputMaps : Nat) (w : Tensor ℚ) (om : Nat) : ℚ :=
  ∑ im ∈ Finset.range (inputMaps / p.group), ∑ ky ∈ Finset.range p.kernelHeight, ∑ kx ∈ Finset.range p.kernelWidth,
    |w.val kx ky im om|

theorem group_map_lt {l : Layer Single} (h : l.Connected) {om im : Nat} (hom : om < l.params.outputMaps)
    (him : im < l.inputMaps / l.params.group) :
    om / (l.params.outputMaps / l.params.group) * (l.inputMaps / l.params.group) + im < l.inputMaps := by
  obtain ⟨OG, hOG⟩ := h.group_out
  obtain ⟨IG, hIG⟩ := h.group_in
  have hG := h.group_pos
  rw [hIG, Nat.mul_div_cancel_left _ hG] at him ⊢
  rw [hOG] at hom ⊢
  rw [Nat.mul_div_cancel_left _ hG]
  have hpos : 0 < OG := by
    rcases Nat.eq_zero_or_pos OG with h0 | h0
    · rw [h0] at hom; simp at hom
    · exact h0
  exact radix_lt ((Nat.div_lt_iff_lt_mul hpos).2 hom) him

theorem exactAt_lipschitz (p : Params) (inputMaps : Nat) (w b x y : Tensor ℚ) (ox oy om s : Nat) (ε : ℚ)
    (h : ∀ i j im, im < inputMaps / p.group →
      |Props.pixel x i j (om / (p.outputMaps / p.group) * (inputMaps / p.group) + im) s -
        Props.pixel y i j (om / (p.outputMaps / p.group) * (inputMaps / p.group) + im) s| ≤ ε) :
    |exactAt p inputMaps w b x ox oy om s - exactAt p inputMaps w b y ox oy om s| ≤ weightSum p inputMaps w om * ε := by
  unfold exactAt weightSum
  dsimp only
  rw [add_sub_add_left_eq_sub]
  simp only [← Finset.sum_sub_distrib, ← mul_sub, Finset.sum_mul]
  refine (Finset.abs_sum_le_sum_abs _ _).trans (Finset.sum_le_sum fun im him => ?_)
  refine (Finset.abs_sum_le_sum_abs _ _).trans (Finset.sum_le_sum fun ky _ => ?_)
  refine (Finset.abs_sum_le_sum_abs _ _).trans (Finset.sum_le_sum fun kx _ => ?_)
  rw [abs_mul]
  exact mul_le_mul_of_nonneg_left (h _ _ im (Finset.mem_range.1 him)) (abs_nonneg _)

theorem exactAt_size (p : Params) (inputMaps : Nat) (w b x : Tensor ℚ) (ox oy om s : Nat) (X : ℚ)
    (h : ∀ i j im, im < inputMaps / p.group →
      |Props.pixel x i j (om / (p.outputMaps / p.group) * (inputMaps / p.group) + im) s| ≤ X) :
    exactAt p inputMaps (absTensor w) (absTensor b) (absTensor x) ox oy om s ≤
      |b.val om 0 0 0| + weightSum p inputMaps w om * X := by
  unfold exactAt weightSum
  dsimp only
  rw [val_abs]
  simp only [Finset.sum_mul]
  refine add_le_add (le_refl _) (Finset.sum_le_sum fun im him => Finset.sum_le_sum fun ky _ => Finset.sum_le_sum fun kx _ => ?_)
  rw [val_abs, ← padded_eq_pixel, padded_abs, padded_eq_pixel]
  exact mul_le_mul_of_nonneg_left (h _ _ im (Finset.mem_range.1 him)) (abs_nonneg _)

/-- C94: a convolution layer turns an input that is exact up to `ε` into an output that is exact up to `W ε`, with `W` the
largest sum of absolute values of the weights of an output, plus the rounding of the layer itself. -/
theorem C94_convolution (l : Layer Single) (h : l.Connected) (hd : l.dropout = 0) (testing : Bool)
    (hN : products l.params l.inputMaps + 4 ≤ 2 ^ 23) (ε W B X : ℚ) (hε : 0 ≤ ε) (hX0 : 0 ≤ X) (x y : Tensor ℚ)
    (hx : Near ε l.input x) (hX : ∀ i j m s, x.InRange i j m s → |x.val i j m s| ≤ X)
    (hW : ∀ om, om < l.params.outputMaps → weightSum l.params l.inputMaps (valueTensor l.weights) om ≤ W)
    (hB : ∀ om, om < l.params.outputMaps → |(l.bias.val om 0 0 0).value| ≤ B)
    (hy : y.Is l.input.samples l.outputWidth l.outputHeight l.params.outputMaps)
    (hyv : ∀ ox oy om s, y.InRange ox oy om s → y.val ox oy om s =
      exactAt l.params l.inputMaps (valueTensor l.weights) (valueTensor l.bias) x ox oy om s) :
    ∃ l', l.feedForward testing = .done l' ∧ l'.Connected ∧
      Near (W * ε + (products l.params l.inputMaps + 4) / 2 ^ 23 * (B + W * (X + ε)) +
        (products l.params l.inputMaps + 4) / 2 ^ 149) l'.output y := by
  obtain ⟨l', h1, h2, ⟨a, b, c, h3⟩, h4⟩ := C94_forward l h hd testing hN
  refine ⟨l', h1, h2, ?_, hy.2.2.2.2, ?_⟩
  · have ho := h2.output
    subst h3
    exact ⟨ho.1.trans hy.1.symm, ho.2.1.trans hy.2.1.symm, ho.2.2.1.trans hy.2.2.1.symm, ho.2.2.2.1.trans hy.2.2.2.1.symm⟩
  · intro ox oy om s hin
    obtain ⟨i1, i2, i3, i4⟩ := hin
    have i1' := i1; have i2' := i2; have i3' := i3; have i4' := i4
    rw [hy.2.1] at i1'
    rw [hy.2.2.1] at i2'
    rw [hy.2.2.2.1] at i3'
    rw [hy.1] at i4'
    obtain ⟨v, hv, hverr⟩ := h4 ox oy om s i1' i2' i3' i4'
    rw [val_of_get hv, hyv ox oy om s ⟨i1, i2, i3, i4⟩]
    have hsx : s < x.samples := by rw [← hx.1.1]; exact i4'
    have hmx : ∀ im, im < l.inputMaps / l.params.group →
        om / (l.params.outputMaps / l.params.group) * (l.inputMaps / l.params.group) + im < x.maps := by
      intro im him
      rw [← hx.1.2.2.2, h.input.2.2.2.1]
      exact group_map_lt h i3' him
    have k1 := exactAt_lipschitz l.params l.inputMaps (valueTensor l.weights) (valueTensor l.bias) (valueTensor l.input) x
      ox oy om s ε (fun i j im him => pixel_near hε hx (hmx im him) hsx)
    have k2 := exactAt_size l.params l.inputMaps (valueTensor l.weights) (valueTensor l.bias) (valueTensor l.input)
      ox oy om s (X + ε) (by
        intro i j im him
        have e1 := pixel_near hε hx (i := i) (j := j) (hmx im him) hsx
        have e2 := pixel_bound hX0 hX (i := i) (j := j) (hmx im him) hsx
        have := abs_sub_abs_le_abs_sub (Props.pixel (valueTensor l.input) i j
          (om / (l.params.outputMaps / l.params.group) * (l.inputMaps / l.params.group) + im) s) (Props.pixel x i j
          (om / (l.params.outputMaps / l.params.group) * (l.inputMaps / l.params.group) + im) s)
        linarith)
    have k3 := hW om i3'
    have k4 := hB om i3'
    rw [← val_value] at k4
    have k5 : weightSum l.params l.inputMaps (valueTensor l.weights) om * ε ≤ W * ε := mul_le_mul_of_nonneg_right k3 hε
    have k6 : weightSum l.params l.inputMaps (valueTensor l.weights) om * (X + ε) ≤ W * (X + ε) :=
      mul_le_mul_of_nonneg_right k3 (by linarith)
    have k7 : ((products l.params l.inputMaps : ℚ) + 4) / 2 ^ 23 *
        exactAt l.params l.inputMaps (absTensor (valueTensor l.weights)) (absTensor (valueTensor l.bias))
          (absTensor (valueTensor l.input)) ox oy om s ≤
        ((products l.params l.inputMaps : ℚ) + 4) / 2 ^ 23 * (B + W * (X + ε)) :=
      mul_le_mul_of_nonneg_left (by linarith) (by positivity)
    have k8 := abs_sub_le v.value (exactAt l.params l.inputMaps (valueTensor l.weights) (valueTensor l.bias)
      (valueTensor l.input) ox oy om s) (exactAt l.params l.inputMaps (valueTensor l.weights) (valueTensor l.bias) x ox oy om s)
    linarith

/-- C94: the rectifier adds no error. -/
theorem C94_rectifier (ε : ℚ) (input output : Tensor Single) (x y : Tensor ℚ) (hi : input.WF) (ho : output.WF)
    (hs : Sh input output) (hx : Near ε input x) (hy : y.WF) (hxy : Sh x y)
    (hyv : ∀ i j m s, y.InRange i j m s → y.val i j m s = max 0 (x.val i j m s)) :
    ∃ out', Activations.reluForward input output = some out' ∧ out'.WF ∧ Near ε out' y := by
  obtain ⟨u, h1, h2, h3, h4⟩ := Activations.elementwise_map ho hi hs (Activations.relu (R := Single))
  refine ⟨u, h1, h3, ?_, hy, ?_⟩
  · exact (h2.symm.trans hs.symm).trans (hx.1.trans hxy)
  · intro i j m s hin
    have hinx : x.InRange i j m s := hxy.inRange.1 hin
    have hini : input.InRange i j m s := hx.1.inRange.1 hinx
    have hino : output.InRange i j m s := hs.inRange.2 hini
    have hg := h4 i j m s hino
    rw [get_eq_val hi hini, Option.map_some] at hg
    rw [val_of_get hg, hyv i j m s hin]
    have hr : (Activations.relu (input.val i j m s)).value = max 0 (input.val i j m s).value := by
      unfold Activations.relu
      split
      · rename_i h
        rw [← Flt.value_lt, Flt.value_zero] at h
        exact (max_eq_right h.le).symm
      · rename_i h
        rw [← Flt.value_lt, Flt.value_zero] at h
        rw [Flt.value_zero]
        exact (max_eq_left (not_lt.1 h)).symm
    rw [hr]
    exact (abs_max_sub_max_le_max _ _ _ _).trans (by
      rw [sub_self, abs_zero]
      exact max_le ((abs_nonneg _).trans (hx.2.2 i j m s hinx)) (hx.2.2 i j m s hinx))

/-- Greatest values of two regions that are close are close. -/
theorem region_near {ε : ℚ} {t : Tensor Single} {x : Tensor ℚ} (h : Near ε t x) (ht : t.WF) {x0 y0 rw rh m s : Nat} {v : Single} {w : ℚ}
    (hin : ∀ i j, i < rw → j < rh → x.InRange (x0 + i) (y0 + j) m s)
    (hv : RegionMax t x0 y0 rw rh m s v) (hw : RegionMax x x0 y0 rw rh m s w) : |v.value - w| ≤ ε := by
  obtain ⟨hsh, hx, hn⟩ := h
  have near : ∀ i j, i < rw → j < rh → ∃ a b, t.get (x0 + i) (y0 + j) m s = some a ∧ x.get (x0 + i) (y0 + j) m s = some b ∧
      |a.value - b| ≤ ε := by
    intro i j hi hj
    have h1 := hin i j hi hj
    exact ⟨_, _, get_eq_val ht (hsh.inRange.1 h1), get_eq_val hx h1, hn _ _ _ _ h1⟩
  obtain ⟨⟨i, j, hi, hj, hg⟩, hmax⟩ := hv
  obtain ⟨⟨i', j', hi', hj', hg'⟩, hmax'⟩ := hw
  obtain ⟨a, b, e1, e2, e3⟩ := near i j hi hj
  obtain ⟨a', b', f1, f2, f3⟩ := near i' j' hi' hj'
  rw [hg] at e1
  rw [hg'] at f2
  have e1' := Option.some.inj e1
  have f2' := Option.some.inj f2
  subst e1' f2'
  have k1 := hmax' i j b hi hj e2
  have k2 : a'.value ≤ v.value := (Flt.value_le a' v).2 (hmax i' j' a' hi' hj' f1)
  rw [abs_le] at e3 f3 ⊢
  constructor <;> linarith

/-- C94: max pooling adds no error. -/
theorem C94_max_pooling (ε : ℚ) (input out : Tensor Single) (x y : Tensor ℚ) (mx my : Tensor Nat) (lowest : Single) (rw rh : Nat)
    (hrw : 0 < rw) (hrh : 0 < rh) (hi : input.WF) (hm : mx.WF) (hmy : my.WF) (ho : out.WF) (h1 : Sh out mx) (h2 : Sh out my)
    (hs : out.samples = input.samples) (hmaps : out.maps = input.maps) (hw : input.width = out.width * rw)
    (hh : input.height = out.height * rh) (hlow : ∀ v ∈ input.data, lowest ≤ v)
    (hx : Near ε input x) (hy : y.WF) (hsy : Sh out y)
    (hyv : ∀ ox oy m s, y.InRange ox oy m s → RegionMax x (ox * rw) (oy * rh) rw rh m s (y.val ox oy m s)) :
    ∃ mx' my' out', Pooling.forward lowest rw rh input ((mx, my), out) = some ((mx', my'), out') ∧ out'.WF ∧ Near ε out' y := by
  obtain ⟨mx', my', out', g1, g2, g3, g4⟩ := C39_forward input out mx my lowest rw rh hrw hrh hi hm hmy ho h1 h2 hs hmaps hw hh hlow
  refine ⟨mx', my', out', g1, g3, g2.symm.trans hsy, hy, ?_⟩
  intro ox oy m s hin
  have hino : out.InRange ox oy m s := hsy.inRange.1 hin
  obtain ⟨v, e1, e2⟩ := g4 ox oy m s hino
  rw [val_of_get e1]
  refine region_near hx hi ?_ e2 (hyv ox oy m s hin)
  intro i j hi' hj'
  obtain ⟨i1, i2, i3, i4⟩ := hino
  have r1 := radix_lt i1 hi'
  have r2 := radix_lt i2 hj'
  obtain ⟨s1, s2, s3, s4⟩ := hx.1
  exact ⟨by omega, by omega, by omega, by omega⟩

/-- C94: max pooling with strides adds no error. -/
theorem C94_strided_pooling (ε : ℚ) (input out : Tensor Single) (x y : Tensor ℚ) (mask : Tensor Nat) (lowest : Single)
    (rw rh sw sh : Nat) (hrw : 0 < rw) (hrh : 0 < rh) (hi : input.WF) (hm : mask.WF) (ho : out.WF) (h1 : Sh out mask)
    (hs : out.samples = input.samples) (hmaps : out.maps = input.maps)
    (hw : ∀ ox, ox < out.width → ox * sw + rw ≤ input.width) (hh : ∀ oy, oy < out.height → oy * sh + rh ≤ input.height)
    (hlow : ∀ v ∈ input.data, lowest ≤ v)
    (hx : Near ε input x) (hy : y.WF) (hsy : Sh out y)
    (hyv : ∀ ox oy m s, y.InRange ox oy m s → RegionMax x (ox * sw) (oy * sh) rw rh m s (y.val ox oy m s)) :
    ∃ mask' out', Pooling.advForward lowest rw rh sw sh input (mask, out) = some (mask', out') ∧ out'.WF ∧ Near ε out' y := by
  obtain ⟨mask', out', g1, g2, g3, g4⟩ := C40_forward input out mask lowest rw rh sw sh hrw hrh hi hm ho h1 hs hmaps hw hh hlow
  refine ⟨mask', out', g1, g3, g2.symm.trans hsy, hy, ?_⟩
  intro ox oy m s hin
  have hino : out.InRange ox oy m s := hsy.inRange.1 hin
  obtain ⟨v, e1, e2⟩ := g4 ox oy m s hino
  rw [val_of_get e1]
  refine region_near hx hi ?_ e2 (hyv ox oy m s hin)
  intro i j hi' hj'
  obtain ⟨i1, i2, i3, i4⟩ := hino
  have r1 := hw ox i1
  have r2 := hh oy i2
  obtain ⟨s1, s2, s3, s4⟩ := hx.1
  exact ⟨by omega, by omega, by omega, by omega⟩

/-! ### Example -/

/-- A 2x1 kernel with weights one and 2^-24 on an image of ones. -/
def exampleLayer : Layer Single :=
  { Layer.connect ⟨1, 2, 1, 1, 1, 0, 0, 1⟩ 0 1 2 1 1 1 1 with
    weights := ⟨1, 2, 1, 1, [1, ⟨2 ^ 125⟩]⟩
    bias := ⟨1, 1, 1, 1, [1]⟩
    input := ⟨1, 2, 1, 1, [1, 1]⟩ }

/-- Non-vacuity: the sum 1 + 2^-24 is rounded to 1, and so the output is 2 instead of 2 + 2^-24: there is an error, and it
is within the bound. -/
example : (match exampleLayer.feedForward true with | .done l => some (l.output.data.map Flt.value) | _ => none) = some [2] ∧
    exactAt exampleLayer.params exampleLayer.inputMaps (valueTensor exampleLayer.weights) (valueTensor exampleLayer.bias)
      (valueTensor exampleLayer.input) 0 0 0 0 = 2 + 1 / 2 ^ 24 := by
  constructor <;> decide +kernel

/-- Non-vacuity: the example meets the hypotheses. -/
example : exampleLayer.Connected ∧ exampleLayer.dropout = 0 ∧
    products exampleLayer.params exampleLayer.inputMaps + 4 ≤ 2 ^ 23 := by
  have hc : (Layer.connect ⟨1, 2, 1, 1, 1, 0, 0, 1⟩ (0 : Single) 1 2 1 1 1 1).Connected :=
    ⟨by decide, by decide, by decide, by decide, by decide, by decide,
      Tensor.Is.fill' .., Tensor.Is.fill' .., Tensor.Is.fill' .., Tensor.Is.fill' .., Tensor.Is.fill' .., Tensor.Is.fill' ..,
      Tensor.Is.fill' .., Tensor.Is.fill' .., Tensor.Is.fill' .., Tensor.Is.fill' .., Tensor.Is.fill' .., Tensor.Is.fill' ..,
      Tensor.Is.fill' .., fun v hv => List.eq_of_mem_replicate hv⟩
  exact ⟨{ hc with
    weights := ⟨rfl, rfl, rfl, rfl, rfl⟩
    bias := ⟨rfl, rfl, rfl, rfl, rfl⟩
    input := ⟨rfl, rfl, rfl, rfl, rfl⟩ }, rfl, by decide⟩

/-- A layer like `exampleLayer`, with numbers that can overflow. -/
def checkedLayer : Layer Checked :=
  { Layer.connect ⟨1, 2, 1, 1, 1, 0, 0, 1⟩ 0 1 2 1 1 1 1 with
    weights := checked exampleLayer.weights
    bias := checked exampleLayer.bias
    input := checked exampleLayer.input }

/-- Non-vacuity: it meets the hypotheses of `C94_no_overflow`. -/
example : checkedLayer.Connected ∧ checkedLayer.dropout = 0 ∧
    products checkedLayer.params checkedLayer.inputMaps + 4 ≤ 2 ^ 23 ∧
    exactAt checkedLayer.params checkedLayer.inputMaps (absTensor (valueTensor exampleLayer.weights))
      (absTensor (valueTensor exampleLayer.bias)) (absTensor (valueTensor exampleLayer.input)) 0 0 0 0 ≤ 2 ^ 126 := by
  have hc : (Layer.connect ⟨1, 2, 1, 1, 1, 0, 0, 1⟩ (0 : Checked) 1 2 1 1 1 1).Connected :=
    ⟨by decide, by decide, by decide, by decide, by decide, by decide,
      Tensor.Is.fill' .., Tensor.Is.fill' .., Tensor.Is.fill' .., Tensor.Is.fill' .., Tensor.Is.fill' .., Tensor.Is.fill' ..,
      Tensor.Is.fill' .., Tensor.Is.fill' .., Tensor.Is.fill' .., Tensor.Is.fill' .., Tensor.Is.fill' .., Tensor.Is.fill' ..,
      Tensor.Is.fill' .., fun v hv => List.eq_of_mem_replicate hv⟩
  exact ⟨{ hc with
    weights := ⟨rfl, rfl, rfl, rfl, rfl⟩
    bias := ⟨rfl, rfl, rfl, rfl, rfl⟩
    input := ⟨rfl, rfl, rfl, rfl, rfl⟩ }, rfl, by decide, by decide +kernel⟩

end CN24.Rounding
